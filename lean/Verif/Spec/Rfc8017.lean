import Verif.Model.Prelude
import Mathlib.Data.Nat.Size

/-
Independent specifications taken from RFC 8017 (PKCS #1 v2.2). Only the type `Bytes` is shared with the model.
-/
namespace RSA.Spec

/-- RFC 8017 §4.2 OS2IP. -/
def os2ip : Bytes → Nat
  | [] => 0
  | x :: xs => x.toNat * 256 ^ xs.length + os2ip xs

/-- RFC 8017 §4.1 I2OSP: "integer too large" is `none`. -/
def i2osp (x len : Nat) : Option Bytes :=
  if x < 256 ^ len then some ((List.range len).map fun i => UInt8.ofNat (x / 256 ^ (len - 1 - i) % 256)) else none

/-- Length in octets of the modulus. -/
def octetLen (n : Nat) : Nat := (n.size + 7) / 8

/-- Bitwise exclusive or of two octet strings. -/
def xorBytes (a b : Bytes) : Bytes := List.zipWith (· ^^^ ·) a b

/-- RFC 8017 §B.2.1 MGF1 with hash `H` of output length `hLen`: the leading `maskLen` octets of
`H(seed ‖ 0) ‖ H(seed ‖ 1) ‖ ...`, counters on four octets. -/
def mgf1 (H : Bytes → Bytes) (hLen : Nat) (seed : Bytes) (maskLen : Nat) : Bytes :=
  (((List.range ((maskLen + hLen - 1) / hLen)).map
    (fun c => H (seed ++ (i2osp c 4).getD []))).flatten).take maskLen

/-- RFC 8017 §7.2.1 step 2: `em` is an EME-PKCS1-v1_5 encoding of `m` on `k` octets. -/
def IsEmePkcs1v15 (k : Nat) (m em : Bytes) : Prop :=
  ∃ ps : Bytes, em = [0x00, 0x02] ++ ps ++ [0x00] ++ m ∧ 8 ≤ ps.length ∧ (∀ b ∈ ps, b ≠ 0) ∧ em.length = k

/-- RFC 8017 §9.2 EMSA-PKCS1-v1_5 with `T = prefix ‖ digest` given: needs `k ≥ |T| + 11`. -/
def emsaPkcs1v15 (t : Bytes) (k : Nat) : Option Bytes :=
  if t.length + 11 ≤ k then some ([0x00, 0x01] ++ List.replicate (k - t.length - 3) 0xff ++ [0x00] ++ t) else none

/-- RFC 8017 §7.1.1 step 2, EME-OAEP encoding with label hash `lHash`, `mgf mask-seed length`, on `k` octets. -/
def emeOaep (lHash : Bytes) (mgf : Bytes → Nat → Bytes) (hLen k : Nat) (seed m : Bytes) : Bytes :=
  let db := lHash ++ List.replicate (k - m.length - 2 * hLen - 2) 0x00 ++ [0x01] ++ m
  let maskedDb := xorBytes db (mgf seed (k - hLen - 1))
  let maskedSeed := xorBytes seed (mgf maskedDb hLen)
  [0x00] ++ maskedSeed ++ maskedDb

/-- Clear the leftmost `z` bits (`z < 8`) of the leftmost octet. -/
def clearLeftBits (z : Nat) : Bytes → Bytes
  | [] => []
  | b :: bs => UInt8.ofNat (b.toNat % 2 ^ (8 - z)) :: bs

/-- RFC 8017 §9.1.1 EMSA-PSS-ENCODE from `mHash` on: `none` = "encoding error". -/
def emsaPss (H : Bytes → Bytes) (mgf : Bytes → Nat → Bytes) (hLen : Nat) (mHash salt : Bytes) (emBits : Nat) :
    Option Bytes :=
  let emLen := (emBits + 7) / 8
  if emLen < hLen + salt.length + 2 then none
  else
    let h := H (List.replicate 8 0x00 ++ mHash ++ salt)
    let db := List.replicate (emLen - salt.length - hLen - 2) 0x00 ++ [0x01] ++ salt
    let maskedDb := xorBytes db (mgf h (emLen - hLen - 1))
    some (clearLeftBits (8 * emLen - emBits) maskedDb ++ h ++ [0xbc])

/-- `em` is the EMSA-PSS encoding (MGF1 with the same hash) of `mHash` for some salt of exactly `sLen` octets. -/
def IsEmsaPss (H : Bytes → Bytes) (hLen : Nat) (mHash : Bytes) (sLen emBits : Nat) (em : Bytes) : Prop :=
  ∃ salt : Bytes, salt.length = sLen ∧ emsaPss H (mgf1 H hLen) hLen mHash salt emBits = some em

end RSA.Spec
