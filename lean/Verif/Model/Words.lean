import Verif.Model.Pss

/-
Signature verification on machines with words of `w` octets.

`crypto-bigint` stores integers in limbs of one machine word: eight octets on a 64-bit target, four on a 32-bit one. The
other model files are about eight. Here the functions of a verifier, and of the signature types, are written again with
the number of octets in a limb as a parameter `w`. The padding checks, which work on octet strings, are those of the other
files. Of the public key the Montgomery parameters are left out: they are those of the modulus
(`PublicKey.Coherent`), which is odd for that reason.
-/
namespace RSA
namespace words
open BoxedUint (beBytes beVal)

/-- `crypto_bigint::BoxedUint` on a machine with words of `w` octets. -/
structure Uint (w : Nat) where
  nlimbs : Nat
  val : Nat
  isLt : val < 2 ^ (8 * w * nlimbs)
  deriving DecidableEq, Repr

namespace Uint
variable {w : Nat}

/-- Keep the low `l` limbs. -/
def wrap (l v : Nat) : Uint w := ⟨l, v % 2 ^ (8 * w * l), Nat.mod_lt _ (Nat.two_pow_pos _)⟩

/-- `bits_precision()`. -/
def prec (x : Uint w) : Nat := 8 * w * x.nlimbs

/-- `bits()`. -/
def bits (x : Uint w) : Nat := if x.val = 0 then 0 else x.val.log2 + 1

/-- `leading_zeros()`. -/
def leadingZeros (x : Uint w) : Nat := x.prec - x.bits

/-- Number of limbs allocated for a requested precision in bits. -/
def limbsFor (w bits : Nat) : Nat := max 1 (divCeil bits (8 * w))

/-- `Ord`. -/
def lt (x y : Uint w) : Bool := x.val < y.val
def ge (x y : Uint w) : Bool := !(lt x y)

/-- `widen(at_least_bits)`. -/
def widen (x : Uint w) (bits : Nat) : Res (Uint w) :=
  if x.prec ≤ bits then .ok (wrap (limbsFor w bits) x.val) else .panic .precision

/-- `shorten(at_least_bits)`. -/
def shorten (x : Uint w) (bits : Nat) : Res (Uint w) :=
  if bits ≤ x.prec then .ok (wrap (limbsFor w bits) x.val) else .panic .precision

/-- `to_be_bytes()`: all `w * nlimbs` octets. -/
def toBeBytes (x : Uint w) : Bytes := beBytes (w * x.nlimbs) x.val

/-- `from_be_slice(bytes, bits_precision)`. -/
def fromBeSlice (w : Nat) (b : Bytes) (bits : Nat) : Res (Uint w) :=
  if b.length > divCeil bits 8 then .err (.decode .inputSize)
  else
    let x := wrap (limbsFor w bits) (beVal b)
    if x.bits > bits then .err (.decode .precision) else .ok x

end Uint
open Uint

variable {w : Nat}

/-- src/key.rs:27-39 `RsaPublicKey`. -/
structure PubKey (w : Nat) where
  n : Uint w
  e : Uint w
  odd : n.val % 2 = 1
  deriving DecidableEq, Repr

/-- src/traits/keys.rs:17-21 `PublicKeyParts::size`. -/
def PubKey.size (k : PubKey w) : Nat := divCeil k.n.bits 8

/-- src/traits/keys.rs:26-29 `PublicKeyParts::n_bits_precision`. -/
def PubKey.nBitsPrecision (k : PubKey w) : Nat := k.n.prec

/-- src/algorithms/rsa.rs:211-223 `reduce_vartime`; the residue. `BoxedMontyForm::new` insists on equal precisions. -/
def reduceVartime (x n : Uint w) : Res Nat := do
  let bitsPrecision := n.prec
  let x ← if x.prec < bitsPrecision then x.widen bitsPrecision
          else if x.prec = bitsPrecision then .ok x
          else x.shorten bitsPrecision
  let xReduced ← (wrap (w := w) n.nlimbs (x.val % n.val)).widen n.prec
  if xReduced.prec = n.prec then .ok (xReduced.val % n.val) else .panic .precision

/-- src/algorithms/rsa.rs:205-209 `pow_mod_params`. -/
def powModParams (base exp n : Uint w) : Res (Uint w) := do
  let base ← reduceVartime base n
  .ok (wrap n.nlimbs (MontyForm.powMod base exp.val n.val))

/-- src/algorithms/rsa.rs:13-23 `rsa_encrypt`. -/
def rsaEncrypt (key : PubKey w) (m : Uint w) : Res (Uint w) := powModParams m key.e key.n

/-- src/algorithms/pad.rs:24-28 `uint_to_be_pad`. -/
def uintToBePad (input : Uint w) (paddedLen : Nat) : Res Bytes := do
  let lz := input.leadingZeros / 8
  let b ← sliceFrom input.toBeBytes lz
  leftPad b paddedLen

/-- src/pkcs1v15.rs:202-211 `verify`. -/
def pkcs1v15Verify (pubKey : PubKey w) (pfx hashed : Bytes) (sig : Uint w) : Res Unit := do
  let n := pubKey.n
  if sig.ge n || sig.prec != pubKey.nBitsPrecision then
    .err .verification
  else
    let em ← uintToBePad (← rsaEncrypt pubKey sig) pubKey.size
    pkcs1v15SignUnpad pfx hashed em pubKey.size

/-- src/pss.rs:127-142 `verify`. -/
def pssVerify (pubKey : PubKey w) (hashed : Bytes) (sig : Uint w) (sigLen : Nat) (digest : DigestState)
    (saltLen : Nat) : Res Unit := do
  if sigLen ≠ pubKey.size then
    .err .verification
  else
    let raw ← rsaEncrypt pubKey sig
    let em ← uintToBePad raw pubKey.size
    emsaPssVerify hashed em saltLen digest pubKey.n.bits

/-- src/pss.rs:144-161 `verify_digest::<D>`. -/
def pssVerifyDigest (D : HashFn) (pubKey : PubKey w) (hashed : Bytes) (sig : Uint w) (saltLen : Nat) : Res Unit := do
  let n := pubKey.n
  if sig.ge n || sig.prec != pubKey.nBitsPrecision then
    .err .verification
  else
    let em ← uintToBePad (← rsaEncrypt pubKey sig) pubKey.size
    emsaPssVerifyDigest hashed em saltLen D pubKey.n.bits

/-- src/pkcs1v15/signature.rs:33-47 and src/pss/signature.rs:33-48 `TryFrom<&[u8]> for Signature`. -/
def sigTryFrom (w : Nat) (b : Bytes) : Res (Uint w) := do
  let bits ← lenBitsU32 b.length
  fromBeSlice w b bits

/-- src/pkcs1v15/signature.rs:49-53 and src/pss/signature.rs:50-54 `From<Signature> for Box<[u8]>` (`to_bytes`). -/
def sigToBytes (s : Uint w) : Bytes := s.toBeBytes

/-- src/pkcs1v15.rs:118-131 `SignatureScheme::verify for Pkcs1v15Sign`. -/
def Pkcs1v15Sign.verify (S : pkcs1v15.Pkcs1v15Sign) (pubKey : PubKey w) (hashed sig : Bytes) : Res Unit := do
  S.checkHashLen hashed
  let bits ← lenBitsU32 sig.length
  let s ← fromBeSlice w sig bits
  pkcs1v15Verify pubKey S.pfx hashed s

/-- src/pss.rs:105-114 `SignatureScheme::verify for Pss`. -/
def Pss.verify (S : pss.Pss) (pubKey : PubKey w) (hashed sig : Bytes) : Res Unit := do
  let bits ← lenBitsU32 sig.length
  let s ← fromBeSlice w sig bits
  pssVerify pubKey hashed s sig.length S.digest S.saltLen

/-- src/pkcs1v15/verifying_key.rs:93-100 `PrehashVerifier::verify_prehash`, of a signature read from octets. -/
def pkcs1v15VerifyBytes (pubKey : PubKey w) (pfx prehash sig : Bytes) : Res Unit := do
  let s ← sigTryFrom w sig
  pkcs1v15Verify pubKey pfx prehash s

/-- src/pss/verifying_key.rs:75-83 `PrehashVerifier::verify_prehash`, of a signature read from octets. -/
def pssVerifyBytes (D : HashFn) (pubKey : PubKey w) (saltLen : Nat) (prehash sig : Bytes) : Res Unit := do
  let s ← sigTryFrom w sig
  pssVerifyDigest D pubKey prehash s saltLen

end words
end RSA
