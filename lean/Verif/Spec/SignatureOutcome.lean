import Verif.Spec.Outcome

/-
C87: what becomes of every signature string, every signature object, and every salt length.
-/
namespace RSA.Spec

/-- Reading the octets `b` as a signature `sg` with the number `num sg`. The number of octets is cast to 32 bits and
multiplied by eight, so lengths from `2 ^ 29` on fail, in one of two ways. -/
inductive ParsesSignature {α : Type} (num : α → BoxedUint) (b : Bytes) : Res α → Prop
  | overflow (h : 2 ^ 29 ≤ b.length % 2 ^ 32) : ParsesSignature num b (.panic .arith)
  | huge (h : b.length % 2 ^ 32 < 2 ^ 29) (hs : 2 ^ 32 ≤ b.length) : ParsesSignature num b (.err (.decode .inputSize))
  | ok (h : b.length < 2 ^ 29) (sg : α) (hv : (num sg).val = os2ip b)
      (hl : (num sg).nlimbs = max 1 ((b.length + 7) / 8)) : ParsesSignature num b (.ok sg)

/-- Reading a signature from a serde document of which `holds b` says that it holds the octets `b`: all errors become one. -/
inductive ReadsSignature {α : Type} (num : α → BoxedUint) (holds : Bytes → Prop) : Res α → Prop
  | nothing (h : ∀ b, ¬ holds b) : ReadsSignature num holds (.err .pkcs8)
  | overflow (b : Bytes) (hb : holds b) (h : 2 ^ 29 ≤ b.length % 2 ^ 32) : ReadsSignature num holds (.panic .arith)
  | huge (b : Bytes) (hb : holds b) (h : b.length % 2 ^ 32 < 2 ^ 29) (hs : 2 ^ 32 ≤ b.length) :
      ReadsSignature num holds (.err .pkcs8)
  | ok (b : Bytes) (hb : holds b) (h : b.length < 2 ^ 29) (sg : α) (hv : (num sg).val = os2ip b)
      (hl : (num sg).nlimbs = max 1 ((b.length + 7) / 8)) : ReadsSignature num holds (.ok sg)

/-- The number `s` opens to the PKCS#1 v1.5 encoding of the prefixed digest under the key `(n, e)`. -/
def NumberOpensPkcs1v15 (n e : Nat) (pfx hashed : Bytes) (s : Nat) : Prop :=
  s < n ∧ ∃ em, emsaPkcs1v15 (pfx ++ hashed) (octetLen n) = some em ∧ i2osp (s ^ e % n) (octetLen n) = some em

/-- PKCS#1 v1.5 verification of a signature object whose number `s` is stored in `l` limbs, the modulus in `w`. -/
inductive ChecksPkcs1v15 (w l n e : Nat) (pfx hashed : Bytes) (s : Nat) : Res Unit → Prop
  | valid (hw : l = w) (h : NumberOpensPkcs1v15 n e pfx hashed s) : ChecksPkcs1v15 w l n e pfx hashed s (.ok ())
  | invalid (h : l ≠ w ∨ ¬ NumberOpensPkcs1v15 n e pfx hashed s) :
      ChecksPkcs1v15 w l n e pfx hashed s (.err .verification)

/-- The number `s` opens to a PSS encoding of the digest with a salt of `saltLen` octets under the key `(n, e)`. -/
def NumberOpensPss (n e : Nat) (D : HashFn) (saltLen : Nat) (hashed : Bytes) (s : Nat) : Prop :=
  hashed.length = D.outLen ∧ ∃ em, i2osp (s ^ e % n) (octetLen n) = some em ∧
    IsEmsaPss D.hash D.outLen hashed saltLen (n.size - 1) (em.drop (if n.size % 8 = 1 then 1 else 0))

/-- PSS verification of a signature object whose number `s` is stored in `l` limbs, the modulus in `w`, for every salt
length: lengths whose sum overflows a machine word are noticed only after the number and the digest passed the checks. -/
inductive ChecksPss (w l n e : Nat) (D : HashFn) (saltLen : Nat) (hashed : Bytes) (s : Nat) : Res Unit → Prop
  | valid (hs : s < n) (hw : l = w) (h : NumberOpensPss n e D saltLen hashed s) :
      ChecksPss w l n e D saltLen hashed s (.ok ())
  | salt (hs : s < n) (hw : l = w) (hh : hashed.length = D.outLen) (h : 2 ^ 64 ≤ D.outLen + saltLen + 2) :
      ChecksPss w l n e D saltLen hashed s (.panic .arith)
  | outside (h : n ≤ s ∨ l ≠ w ∨ hashed.length ≠ D.outLen) : ChecksPss w l n e D saltLen hashed s (.err .verification)
  | invalid (hs : s < n) (hw : l = w) (hh : hashed.length = D.outLen) (hl : D.outLen + saltLen + 2 < 2 ^ 64)
      (h : ¬ NumberOpensPss n e D saltLen hashed s) : ChecksPss w l n e D saltLen hashed s (.err .verification)

/-- PSS verification of the octet string `sig` against the key `(n, e)`, for every salt length. -/
inductive VerifiesPssAny (n e : Nat) (D : HashFn) (saltLen : Nat) (hashed sig : Bytes) : Res Unit → Prop
  | overflow (h : 2 ^ 29 ≤ sig.length % 2 ^ 32) : VerifiesPssAny n e D saltLen hashed sig (.panic .arith)
  | huge (h : sig.length % 2 ^ 32 < 2 ^ 29) (hs : 2 ^ 32 ≤ sig.length) :
      VerifiesPssAny n e D saltLen hashed sig (.err (.decode .inputSize))
  | outside (hs : sig.length < 2 ^ 29) (h : sig.length ≠ octetLen n ∨ hashed.length ≠ D.outLen) :
      VerifiesPssAny n e D saltLen hashed sig (.err .verification)
  | salt (hl : sig.length = octetLen n) (hh : hashed.length = D.outLen) (h : 2 ^ 64 ≤ D.outLen + saltLen + 2) :
      VerifiesPssAny n e D saltLen hashed sig (.panic .arith)
  | valid (hl : sig.length = octetLen n) (h : NumberOpensPss n e D saltLen hashed (os2ip sig)) :
      VerifiesPssAny n e D saltLen hashed sig (.ok ())
  | invalid (hl : sig.length = octetLen n) (hh : hashed.length = D.outLen) (hb : D.outLen + saltLen + 2 < 2 ^ 64)
      (h : ¬ NumberOpensPss n e D saltLen hashed (os2ip sig)) :
      VerifiesPssAny n e D saltLen hashed sig (.err .verification)

/-- The bit string of the signature octets `b`: no unused bits; DER cannot hold `2 ^ 28` octets or more. -/
inductive MakesBitString (b : Bytes) : Res (Nat × Bytes) → Prop
  | ok (h : b.length < 2 ^ 28) : MakesBitString b (.ok (0, b))
  | long (h : 2 ^ 28 ≤ b.length) : MakesBitString b (.err .pkcs8)

end RSA.Spec
