import Verif.Spec.KeyErrors
import Verif.Spec.Der
import Verif.Spec.Rfc8017

/-
What the numbers of an `RSAPrivateKey` document (RFC 8017 appendix A.1.2) must satisfy for the decoder to accept it.
-/
namespace RSA.Spec

/-- The width in bits of the whole 64-bit words that hold the octets of `n`. -/
def wordBits (n : Nat) : Nat := 64 * ((octetLen n + 7) / 8)

/-- The public part is acceptable, no other number is longer than the modulus, and the product is right in the width of
the modulus. -/
def FieldsFit (n e d p q : Nat) : Prop :=
  PublicOk (wordBits n) n e ∧ d < 256 ^ octetLen n ∧ p < 256 ^ octetLen n ∧ q < 256 ^ octetLen n ∧
    p * q % 2 ^ wordBits n = n

/-- The numbers make a key. -/
def FieldsOk (n e d p q : Nat) : Prop :=
  FieldsFit n e d p q ∧ 1 < p ∧ 1 < q ∧ d * e % (p - 1) = 1 ∧ d * e % (q - 1) = 1

/-- The numbers crash the decoder: the first factor to be checked and not refused is 1. -/
def FieldsPanic (n e d p q : Nat) : Prop :=
  FieldsFit n e d p q ∧ (p = 1 ∨ q = 1 ∧ 1 < p ∧ d * e % (p - 1) = 1)

end RSA.Spec
