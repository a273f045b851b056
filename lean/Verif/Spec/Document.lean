import Verif.Spec.Decoding
import Verif.Spec.Key

/-
The byte strings that are key documents, and what a key made from one holds, written independently of the decoder.
-/
namespace RSA.Spec

/-- An optional component. -/
def optional (tag : UInt8) : Option Bytes → Bytes
  | none => []
  | some c => der tag c

/-- RFC 5958 §2 `OneAsymmetricKey`: version 0 without and version 1 with a public key, `[0]` attributes before it. -/
def oneAsymmetricKey (alg key : Bytes) (attributes publicKey : Option Bytes) : Bytes :=
  der 0x30 (derInt (if publicKey.isSome then 1 else 0) ++ alg ++ der 0x04 key ++ optional 0xa0 attributes ++
    optional 0x81 publicKey)

/-- `b` is a `OneAsymmetricKey` under the identifier `alg` around an `RSAPrivateKey` with these numbers, whatever its CRT
fields, attributes and public key, no longer than the decoder handles. -/
def Document (b alg : Bytes) (n e d p q : Nat) : Prop :=
  b.length < 2 ^ 28 + 6 ∧ ∃ dp dq qi attributes publicKey,
    b = oneAsymmetricKey alg (rsaPrivateKey n e d p q dp dq qi) attributes publicKey

/-- `b` is a `SubjectPublicKeyInfo` under the identifier `alg` with an acceptable modulus and exponent. -/
def PublicDocument (b alg : Bytes) (n e : Nat) : Prop :=
  b = subjectPublicKeyInfo alg (rsaPublicKey n e) ∧
    n < 2 ^ 4096 ∧ e < n ∧ n % 2 = 1 ∧ e % 2 = 1 ∧ 2 ≤ e ∧ e ≤ 2 ^ 33 - 1

/-- `x` holds `v` in `w` bits. -/
def HeldIn (x : BoxedUint) (v w : Nat) : Prop := x.val = v ∧ x.prec = w

/-- The key holds exactly these numbers: everything but `e` in the words of the modulus; CRT values exactly if the factors
are coprime. -/
def HoldsNumbers (k : PrivateKey) (n e d p q : Nat) : Prop :=
  HeldIn k.pub.n n (wordBits n) ∧ HeldIn k.pub.e e (wordBits e) ∧ k.pub.nParams.modulus.toBoxedUint = k.pub.n ∧
  HeldIn k.d d (wordBits n) ∧
  (∃ p' q', k.primes = [p', q'] ∧ HeldIn p' p (wordBits n) ∧ HeldIn q' q (wordBits n)) ∧
  (Nat.Coprime q p → ∃ pre, k.precomputed = some pre ∧ CacheOk k pre) ∧
  (¬ Nat.Coprime q p → k.precomputed = none)

end RSA.Spec
