import Verif.Spec.Generator
import Mathlib.Data.Nat.Totient

/- What the probabilities of C98 are made of. -/
namespace RSA.Spec
open scoped ENNReal

/-- The probability that the first octet other than zero is a given one and comes up within `m` draws:
`1/256 + 1/256² + … + 1/256ᵐ`. -/
noncomputable def firstOctet (m : Nat) : ℝ≥0∞ := ∑ j ∈ Finset.range m, ((256 : ℝ≥0∞) ^ (j + 1))⁻¹

/-- The probability that a number drawn below `n` is of no use for blinding: neither zero, which stands for one, nor
invertible. -/
noncomputable def useless (n : Nat) : ℝ≥0∞ := ((n - 1 - n.totient : Nat) : ℝ≥0∞) * (n : ℝ≥0∞)⁻¹

/-- The same request without blinding. -/
def Request.unblinded : Request → Request
  | .decryptPkcs1v15 fuel _ key ct => .decryptPkcs1v15 fuel false key ct
  | .decryptOaep fuel _ key ct dg mg label => .decryptOaep fuel false key ct dg mg label
  | .decryptOaepTyped fuel D MGD _ key ct label => .decryptOaepTyped fuel D MGD false key ct label
  | .signPkcs1v15 fuel S _ key hashed => .signPkcs1v15 fuel S false key hashed
  | .signPkcs1v15Typed fuel _ key pfx hashed => .signPkcs1v15Typed fuel false key pfx hashed
  | q => q

/-- Requests that use the generator for blinding only, with blinding, by this key and with this bound on the draws. -/
def Request.BlindedBy (key : PrivateKey) (fuel : Nat) : Request → Prop
  | .decryptPkcs1v15 f b k _ => f = fuel ∧ b = true ∧ k = key
  | .decryptOaep f b k _ _ _ _ => f = fuel ∧ b = true ∧ k = key
  | .decryptOaepTyped f _ _ b k _ _ => f = fuel ∧ b = true ∧ k = key
  | .signPkcs1v15 f _ b k _ => f = fuel ∧ b = true ∧ k = key
  | .signPkcs1v15Typed f b k _ _ => f = fuel ∧ b = true ∧ k = key
  | _ => False

end RSA.Spec
