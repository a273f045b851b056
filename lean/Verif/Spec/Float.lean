import Mathlib.Algebra.Order.Field.Rat
import Mathlib.Data.Nat.Prime.Defs
import Mathlib.Data.Finset.Range
import Mathlib.Data.Finset.Filter
import Mathlib.Data.Nat.Prime.Basic

/- The size check of key generation: floating-point rounding, and the primes of a given length. -/
namespace RSA.Spec

/-- A rounding with relative error at most 2^-53 on zero and on the normal range of `f64`. -/
def RoundsF64 (rnd : ℚ → ℚ) : Prop :=
  ∀ x : ℚ, x = 0 ∨ (1 / 2 ^ 1022 ≤ |x| ∧ |x| ≤ 2 ^ 1023) → |rnd x - x| ≤ |x| / 2 ^ 53

/-- The primes of `b` bits with the two top bits set. -/
def topPrimes (b : Nat) : Finset Nat := (Finset.range (2 ^ b)).filter fun p => p.Prime ∧ 3 * 2 ^ (b - 2) ≤ p

end RSA.Spec
