import Mathlib.Data.Int.Log
import Mathlib.Algebra.Order.Round
import Mathlib.Algebra.Order.Field.Rat
import Mathlib.Data.Rat.Floor

/-
src/algorithms/generate.rs:44-61 with its `f64` roundings. A double is the rational it denotes, and `rnd` is applied after
every operation and conversion. None of the values that occur is infinite, a NaN or subnormal.
-/
namespace RSA.f64

/-- `core::f64::consts::LN_2`, 0x3FE62E42FEFA39EF. -/
def ln2 : ℚ := 6243314768165359 / 2 ^ 53

/-- src/algorithms/generate.rs:44-61: `pi < nprimes as f64`. -/
def tooFewPrimes (rnd : ℚ → ℚ) (nprimes bitSize : Nat) : Bool :=
  let primeLimit := rnd ((2 ^ (bitSize / nprimes) : Nat) : ℚ)
  let pi := rnd (primeLimit / rnd (rnd (rnd ((bitSize / nprimes : Nat) : ℚ) * ln2) - 1))
  let pi := rnd (pi / 4)
  let pi := rnd (pi / 2)
  decide (pi < rnd (nprimes : ℚ))

/-- The nearest integer, ties to even. -/
def roundEven (x : ℚ) : ℤ :=
  let f := ⌊x⌋
  if x - f < 1 / 2 then f else if 1 / 2 < x - f then f + 1 else if f % 2 = 0 then f else f + 1

/-- IEEE 754 binary64 rounding (to nearest, ties to even) in the normal range: 53 significant bits. -/
def round (x : ℚ) : ℚ :=
  let u : ℚ := 2 ^ (Int.log 2 |x| - 52)
  roundEven (x / u) * u

end RSA.f64
