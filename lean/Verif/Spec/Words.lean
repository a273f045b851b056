import Mathlib.Data.Nat.Size

/-
Words needed for octet strings, written without the model.
-/
namespace RSA.Spec

/-- `l` is the number of words of `w` octets needed for `len` octets, at least one. -/
def WordsFor (w len l : Nat) : Prop := 1 ≤ l ∧ len ≤ w * l ∧ ∀ j, 1 ≤ j → len ≤ w * j → l ≤ j

end RSA.Spec
