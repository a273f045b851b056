import Verif.Model.WordsGenerate
import Verif.Spec.Key
import Mathlib.Data.Nat.Size

/-
What is assumed of prime searches on machines with words of other sizes, and when two outcomes are the same. Mentions the
data types of the model only.
-/
namespace RSA.Spec

variable {w w' : Nat} {σ : Type}

/-- The prime search returns primes. -/
def WordsPrimeSearch (G : words.Search w σ) : Prop := ∀ s b, 2 ≤ b → (G.gen s b).1.val.Prime

/-- For `b` bits the prime search returns numbers of exactly `b` bits, stored in the minimal number of words. -/
structure WordsExact (G : words.Search w σ) (b : Nat) : Prop where
  bits : ∀ s, (G.gen s b).1.val.size = b
  limbs : ∀ s, (G.gen s b).1.nlimbs = divCeil b (8 * w)

/-- The prime searches of two machines find the same numbers. -/
def WordsSameDraws (G : words.Search w σ) (G' : words.Search w' σ) : Prop :=
  ∀ s b, (G'.gen s b).1.val = (G.gen s b).1.val ∧ (G'.gen s b).2 = (G.gen s b).2

/-- Two calls end in the same way: with related values, with the same error or panic, or both run on. -/
def WordsSameResult {α β : Type} (r : α → β → Prop) : Res α → Res β → Prop
  | .ok a, .ok b => r a b
  | .err e, .err e' => e = e'
  | .panic k, .panic k' => k = k'
  | .loop, .loop => True
  | _, _ => False

end RSA.Spec
