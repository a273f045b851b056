import Verif.Spec.Key
import Verif.Model.Generate

/-
What is assumed of the external prime search, and how its draws turn out. Only the interface type `PrimeGen` of the model
is mentioned.
-/
namespace RSA.Spec

/-- The prime search returns primes. -/
def PrimeSearch {σ : Type} (G : PrimeGen σ) : Prop := ∀ s b, 2 ≤ b → (G.gen s b).1.val.Prime

/-- For `b` bits the prime search returns odd numbers of exactly `b` bits with the two top bits set
(`SetBits::TwoMsb`), stored in the minimal number of limbs. -/
structure TopBits {σ : Type} (G : PrimeGen σ) (b : Nat) : Prop where
  top : ∀ s, 3 * 2 ^ (b - 2) ≤ (G.gen s b).1.val
  lt : ∀ s, (G.gen s b).1.val < 2 ^ b
  odd : ∀ s, (G.gen s b).1.val % 2 = 1
  limbs : ∀ s, (G.gen s b).1.nlimbs = (b + 63) / 64

/-- Both halves of a `bitSize`-bit modulus. -/
def TopHalves {σ : Type} (G : PrimeGen σ) (bitSize : Nat) : Prop :=
  TopBits G (bitSize / 2) ∧ TopBits G (bitSize - bitSize / 2)

/-- `PairDraws G e b₁ b₂ s p q s' j`: the `j`-th pair of draws (of `b₁` and `b₂` bits) from state `s` is the first
that is usable: the two numbers differ and `e` is coprime to `(p-1)(q-1)`. -/
inductive PairDraws {σ : Type} (G : PrimeGen σ) (e b₁ b₂ : Nat) : σ → BoxedUint → BoxedUint → σ → Nat → Prop
  | good (s : σ) (hne : (G.gen s b₁).1.val ≠ (G.gen (G.gen s b₁).2 b₂).1.val)
      (hco : Nat.Coprime e (((G.gen s b₁).1.val - 1) * ((G.gen (G.gen s b₁).2 b₂).1.val - 1))) :
      PairDraws G e b₁ b₂ s (G.gen s b₁).1 (G.gen (G.gen s b₁).2 b₂).1 (G.gen (G.gen s b₁).2 b₂).2 1
  | again (s : σ) (p q : BoxedUint) (s' : σ) (j : Nat)
      (hbad : (G.gen s b₁).1.val = (G.gen (G.gen s b₁).2 b₂).1.val ∨
        ¬ Nat.Coprime e (((G.gen s b₁).1.val - 1) * ((G.gen (G.gen s b₁).2 b₂).1.val - 1)))
      (next : PairDraws G e b₁ b₂ (G.gen (G.gen s b₁).2 b₂).2 p q s' j) : PairDraws G e b₁ b₂ s p q s' (j + 1)

end RSA.Spec
