import Verif.Spec.Uniform
import Verif.Spec.Key

/-
The loops that draw again until a value is usable, counted over the tapes a generator could have read (C94).
-/
namespace RSA.Spec

/-- A generator with one tape of octets and one of numbers. It reads as `octetTape` and `numberTape` do. -/
def bothTapes : RngImpl (Bytes × List Nat) where
  fill t n := if n ≤ t.1.length then (some (t.1.take n), (t.1.drop n, t.2)) else (none, t)
  randMod t n := match t.2 with
    | [] => (none, t)
    | r :: u => if r < n then (some r, (t.1, u)) else (none, (t.1, u))
  fill_len := by
    intro t n b h
    split at h
    · next hn => cases h; rw [List.length_take]; omega
    · cases h
  randMod_lt := by
    rintro ⟨t, u⟩ n r h _
    rcases u with _ | ⟨a, u⟩
    · cases h
    · simp only at h
      split at h
      · next ha => cases h; exact ha
      · cases h

/-- How many octets of the tape can stand in a padding string. -/
def usable (t : Bytes) : Nat := t.countP (· ≠ 0)

/-- The tapes of `N` numbers below `n`. -/
def numberTapes (n N : Nat) : Set (List Nat) := {u | u.length = N ∧ ∀ r ∈ u, r < n}

/-- None of the numbers can be used for blinding: zero can (it is replaced by one), a multiple of a prime factor cannot. -/
def Wasted (n : Nat) (u : List Nat) : Prop := ∀ r ∈ u, r ≠ 0 ∧ ¬ r.Coprime n

end RSA.Spec
