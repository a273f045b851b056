import Verif.Model.Rng

/-
Generators that read a recorded tape, so that the number of tapes leading to an outcome can be counted: with tapes drawn
uniformly, equal counts are equal probabilities (C88).
-/
namespace RSA.Spec

/-- A generator of octets: what it answers is cut from the front of the tape. Asked for more than is left it fails. It
draws no numbers. -/
def octetTape : RngImpl Bytes where
  fill t n := if n ≤ t.length then (some (t.take n), t.drop n) else (none, t)
  randMod t _ := (none, t)
  fill_len := by
    intro t n b h
    split at h
    · next hn => cases h; rw [List.length_take]; omega
    · cases h
  randMod_lt := by intro t n r h; cases h

/-- A generator of numbers below a bound: it answers with the next number on the tape, and fails when there is none or the
number is not below the bound. It fills no buffers. -/
def numberTape : RngImpl (List Nat) where
  fill t _ := (none, t)
  randMod t n := match t with
    | [] => (none, [])
    | r :: t' => if r < n then (some r, t') else (none, t')
  fill_len := by intro t n b h; cases h
  randMod_lt := by
    intro t n r h _
    rcases t with _ | ⟨a, t⟩
    · cases h
    · simp only at h
      split at h
      · next ha => cases h; exact ha
      · cases h

end RSA.Spec
