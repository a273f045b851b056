import Verif.Proof.Rsa
import Mathlib.NumberTheory.LucasLehmer

/-
Concrete well-formed keys, used to show that the hypotheses of the theorems are satisfiable.
-/
namespace RSA.Ex
open BoxedUint

theorem prime31 : (2 ^ 31 - 1 : Nat).Prime := lucas_lehmer_sufficiency 31 (by norm_num) (by norm_num)
theorem prime61 : (2 ^ 61 - 1 : Nat).Prime := lucas_lehmer_sufficiency 61 (by norm_num) (by norm_num)
theorem prime89 : (2 ^ 89 - 1 : Nat).Prime := lucas_lehmer_sufficiency 89 (by norm_num) (by norm_num)
theorem prime127 : (2 ^ 127 - 1 : Nat).Prime := lucas_lehmer_sufficiency 127 (by norm_num) (by norm_num)

/-- `n = (2^89 - 1)(2^127 - 1)`, 216 bits, 4 limbs. -/
def nOdd : OddUint := ⟨wrap 4 ((2 ^ 89 - 1) * (2 ^ 127 - 1)), by decide⟩
def dVal : Nat := 68293824799940193091864384425499989004082341359236580111614123
def pub : PublicKey := { n := nOdd.toBoxedUint, e := wrap 1 65537, nParams := ⟨nOdd⟩ }

def pOdd : OddUint := ⟨wrap 4 (2 ^ 89 - 1), by decide⟩
def qOdd : OddUint := ⟨wrap 4 (2 ^ 127 - 1), by decide⟩
def pre : Precomputed :=
  { dp := wrap 4 463625422192654777564758143
    dq := wrap 4 113429186379523348228037317453566814889
    qinv := ⟨⟨pOdd⟩, 618818885466241885456556029⟩
    pParams := ⟨pOdd⟩
    qParams := ⟨qOdd⟩ }

/-- A two-prime key with CRT values. -/
def key : PrivateKey :=
  { pub := pub, d := wrap 4 dVal, primes := [wrap 2 (2 ^ 89 - 1), wrap 2 (2 ^ 127 - 1)], precomputed := some pre }

/-- The same key without CRT values. -/
def keyNoCrt : PrivateKey := { key with precomputed := none }

theorem numbers : Spec.RsaNumbers ((2 ^ 89 - 1) * (2 ^ 127 - 1)) 65537 dVal [2 ^ 89 - 1, 2 ^ 127 - 1] where
  prime := by
    intro p hp
    rcases List.mem_cons.mp hp with rfl | hp
    · exact prime89
    · rcases List.mem_cons.mp hp with rfl | hp
      · exact prime127
      · simp at hp
  nodup := by decide
  two := by decide
  prod := by decide
  exp := by decide

theorem key_wf : Spec.WellFormed key where
  coherent := rfl
  numbers := numbers
  width := by decide
  cache := by
    intro pre' h
    obtain rfl : pre = pre' := Option.some.inj h
    exact ⟨⟨_, _, _, rfl, by decide, by decide, by decide, by decide, by decide⟩, rfl, rfl, rfl⟩

theorem keyNoCrt_wf : Spec.WellFormed keyNoCrt where
  coherent := rfl
  numbers := numbers
  width := by decide
  cache := by intro pre' h; cases h

/-- `n = (2^31 - 1)(2^61 - 1)(2^89 - 1)`, three primes. -/
def nOdd3 : OddUint := ⟨wrap 3 ((2 ^ 31 - 1) * (2 ^ 61 - 1) * (2 ^ 89 - 1)), by decide⟩
def key3 : PrivateKey :=
  { pub := { n := nOdd3.toBoxedUint, e := wrap 1 65537, nParams := ⟨nOdd3⟩ }
    d := wrap 3 1020603633281031055099388194641357009844878248382846473
    primes := [wrap 1 (2 ^ 31 - 1), wrap 1 (2 ^ 61 - 1), wrap 2 (2 ^ 89 - 1)]
    precomputed := none }

theorem key3_wf : Spec.WellFormed key3 where
  coherent := rfl
  numbers :=
    { prime := by
        intro p hp
        rcases List.mem_cons.mp hp with rfl | hp
        · exact prime31
        · rcases List.mem_cons.mp hp with rfl | hp
          · exact prime61
          · rcases List.mem_cons.mp hp with rfl | hp
            · exact prime89
            · simp at hp
      nodup := by decide
      two := by decide
      prod := by decide
      exp := by decide }
  width := by decide
  cache := by intro pre' h; cases h

/-- A generator that hands out its state, incremented at each call (it draws 0, 1, 2, ...). -/
def countingRng : RngImpl Nat where
  fill s n := (some (List.replicate n (UInt8.ofNat s)), s + 1)
  randMod s n := (some (s % n), s + 1)
  fill_len := by intro s n b h; obtain rfl := Option.some.inj h; simp
  randMod_lt := by intro s n r h hn; obtain rfl := Option.some.inj h; exact Nat.mod_lt _ hn

end RSA.Ex
