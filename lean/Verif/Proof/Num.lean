import Verif.Proof.Bytes
import Mathlib.Data.Nat.ModEq
import Mathlib.Data.Int.ModEq
import Mathlib.Data.Int.GCD
import Mathlib.FieldTheory.Finite.Basic
import Mathlib.Data.Nat.Prime.Basic
import Mathlib.Data.List.Prime

namespace RSA

/-! Modular exponentiation -/

theorem MontyForm.powModFuel_eq : ∀ (fuel b e m : Nat), e < 2 ^ fuel → powModFuel fuel b e m = b ^ e % m := by
  intro fuel
  induction fuel with
  | zero => intro b e m h; have : e = 0 := by simpa using h
            subst this; simp [powModFuel]
  | succ f ih =>
    intro b e m h
    have h2 : e / 2 < 2 ^ f := by rw [pow_succ] at h; omega
    rw [powModFuel]
    simp only [ih b (e / 2) m h2]
    have hd : e = 2 * (e / 2) + e % 2 := by omega
    split
    · next ho =>
      rw [← Nat.mul_mod, Nat.mod_mul_mod]
      conv_rhs => rw [hd, ho, pow_add, pow_one, pow_mul', pow_two]
    · next ho =>
      have ho' : e % 2 = 0 := by omega
      rw [← Nat.mul_mod]
      conv_rhs => rw [hd, ho', add_zero, pow_mul', pow_two]

theorem MontyForm.powMod_eq (b e m : Nat) : powMod b e m = b ^ e % m :=
  powModFuel_eq _ _ _ _ Nat.lt_log2_self

/-! Modular inverse -/

namespace BoxedUint

theorem xgcd_spec (a m : Nat) (hm : 0 < m) : ∀ (fuel r r' : Nat) (s s' : Int),
    r < r' → r * r' < 2 ^ fuel → s * a ≡ r [ZMOD m] → s' * a ≡ r' [ZMOD m] →
    (natInvMod.xgcd m fuel r r' s s') * a ≡ Nat.gcd r r' [ZMOD m] ∧
      0 ≤ natInvMod.xgcd m fuel r r' s s' ∧ natInvMod.xgcd m fuel r r' s s' < m := by
  have hmz : (m : Int) ≠ 0 := by exact_mod_cast hm.ne'
  have fin : ∀ (r' : Nat) (s' : Int), s' * a ≡ r' [ZMOD m] →
      (s' % m) * a ≡ Nat.gcd 0 r' [ZMOD m] ∧ 0 ≤ s' % (m : Int) ∧ s' % (m : Int) < m := by
    intro r' s' h
    refine ⟨?_, Int.emod_nonneg _ hmz, Int.emod_lt_of_pos _ (by exact_mod_cast hm)⟩
    rw [Nat.gcd_zero_left]
    exact ((Int.mod_modEq s' m).mul_right _).trans h
  intro fuel
  induction fuel with
  | zero =>
    intro r r' s s' hlt hp _ h'
    have : r = 0 := by
      rcases Nat.eq_zero_or_pos r with h | h
      · exact h
      · have : 0 < r * r' := Nat.mul_pos h (by omega)
        simp at hp; omega
    subst this
    exact fin r' s' h'
  | succ f ih =>
    intro r r' s s' hlt hp h h'
    rw [natInvMod.xgcd]
    split
    · next h0 => subst h0; exact fin r' s' h'
    · next h0 =>
      have hr : 0 < r := Nat.pos_of_ne_zero h0
      have hmod : r' % r < r := Nat.mod_lt _ hr
      have hq : 1 ≤ r' / r := Nat.div_pos hlt.le hr
      have hdm := Nat.div_add_mod r' r
      have hhalf : 2 * (r' % r) ≤ r' := by nlinarith
      have := ih (r' % r) r (s' - (r' / r : Nat) * s) s hmod
        (by rw [pow_succ] at hp; nlinarith) (by
          have e1 : (s' - (r' / r : Nat) * s) * a = s' * a - (r' / r : Nat) * (s * a) := by ring
          have e2 : ((r' % r : Nat) : Int) = r' - (r' / r : Nat) * r := by
            have : (r' : Int) = r * (r' / r : Nat) + (r' % r : Nat) := by exact_mod_cast hdm.symm
            rw [this]; ring
          rw [e1, e2]
          exact h'.sub (h.mul_left _)) h
      rw [Nat.gcd_rec r r']
      exact_mod_cast this

theorem natInvMod_some {a m r : Nat} (h : natInvMod a m = some r) :
    0 < m ∧ r < m ∧ Nat.Coprime a m ∧ a * r % m = 1 % m := by
  unfold natInvMod at h
  split at h
  · cases h
  · next hm =>
    have hm' : 0 < m := Nat.pos_of_ne_zero hm
    split at h
    · next hg =>
      have hbound : a % m * m < 2 ^ (2 * m.log2 + 4) := by
        have h1 : a % m < m := Nat.mod_lt _ hm'
        have h2 : m < 2 ^ (m.log2 + 1) := Nat.lt_log2_self
        have h3 : 2 ^ (2 * m.log2 + 4) = 2 ^ (m.log2 + 1) * 2 ^ (m.log2 + 1) * 4 := by
          rw [← pow_add]; ring
        rw [h3]; nlinarith
      obtain ⟨hc, h0, hlt⟩ := xgcd_spec a m hm' (2 * m.log2 + 4) (a % m) m 1 0
        (Nat.mod_lt _ hm') hbound (by
          rw [one_mul]; exact_mod_cast (Int.mod_modEq (a : Int) m).symm) (by
          rw [zero_mul]; exact (Int.modEq_zero_iff_dvd.mpr dvd_rfl).symm)
      set x := natInvMod.xgcd m (2 * m.log2 + 4) (a % m) m 1 0 with hx
      have hxn : ((x.toNat : Nat) : Int) = x := Int.toNat_of_nonneg h0
      have hxlt : x.toNat < m := by omega
      have hr : r = x.toNat := by
        have := Option.some.inj h
        rw [← this, Nat.mod_eq_of_lt hxlt]
      subst hr
      refine ⟨hm', hxlt, hg, ?_⟩
      have hgcd : Nat.gcd (a % m) m = 1 := by
        rw [← Nat.gcd_rec, Nat.gcd_comm]; exact hg
      rw [hgcd] at hc
      have : ((a * x.toNat : Nat) : Int) ≡ ((1 : Nat) : Int) [ZMOD m] := by
        push_cast
        rw [hxn, mul_comm]; exact_mod_cast hc
      exact (Int.natCast_modEq_iff.mp this)
    · cases h

theorem natInvMod_isSome {a m : Nat} (hm : 0 < m) (h : Nat.Coprime a m) : ∃ r, natInvMod a m = some r := by
  unfold natInvMod
  have h' : Nat.gcd a m = 1 := h
  simp [Nat.pos_iff_ne_zero.mp hm, h']

theorem natInvMod_none {a m : Nat} (hm : 0 < m) : natInvMod a m = none ↔ ¬ Nat.Coprime a m := by
  constructor
  · intro h hc
    obtain ⟨r, hr⟩ := natInvMod_isSome hm hc
    simp [h] at hr
  · intro h
    cases hx : natInvMod a m with
    | none => rfl
    | some r => exact absurd (natInvMod_some hx).2.2.1 h

/-! Integer square root -/

theorem sqrt_go_spec : ∀ (fuel n : Nat), n < 4 ^ fuel →
    sqrt.go fuel n * sqrt.go fuel n ≤ n ∧ n < (sqrt.go fuel n + 1) * (sqrt.go fuel n + 1) := by
  intro fuel
  induction fuel with
  | zero => intro n h; have : n = 0 := by simpa using h
            subst this; simp [sqrt.go]
  | succ f ih =>
    intro n h
    have h4 : n / 4 < 4 ^ f := by rw [pow_succ] at h; omega
    obtain ⟨h1, h2⟩ := ih _ h4
    rw [sqrt.go]
    set g := sqrt.go f (n / 4)
    have hn := Nat.div_add_mod n 4
    have hm : n % 4 < 4 := Nat.mod_lt _ (by norm_num)
    split
    · next hc => exact ⟨hc, by nlinarith⟩
    · next hc =>
      have e : 2 * g * (2 * g) = 4 * (g * g) := by ring
      exact ⟨by rw [e]; omega, by omega⟩

theorem isqrt_eq (n : Nat) : sqrt.isqrt n = Nat.sqrt n := by
  have hb : n < 4 ^ (n.log2 / 2 + 1) := by
    have h1 : n < 2 ^ (n.log2 + 1) := Nat.lt_log2_self
    refine lt_of_lt_of_le h1 ?_
    have : (4 : Nat) = 2 ^ 2 := by norm_num
    rw [this, ← pow_mul]
    exact Nat.pow_le_pow_right (by norm_num) (by omega)
  obtain ⟨h1, h2⟩ := sqrt_go_spec _ _ hb
  unfold sqrt.isqrt
  apply le_antisymm
  · exact Nat.le_sqrt.mpr h1
  · exact Nat.lt_succ_iff.mp (Nat.sqrt_lt.mpr h2)

end BoxedUint

/-! Fermat and the Chinese remainder theorem -/

/-- Exponents congruent modulo `p - 1`, both non-zero, give the same power modulo the prime `p`. -/
theorem pow_modEq_of_exp {p : Nat} (hp : p.Prime) (x a b : Nat) (ha : 0 < a) (hb : 0 < b)
    (h : a ≡ b [MOD p - 1]) : x ^ a ≡ x ^ b [MOD p] := by
  have := Fact.mk hp
  rw [← ZMod.natCast_eq_natCast_iff]
  push_cast
  by_cases hx : (x : ZMod p) = 0
  · rw [hx, zero_pow ha.ne', zero_pow hb.ne']
  · have hf := ZMod.pow_card_sub_one_eq_one hx
    have key : ∀ c : Nat, (x : ZMod p) ^ c = (x : ZMod p) ^ (c % (p - 1)) := by
      intro c
      conv_lhs => rw [← Nat.div_add_mod c (p - 1), pow_add, pow_mul, hf, one_pow, one_mul]
    rw [key a, key b, h]

/-- If every prime of a duplicate-free list divides `x`, so does their product. -/
theorem prod_dvd_of_primes : ∀ (l : List Nat) (x : Nat), (∀ p ∈ l, p.Prime) → l.Nodup → (∀ p ∈ l, p ∣ x) → l.prod ∣ x
  | [], x, _, _, _ => by simp
  | p :: l, x, hp, hn, hd => by
    rw [List.prod_cons]
    rw [List.nodup_cons] at hn
    apply Nat.Coprime.mul_dvd_of_dvd_of_dvd
    · apply Nat.Coprime.symm
      apply Nat.Coprime.symm
      rw [Nat.coprime_list_prod_right_iff]
      intro q hq
      rw [Nat.coprime_primes (hp p (by simp)) (hp q (by simp [hq]))]
      rintro rfl
      exact hn.1 hq
    · exact hd p (by simp)
    · exact prod_dvd_of_primes l x (fun q hq => hp q (by simp [hq])) hn.2 (fun q hq => hd q (by simp [hq]))

theorem modEq_prod_of_primes (l : List Nat) (a b : Nat) (hp : ∀ p ∈ l, p.Prime) (hn : l.Nodup)
    (h : ∀ p ∈ l, a ≡ b [MOD p]) : a ≡ b [MOD l.prod] := by
  wlog hab : a ≤ b generalizing a b with H
  · exact (H b a (fun p hp' => (h p hp').symm) (by omega)).symm
  rw [Nat.modEq_iff_dvd' hab]
  apply prod_dvd_of_primes l _ hp hn
  intro p hp'
  exact (Nat.modEq_iff_dvd' hab).mp (h p hp')

/-- RSA correctness: `m ^ (d * e) ≡ m` modulo a product of distinct primes. -/
theorem rsa_exp (l : List Nat) (d e m : Nat) (hp : ∀ p ∈ l, p.Prime) (hn : l.Nodup) (h2 : ∀ p ∈ l, p ≠ 2)
    (hde : ∀ p ∈ l, d * e % (p - 1) = 1 % (p - 1)) : m ^ (d * e) ≡ m [MOD l.prod] := by
  apply modEq_prod_of_primes l _ _ hp hn
  intro p hpl
  have hpp := hp p hpl
  have hpos : 0 < d * e := by
    rcases Nat.eq_zero_or_pos (d * e) with h0 | h0
    · exfalso
      have := hde p hpl
      rw [h0, Nat.zero_mod] at this
      have hp3 : 3 ≤ p := by
        have := hpp.two_le; have := h2 p hpl; omega
      rw [Nat.mod_eq_of_lt (by omega)] at this
      omega
    · exact h0
  simpa using pow_modEq_of_exp hpp m (d * e) 1 hpos one_pos (hde p hpl)

end RSA
