import Verif.Proof.Recover
import Mathlib.Tactic.Positivity

namespace RSA
open BoxedUint

/-! Keys built from primes -/

theorem foldl_mul : ∀ (ps : List BoxedUint) (x : BoxedUint),
    (ps.foldl BoxedUint.mul x).val = x.val * (ps.map BoxedUint.val).prod ∧
    (ps.foldl BoxedUint.mul x).nlimbs = x.nlimbs + (ps.map BoxedUint.nlimbs).sum := by
  intro ps
  induction ps with
  | nil => intro x; simp
  | cons p ps ih =>
    intro x
    obtain ⟨h1, h2⟩ := ih (x.mul p)
    rw [List.foldl_cons, h1, h2, mul_val, List.map_cons, List.prod_cons, List.map_cons, List.sum_cons]
    refine ⟨by rw [mul_assoc], ?_⟩
    show x.nlimbs + p.nlimbs + _ = _
    omega

/-- `compute_modulus` returns the product of the primes if it is odd and panics otherwise. -/
theorem computeModulus_ok {ps : List BoxedUint} {n : OddUint} (h : computeModulus ps = .ok n) :
    n.toBoxedUint.val = (ps.map BoxedUint.val).prod ∧ n.toBoxedUint.nlimbs = (ps.map BoxedUint.nlimbs).sum := by
  unfold computeModulus at h
  match ps, h with
  | p :: ps, h =>
    simp only at h
    obtain ⟨h1, h2⟩ := foldl_mul ps p
    by_cases ho : (ps.foldl BoxedUint.mul p).val % 2 = 1
    · simp only [OddUint.new, ho, dif_pos] at h
      obtain rfl := Res.ok.inj h
      exact ⟨by simpa using h1, by simpa using h2⟩
    · simp only [OddUint.new, ho, dif_neg, not_false_iff] at h
      cases h

theorem computeModulus_exists {ps : List BoxedUint} (hne : ps ≠ []) (ho : (ps.map BoxedUint.val).prod % 2 = 1) :
    ∃ n, computeModulus ps = .ok n := by
  match ps, hne with
  | p :: ps, _ =>
    obtain ⟨h1, _⟩ := foldl_mul ps p
    have : (ps.foldl BoxedUint.mul p).val % 2 = 1 := by rw [h1]; simpa using ho
    refine ⟨⟨_, this⟩, ?_⟩
    simp only [computeModulus, OddUint.new, this, dif_pos]

theorem computeModulus_even {ps : List BoxedUint} (ho : (ps.map BoxedUint.val).prod % 2 = 0) :
    computeModulus ps = .panic .unwrap := by
  match ps with
  | [] => rfl
  | p :: ps =>
    obtain ⟨h1, _⟩ := foldl_mul ps p
    have : ¬ (ps.foldl BoxedUint.mul p).val % 2 = 1 := by
      rw [h1]; rw [List.map_cons, List.prod_cons] at ho; omega
    simp only [computeModulus, OddUint.new, this, dif_neg, not_false_iff]

theorem totientLoop_eq : ∀ (ps : List BoxedUint) (t : BoxedUint), (∀ p ∈ ps, 0 < p.val) →
    ∃ t', totientLoop ps t = .ok t' ∧ t'.val = t.val * (ps.map (fun p => p.val - 1)).prod ∧
      t'.nlimbs = t.nlimbs + (ps.map BoxedUint.nlimbs).sum := by
  intro ps
  induction ps with
  | nil => intro t _; exact ⟨t, rfl, by simp, by simp⟩
  | cons p ps ih =>
    intro t hall
    have hp := hall p (List.mem_cons_self ..)
    have hpl := nlimbs_pos_of_val_pos p hp
    obtain ⟨p1, h1, h1v, h1l⟩ := sub_exists (x := p) (y := BoxedUint.one) hp
    obtain ⟨t', h2, h2v, h2l⟩ := ih (t.mul p1) (fun q hq => hall q (List.mem_cons_of_mem _ hq))
    refine ⟨t', ?_, ?_, ?_⟩
    · unfold totientLoop; rw [h1, Res.ok_bind, h2]
    · rw [h2v, mul_val, h1v, one_val, List.map_cons, List.prod_cons, mul_assoc]
    · rw [h2l, List.map_cons, List.sum_cons]
      show t.nlimbs + p1.nlimbs + _ = _
      have : BoxedUint.one.nlimbs = 1 := rfl
      rw [h1l, this]; omega

/-- The exponent computed with Euler's totient. -/
theorem euler_spec {ps : List BoxedUint} {e : BoxedUint} (h2 : 2 ≤ ps.length) (hp : ∀ p ∈ ps, 0 < p.val) :
    (∀ d, computePrivateExponentEulerTotient ps e = .ok d →
      d.val < (ps.map (fun p => p.val - 1)).prod ∧ e.val * d.val ≡ 1 [MOD (ps.map (fun p => p.val - 1)).prod] ∧
      (ps.map BoxedUint.nlimbs).sum ≤ d.nlimbs) ∧
    (e.prec ≤ 64 * (ps.map BoxedUint.nlimbs).sum → 0 < (ps.map (fun p => p.val - 1)).prod →
      Nat.Coprime e.val (ps.map (fun p => p.val - 1)).prod →
      ∃ d, computePrivateExponentEulerTotient ps e = .ok d) ∧
    (e.prec ≤ 64 * (ps.map BoxedUint.nlimbs).sum → 0 < (ps.map (fun p => p.val - 1)).prod →
      ¬ Nat.Coprime e.val (ps.map (fun p => p.val - 1)).prod →
      computePrivateExponentEulerTotient ps e = .err .invalidPrime) := by
  match ps, h2 with
  | p :: ps', h2 =>
    have hp0 := hp p (List.mem_cons_self ..)
    have hpl := nlimbs_pos_of_val_pos p hp0
    have hlf : limbsFor p.prec = p.nlimbs := limbsFor_prec p hpl
    obtain ⟨t, h3, h3v, h3l⟩ := totientLoop_eq (p :: ps') (oneWithPrecision p.prec) hp
    have h1v : (oneWithPrecision p.prec).val = 1 := by
      unfold oneWithPrecision; rw [hlf]; exact wrap_val_of_lt (Nat.one_lt_two_pow (by omega))
    have h1l : (oneWithPrecision p.prec).nlimbs = p.nlimbs := hlf
    rw [h1v, one_mul] at h3v
    rw [h1l] at h3l
    have hstart : computePrivateExponentEulerTotient (p :: ps') e =
        (e.widen t.prec >>= fun x => match x.invMod t with
          | some res => .ok res
          | none => .err .invalidPrime) := by
      unfold computePrivateExponentEulerTotient
      rw [if_neg (by omega)]
      simp only [primeAt, List.getElem?_cons_zero, Res.ok_bind]
      rw [h3, Res.ok_bind]
      rfl
    rw [hstart]
    generalize (List.map BoxedUint.nlimbs (p :: ps')).sum = L at *
    generalize (List.map (fun p => p.val - 1) (p :: ps')).prod = T at *
    by_cases hw : e.prec ≤ t.prec
    · obtain ⟨e', h4, h4v, _⟩ := widen_exists hw
      rw [h4, Res.ok_bind]
      have hinv : e'.invMod t = (natInvMod e.val T).map (wrap t.nlimbs) := by
        unfold invMod; rw [h4v, h3v]
      rw [hinv]
      refine ⟨?_, ?_, ?_⟩
      · intro d hd
        cases hr : natInvMod e.val T with
        | none => rw [hr] at hd; cases hd
        | some r =>
          rw [hr] at hd
          obtain rfl := Res.ok.inj hd
          obtain ⟨hm, hlt, hc, heq⟩ := natInvMod_some hr
          have hv : (wrap t.nlimbs r).val = r := wrap_val_of_lt (by have := t.isLt; rw [h3v] at this; omega)
          refine ⟨by rw [hv]; exact hlt, by rw [hv]; exact heq, ?_⟩
          show L ≤ t.nlimbs; omega
      · intro _ hT hc
        obtain ⟨r, hr⟩ := natInvMod_isSome hT hc
        rw [hr]; exact ⟨_, rfl⟩
      · intro _ hT hc
        rw [(natInvMod_none hT).mpr hc]; rfl
    · rw [widen_panic (by omega)]
      have : ¬ e.prec ≤ 64 * L := by intro hh; apply hw; show _ ≤ 64 * t.nlimbs; omega
      exact ⟨fun d hd => (by cases hd), fun h => absurd h this, fun h => absurd h this⟩

/-- The exponent computed with Carmichael's function. -/
theorem carmichael_spec {p q e : BoxedUint} (hp : 1 < p.val) (hq : 1 < q.val) :
    (∀ d, computePrivateExponentCarmichael p q e = .ok d →
      d.val < Nat.lcm (p.val - 1) (q.val - 1) ∧ e.val * d.val ≡ 1 [MOD Nat.lcm (p.val - 1) (q.val - 1)] ∧
      d.nlimbs = p.nlimbs + q.nlimbs) ∧
    (e.prec ≤ 64 * (p.nlimbs + q.nlimbs) → Nat.Coprime e.val (Nat.lcm (p.val - 1) (q.val - 1)) →
      ∃ d, computePrivateExponentCarmichael p q e = .ok d) ∧
    (e.prec ≤ 64 * (p.nlimbs + q.nlimbs) → ¬ Nat.Coprime e.val (Nat.lcm (p.val - 1) (q.val - 1)) →
      computePrivateExponentCarmichael p q e = .err .invalidPrime) := by
  have hpl := nlimbs_pos_of_val_pos p (by omega)
  have hql := nlimbs_pos_of_val_pos q (by omega)
  have h1l : BoxedUint.one.nlimbs = 1 := rfl
  obtain ⟨p1, h1, h1v, hp1l⟩ := sub_exists (x := p) (y := BoxedUint.one) (by rw [one_val]; omega)
  obtain ⟨q1, h2, h2v, hq1l⟩ := sub_exists (x := q) (y := BoxedUint.one) (by rw [one_val]; omega)
  rw [one_val] at h1v h2v
  rw [h1l] at hp1l hq1l
  have hg : (p1.gcd q1).val = Nat.gcd (p.val - 1) (q.val - 1) := by rw [gcd_val, h1v, h2v]
  have hgpos : 0 < Nat.gcd (p.val - 1) (q.val - 1) := Nat.gcd_pos_of_pos_left _ (by omega)
  have hlcm : ((p1.div (p1.gcd q1)).mul q1).val = Nat.lcm (p.val - 1) (q.val - 1) := by
    rw [mul_val, div_val, hg, h1v, h2v, Nat.lcm, Nat.div_mul_right_comm (Nat.gcd_dvd_left _ _)]
  have hlcml : ((p1.div (p1.gcd q1)).mul q1).nlimbs = p.nlimbs + q.nlimbs := by
    show p1.nlimbs + q1.nlimbs = _; omega
  have hL : 0 < Nat.lcm (p.val - 1) (q.val - 1) := Nat.lcm_pos (by omega) (by omega)
  have hstart : computePrivateExponentCarmichael p q e =
      (e.widen ((p1.div (p1.gcd q1)).mul q1).prec >>= fun x => match x.invMod ((p1.div (p1.gcd q1)).mul q1) with
        | some d => .ok d
        | none => .err .invalidPrime) := by
    unfold computePrivateExponentCarmichael
    rw [h1, Res.ok_bind, h2, Res.ok_bind]
    simp only
    rw [expectNonZero_of_ne (by rw [hg]; omega), Res.ok_bind]
    rfl
  rw [hstart]
  generalize (p1.div (p1.gcd q1)).mul q1 = t at *
  generalize Nat.lcm (p.val - 1) (q.val - 1) = T at *
  by_cases hw : e.prec ≤ t.prec
  · obtain ⟨e', h4, h4v, _⟩ := widen_exists hw
    rw [h4, Res.ok_bind]
    have hinv : e'.invMod t = (natInvMod e.val T).map (wrap t.nlimbs) := by
      unfold invMod; rw [h4v, hlcm]
    rw [hinv]
    refine ⟨?_, ?_, ?_⟩
    · intro d hd
      cases hr : natInvMod e.val T with
      | none => rw [hr] at hd; cases hd
      | some r =>
        rw [hr] at hd
        obtain rfl := Res.ok.inj hd
        obtain ⟨hm, hlt, hc, heq⟩ := natInvMod_some hr
        have hv : (wrap t.nlimbs r).val = r := wrap_val_of_lt (by have := t.isLt; rw [hlcm] at this; omega)
        exact ⟨by rw [hv]; exact hlt, by rw [hv]; exact heq, hlcml⟩
    · intro _ hc
      obtain ⟨r, hr⟩ := natInvMod_isSome hL hc
      rw [hr]; exact ⟨_, rfl⟩
    · intro _ hc
      rw [(natInvMod_none hL).mpr hc]; rfl
  · rw [widen_panic (by omega)]
    have : ¬ e.prec ≤ 64 * (p.nlimbs + q.nlimbs) := by intro hh; apply hw; show _ ≤ 64 * t.nlimbs; omega
    exact ⟨fun d hd => (by cases hd), fun h => absurd h this, fun h => absurd h this⟩

namespace PrivateKey

/-- An accepted key whose factors are distinct primes with product exactly `n` is well-formed. -/
theorem fromComponents_wf {n : OddUint} {e d : BoxedUint} {primes : List BoxedUint} {k : PrivateKey}
    (h : fromComponents n e d primes = .ok k) (hprime : ∀ p ∈ primes, p.val.Prime)
    (hnd : (primes.map BoxedUint.val).Nodup) (hne : primes ≠ []) (hprod : (primes.map BoxedUint.val).prod = n.toBoxedUint.val)
    (hw : n.toBoxedUint.nlimbs ≤ d.nlimbs) : Spec.WellFormed k := by
  obtain ⟨hn, he, hpar, hd, hps, hlen, hv, hpre, _⟩ := fromComponents_ok hne h
  have hl : 1 ≤ k.pub.n.nlimbs := by rw [hn]; exact n.nlimbs_pos
  obtain ⟨_, _, hx⟩ := (validate_ok_iff k hl).mp hv
  refine ⟨by rw [hpar, hn], ⟨?_, by rw [hps]; exact hnd, by rw [hps]; simpa using hlen, by rw [hps, hn]; exact hprod, ?_⟩,
    by rw [hn, hd]; exact hw, ?_⟩
  · intro p hp
    rw [hps] at hp
    obtain ⟨p', hp', rfl⟩ := List.mem_map.mp hp
    exact hprime p' hp'
  · intro p hp
    obtain ⟨p', hp', rfl⟩ := List.mem_map.mp hp
    exact (hx p' hp').2.2
  · intro pre hp
    have hd1 : 1 ≤ d.nlimbs := le_trans n.nlimbs_pos hw
    obtain ⟨p, q, rest, h1, _, _, _, _, _, _, h2, h3, h4, h5, h6, h7, h8, h9⟩ := precomputeValues_ok hd1 (hpre pre hp)
    refine ⟨⟨p, q, rest, by rw [hps, h1], by rw [hd]; exact h2, by rw [hd]; exact h3, h4, h5, h6⟩, h7, ?_, ?_⟩
    · rw [hd]; exact h8
    · rw [hd]; exact h9

/-- The duplicate test finds exactly the repeated values. -/
theorem hasDuplicate_iff : ∀ (ps seen : List BoxedUint), hasDuplicate seen ps = false ↔
    (ps.map BoxedUint.val).Nodup ∧ ∀ p ∈ ps, ∀ x ∈ seen, p.val ≠ x.val := by
  intro ps
  induction ps with
  | nil => intro seen; simp [hasDuplicate]
  | cons p ps ih =>
    intro seen
    unfold hasDuplicate
    rw [Bool.or_eq_false_iff, ih]
    have hany : (seen.any fun x => p.beq x) = false ↔ ∀ x ∈ seen, p.val ≠ x.val := by
      rw [List.any_eq_false]
      constructor
      · intro h x hx he
        exact h x hx (by show (p.val == x.val) = true; rw [he]; simp)
      · intro h x hx he
        exact h x hx (by simpa [beq] using he)
    rw [hany, List.map_cons, List.nodup_cons]
    constructor
    · rintro ⟨h1, h2, h3⟩
      refine ⟨⟨?_, h2⟩, ?_⟩
      · intro hmem
        obtain ⟨q, hq, he⟩ := List.mem_map.mp hmem
        exact h3 q hq p (by simp) he
      · intro q hq x hx
        rcases List.mem_cons.mp hq with rfl | hq
        · exact h1 x hx
        · exact h3 q hq x (by simp [hx])
    · rintro ⟨⟨h1, h2⟩, h3⟩
      refine ⟨fun x hx => h3 p (List.mem_cons_self ..) x hx, h2, ?_⟩
      intro q hq x hx
      rcases List.mem_append.mp hx with hx | hx
      · exact h3 q (List.mem_cons_of_mem _ hq) x hx
      · obtain rfl : x = p := by simpa using hx
        intro he
        exact h1 (List.mem_map.mpr ⟨q, hq, he⟩)

end PrivateKey

/-- `x ≡ 1` modulo a multiple of `m ≥ 2` gives remainder 1. -/
theorem mod_eq_one_of_modEq {x m N : Nat} (h : x ≡ 1 [MOD N]) (hd : m ∣ N) (hm : 1 < m) : x % m = 1 := by
  have : x ≡ 1 [MOD m] := h.of_dvd hd
  unfold Nat.ModEq at this
  rw [this, Nat.mod_eq_of_lt hm]

theorem prod_odd : ∀ (l : List Nat), (∀ p ∈ l, p % 2 = 1) → l.prod % 2 = 1 := by
  intro l
  induction l with
  | nil => intro _; rfl
  | cons p l ih =>
    intro h
    rw [List.prod_cons, Nat.mul_mod, h p (List.mem_cons_self ..), ih (fun q hq => h q (List.mem_cons_of_mem _ hq))]

theorem prod_pos : ∀ (l : List Nat), (∀ p ∈ l, 0 < p) → 0 < l.prod := by
  intro l
  induction l with
  | nil => intro _; decide
  | cons p l ih =>
    intro h
    rw [List.prod_cons]
    exact Nat.mul_pos (h p (List.mem_cons_self ..)) (ih (fun q hq => h q (List.mem_cons_of_mem _ hq)))

theorem le_sum_nlimbs {ps : List BoxedUint} {p : BoxedUint} (h : p ∈ ps) : p.nlimbs ≤ (ps.map BoxedUint.nlimbs).sum := by
  induction ps with
  | nil => cases h
  | cons q ps ih =>
    rw [List.map_cons, List.sum_cons]
    rcases List.mem_cons.mp h with rfl | h
    · omega
    · have := ih h; omega

end RSA
