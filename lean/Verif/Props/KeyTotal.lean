import Verif.Props.KeyErrors

/-
The outcome of `from_p_q` and `from_primes` for every input: success, each error, and the exact inputs that panic
(C53, C74).  Only factors equal to 1 are left out: they make the code invert modulo zero, a case the modelled part of
the big-integer crate leaves open.
-/
namespace RSA
open BoxedUint

/-- `from_components` on consistent factors never panics and never loops. -/
theorem fromComponents_consistent_returns {n : OddUint} {e d : BoxedUint} {ps : List BoxedUint}
    (hprod : (ps.map BoxedUint.val).prod = n.toBoxedUint.val)
    (hall : ∀ p ∈ ps, p.prec ≤ d.prec ∧ 1 < p.val ∧ d.val * e.val % (p.val - 1) = 1) (hlen : 2 ≤ ps.length)
    (hd : 1 ≤ d.nlimbs) :
    ¬ (PrivateKey.fromComponents n e d ps).Panics ∧ PrivateKey.fromComponents n e d ps ≠ .loop := by
  have hC := C74_from_components n e d ps hd (by rintro rfl; simp at hlen)
  obtain ⟨h1, h2⟩ := fromComponents_consistent (e := e) hprod hall hlen hd
  refine ⟨?_, hC.2.2⟩
  rw [hC.2.1]
  have hok : ∀ p ∈ ps, Spec.FactorOk (d.val * e.val) (2 * d.prec) p := fun p hp =>
    ⟨by have := (hall p hp).1; omega, (hall p hp).2⟩
  rintro ⟨_, _, ⟨_, pre, p, post, rfl, _, hb⟩ | ⟨_, _, p, hp, h⟩⟩
  · have hp := hok p (by simp)
    have h1 := hp.1
    have h2 := hp.2.1
    omega
  · have := (hall p (List.mem_of_mem_take hp)).1
    omega

/-- The Carmichael exponent panics exactly for an exponent wider than the product of the factors. -/
theorem carmichael_wide {p q e : BoxedUint} (hp : 1 < p.val) (hq : 1 < q.val) (he : p.prec + q.prec < e.prec) :
    computePrivateExponentCarmichael p q e = .panic .precision := by
  have hpl := nlimbs_pos_of_val_pos p (by omega)
  have hql := nlimbs_pos_of_val_pos q (by omega)
  have h1l : BoxedUint.one.nlimbs = 1 := rfl
  obtain ⟨p1, h1, h1v, hp1l⟩ := sub_exists (x := p) (y := BoxedUint.one) (by rw [one_val]; omega)
  obtain ⟨q1, h2, h2v, hq1l⟩ := sub_exists (x := q) (y := BoxedUint.one) (by rw [one_val]; omega)
  rw [one_val] at h1v h2v
  rw [h1l] at hp1l hq1l
  have hgpos : 0 < Nat.gcd (p.val - 1) (q.val - 1) := Nat.gcd_pos_of_pos_left _ (by omega)
  unfold computePrivateExponentCarmichael
  rw [h1, Res.ok_bind, h2, Res.ok_bind]
  simp only
  rw [expectNonZero_of_ne (by rw [gcd_val, h1v, h2v]; omega), Res.ok_bind, widen_panic]
  · rfl
  · show 64 * (p1.nlimbs + q1.nlimbs) < _
    unfold prec at *; omega

/-- C53, C74: `from_p_q` on every pair of factors other than 1 and every exponent.  It panics exactly for distinct
factors one of which is zero, for an exponent stored wider than the product, and for an even product once the exponent
is invertible; otherwise it returns, with the stated error or with a key. -/
theorem C74_from_p_q_total (p q e : BoxedUint) (hp1 : p.val ≠ 1) (hq1 : q.val ≠ 1) :
    ((PrivateKey.fromPQ p q e).Panics ↔ p.val ≠ q.val ∧
      (p.val = 0 ∨ q.val = 0 ∨ p.prec + q.prec < e.prec ∨
        Nat.Coprime e.val (Nat.lcm (p.val - 1) (q.val - 1)) ∧ p.val * q.val % 2 = 0)) ∧
    (∀ er, PrivateKey.fromPQ p q e = .err er ↔
      (er = .invalidPrime ∧ (p.val = q.val ∨ p.val ≠ 0 ∧ q.val ≠ 0 ∧ e.prec ≤ p.prec + q.prec ∧
        ¬ Nat.Coprime e.val (Nat.lcm (p.val - 1) (q.val - 1)))) ∨
      p.val ≠ q.val ∧ p.val * q.val % 2 = 1 ∧ e.prec ≤ p.prec + q.prec ∧
        Nat.Coprime e.val (Nat.lcm (p.val - 1) (q.val - 1)) ∧
        Spec.PublicError (p.prec + q.prec) (p.val * q.val) e.val er) ∧
    ((∃ k, PrivateKey.fromPQ p q e = .ok k) ↔ p.val ≠ q.val ∧ p.val * q.val % 2 = 1 ∧ e.prec ≤ p.prec + q.prec ∧
      Nat.Coprime e.val (Nat.lcm (p.val - 1) (q.val - 1)) ∧
      Spec.PublicOk (p.prec + q.prec) (p.val * q.val) e.val) ∧
    PrivateKey.fromPQ p q e ≠ .loop := by
  by_cases hpq : p.val = q.val
  · have hb : p.beq q = true := by simp [beq, hpq]
    unfold PrivateKey.fromPQ
    rw [if_pos hb]
    simp [hpq, eq_comm, Res.Panics]
  have hb : p.beq q = false := by simp [beq, hpq]
  by_cases hp0 : p.val = 0
  · have : PrivateKey.fromPQ p q e = .panic .arith := by
      unfold PrivateKey.fromPQ computePrivateExponentCarmichael
      rw [hb]
      simp only [Bool.false_eq_true, if_false]
      rw [sub_panic (by rw [one_val]; omega)]
      rfl
    rw [this]
    simp [hp0, Res.Panics]
    omega
  by_cases hq0 : q.val = 0
  · have : PrivateKey.fromPQ p q e = .panic .arith := by
      obtain ⟨p', h1, _⟩ := sub_exists (x := p) (y := BoxedUint.one) (by rw [one_val]; omega)
      unfold PrivateKey.fromPQ computePrivateExponentCarmichael
      rw [hb]
      simp only [Bool.false_eq_true, if_false]
      rw [h1, Res.ok_bind, sub_panic (by rw [one_val]; omega)]
      rfl
    rw [this]
    simp [hq0, Res.Panics]
    omega
  have hp : 1 < p.val := by omega
  have hq : 1 < q.val := by omega
  have hpl := nlimbs_pos_of_val_pos p (by omega)
  have hql := nlimbs_pos_of_val_pos q (by omega)
  by_cases hw : p.prec + q.prec < e.prec
  · have : PrivateKey.fromPQ p q e = .panic .precision := by
      unfold PrivateKey.fromPQ
      rw [hb]
      simp only [Bool.false_eq_true, if_false]
      rw [carmichael_wide hp hq hw]
      rfl
    have hw' : ¬ e.prec ≤ p.prec + q.prec := by omega
    rw [this]
    simp [hpq, hw, hw', Res.Panics]
  have hw' : e.prec ≤ p.prec + q.prec := by omega
  obtain ⟨hc1, hc2, hc3⟩ := carmichael_spec (e := e) hp hq
  have hew : e.prec ≤ 64 * (p.nlimbs + q.nlimbs) := by unfold prec at *; omega
  by_cases hco : Nat.Coprime e.val (Nat.lcm (p.val - 1) (q.val - 1))
  · by_cases heven : p.val * q.val % 2 = 0
    · have : PrivateKey.fromPQ p q e = .panic .unwrap := by
        obtain ⟨d, hd⟩ := hc2 hew hco
        unfold PrivateKey.fromPQ
        rw [hb]
        simp only [Bool.false_eq_true, if_false]
        rw [hd, Res.ok_bind, computeModulus_even (by simpa using heven)]
        rfl
      rw [this]
      simp [hpq, heven, Res.Panics]
      exact ⟨Or.inr (Or.inr (Or.inr hco)), fun _ _ _ => hco⟩
    · have hodd : p.val * q.val % 2 = 1 := by omega
      obtain ⟨hpo, hqo⟩ : p.val % 2 = 1 ∧ q.val % 2 = 1 := Nat.odd_mul.mp (Nat.odd_iff.mpr hodd) |>.imp Nat.odd_iff.mp Nat.odd_iff.mp
      obtain ⟨h1, h2⟩ := C74_from_p_q p q e hp hq hpo hqo hw'
      have hret : ¬ (PrivateKey.fromPQ p q e).Panics ∧ PrivateKey.fromPQ p q e ≠ .loop := by
        have := C53_from_p_q_partial p q e hp hq hpo hqo hw'
        cases hx : PrivateKey.fromPQ p q e with
        | ok k => exact ⟨fun h => h, by simp⟩
        | err er => exact ⟨fun h => h, by simp⟩
        | panic x => rw [hx] at this; exact absurd this id
        | loop => rw [hx] at this; exact absurd this id
      refine ⟨?_, fun er => ?_, ?_, hret.2⟩
      · constructor
        · intro h; exact absurd h hret.1
        · rintro ⟨_, h | h | h | ⟨_, h⟩⟩ <;> omega
      · rw [h1]
        simp [hpq, hco, hodd, hw']
      · rw [h2]
        simp [hpq, hco, hodd, hw']
  · have : PrivateKey.fromPQ p q e = .err .invalidPrime := by
      unfold PrivateKey.fromPQ
      rw [hb]
      simp only [Bool.false_eq_true, if_false]
      rw [hc3 hew hco]
      rfl
    rw [this]
    simp [hpq, hco, hp0, hq0, hw, hw', Res.Panics, eq_comm]

example : (PrivateKey.fromPQ (wrap 1 7) (wrap 1 4) (wrap 1 5)).Panics ∧
    PrivateKey.fromPQ (wrap 1 7) (wrap 1 4) (wrap 1 3) = .err .invalidPrime ∧
    (PrivateKey.fromPQ (wrap 1 7) (wrap 1 11) (wrap 3 7)).Panics := by decide +kernel

/-- The exponent from Euler's totient: exact width of the totient, and what happens on each side of it. -/
theorem euler_exact {p : BoxedUint} {ps : List BoxedUint} {e : BoxedUint} (h2 : 2 ≤ (p :: ps).length)
    (hp : ∀ x ∈ p :: ps, 1 < x.val) :
    ((p :: ps).map BoxedUint.prec).sum + p.prec < e.prec ∧
      computePrivateExponentEulerTotient (p :: ps) e = .panic .precision ∨
    e.prec ≤ ((p :: ps).map BoxedUint.prec).sum + p.prec ∧
      (Nat.Coprime e.val ((p :: ps).map (fun x => x.val - 1)).prod ∧
        (∃ d, computePrivateExponentEulerTotient (p :: ps) e = .ok d) ∨
      ¬ Nat.Coprime e.val ((p :: ps).map (fun x => x.val - 1)).prod ∧
        computePrivateExponentEulerTotient (p :: ps) e = .err .invalidPrime) := by
  have hsum : ∀ l : List BoxedUint, (l.map BoxedUint.prec).sum = 64 * (l.map BoxedUint.nlimbs).sum := by
    intro l
    induction l with
    | nil => rfl
    | cons p ps ih => simp only [List.map_cons, List.sum_cons, ih]; unfold prec; ring
  have hpos : 0 < ((p :: ps).map (fun x => x.val - 1)).prod :=
    prod_pos _ (fun x hx => by obtain ⟨y, hy, rfl⟩ := List.mem_map.mp hx; have := hp y hy; omega)
  have hp0 := hp p (List.mem_cons_self ..)
  have hpl := nlimbs_pos_of_val_pos p (by omega)
  have hlf : limbsFor p.prec = p.nlimbs := limbsFor_prec p hpl
  obtain ⟨t, h3, h3v, h3l⟩ := totientLoop_eq (p :: ps) (oneWithPrecision p.prec) (fun x hx => by have := hp x hx; omega)
  have h1v : (oneWithPrecision p.prec).val = 1 := by
    unfold oneWithPrecision; rw [hlf]; exact wrap_val_of_lt (Nat.one_lt_two_pow (by omega))
  have h1l : (oneWithPrecision p.prec).nlimbs = p.nlimbs := hlf
  rw [h1v, one_mul] at h3v
  rw [h1l] at h3l
  have htp : t.prec = ((p :: ps).map BoxedUint.prec).sum + p.prec := by
    rw [hsum]; unfold prec; rw [h3l]; ring
  have hstart : computePrivateExponentEulerTotient (p :: ps) e =
      (e.widen t.prec >>= fun x => match x.invMod t with
        | some res => .ok res
        | none => .err .invalidPrime) := by
    unfold computePrivateExponentEulerTotient
    rw [if_neg (by omega)]
    simp only [primeAt, List.getElem?_cons_zero, Res.ok_bind]
    rw [h3, Res.ok_bind]
    rfl
  rw [hstart, ← htp]
  by_cases hw : e.prec ≤ t.prec
  · refine Or.inr ⟨hw, ?_⟩
    obtain ⟨e', h4, h4v, _⟩ := widen_exists hw
    rw [h4, Res.ok_bind]
    have hinv : e'.invMod t = (natInvMod e.val ((p :: ps).map (fun x => x.val - 1)).prod).map (wrap t.nlimbs) := by
      unfold invMod; rw [h4v, h3v]
    rw [hinv]
    by_cases hc : Nat.Coprime e.val ((p :: ps).map (fun x => x.val - 1)).prod
    · obtain ⟨r, hr⟩ := natInvMod_isSome hpos hc
      rw [hr]; exact Or.inl ⟨hc, _, rfl⟩
    · rw [(natInvMod_none hpos).mpr hc]; exact Or.inr ⟨hc, rfl⟩
  · refine Or.inl ⟨by omega, ?_⟩
    rw [widen_panic (by omega)]
    rfl

/-- C53, C74: `from_primes` on every list of factors other than 1 and every exponent.  It panics exactly for distinct
factors with an even product, and for an exponent stored wider than the product and one more copy of the first factor;
otherwise it returns, with the stated error or with a key. -/
theorem C74_from_primes_total (ps : List BoxedUint) (e : BoxedUint) (h1 : ∀ p ∈ ps, p.val ≠ 1) :
    ((PrivateKey.fromPrimes ps e).Panics ↔ 2 ≤ ps.length ∧ (ps.map BoxedUint.val).Nodup ∧
      ((ps.map BoxedUint.val).prod % 2 = 0 ∨ (ps.map BoxedUint.prec).sum + (ps.headD (wrap 1 0)).prec < e.prec)) ∧
    (∀ er, PrivateKey.fromPrimes ps e = .err er ↔
      (er = .nprimesTooSmall ∧ ps.length < 2) ∨
      (er = .invalidPrime ∧ 2 ≤ ps.length ∧ (¬ (ps.map BoxedUint.val).Nodup ∨
        (ps.map BoxedUint.val).prod % 2 = 1 ∧
        e.prec ≤ (ps.map BoxedUint.prec).sum + (ps.headD (wrap 1 0)).prec ∧
        ¬ Nat.Coprime e.val (ps.map (fun p => p.val - 1)).prod)) ∨
      2 ≤ ps.length ∧ (ps.map BoxedUint.val).Nodup ∧ (ps.map BoxedUint.val).prod % 2 = 1 ∧
        e.prec ≤ (ps.map BoxedUint.prec).sum + (ps.headD (wrap 1 0)).prec ∧
        Nat.Coprime e.val (ps.map (fun p => p.val - 1)).prod ∧
        Spec.PublicError (ps.map BoxedUint.prec).sum (ps.map BoxedUint.val).prod e.val er) ∧
    ((∃ k, PrivateKey.fromPrimes ps e = .ok k) ↔ 2 ≤ ps.length ∧ (ps.map BoxedUint.val).Nodup ∧
      (ps.map BoxedUint.val).prod % 2 = 1 ∧
      e.prec ≤ (ps.map BoxedUint.prec).sum + (ps.headD (wrap 1 0)).prec ∧
      Nat.Coprime e.val (ps.map (fun p => p.val - 1)).prod ∧
      Spec.PublicOk (ps.map BoxedUint.prec).sum (ps.map BoxedUint.val).prod e.val) ∧
    PrivateKey.fromPrimes ps e ≠ .loop := by
  have hsum : (ps.map BoxedUint.prec).sum = 64 * (ps.map BoxedUint.nlimbs).sum := by
    clear h1
    induction ps with
    | nil => rfl
    | cons p ps ih => simp only [List.map_cons, List.sum_cons, ih]; unfold prec; ring
  unfold PrivateKey.fromPrimes
  by_cases hlen : ps.length < 2
  · rw [if_pos hlen]
    have : ¬ 2 ≤ ps.length := by omega
    simp [hlen, this, eq_comm, Res.Panics]
  rw [if_neg hlen]
  have hlen2 : 2 ≤ ps.length := by omega
  cases hdup : PrivateKey.hasDuplicate [] ps with
  | true =>
    have hnd : ¬ (ps.map BoxedUint.val).Nodup := by
      intro h
      have := (PrivateKey.hasDuplicate_iff ps []).mpr ⟨h, by simp⟩
      rw [this] at hdup; cases hdup
    simp [hnd, hlen, hlen2, eq_comm, Res.Panics]
  | false =>
    have hnd := ((PrivateKey.hasDuplicate_iff ps []).mp hdup).1
    simp only [Bool.false_eq_true, if_false]
    have hne : ps ≠ [] := by rintro rfl; simp at hlen2
    by_cases heven : (ps.map BoxedUint.val).prod % 2 = 0
    · rw [computeModulus_even heven]
      have : ¬ (ps.map BoxedUint.val).prod % 2 = 1 := by omega
      refine ⟨?_, ?_, ?_, ?_⟩
      · exact ⟨fun _ => ⟨hlen2, hnd, Or.inl heven⟩, fun _ => trivial⟩
      · intro er
        constructor
        · intro h; cases h
        · rintro (⟨_, h⟩ | ⟨_, _, h | ⟨h, _⟩⟩ | ⟨_, _, h, _⟩)
          · omega
          · exact absurd hnd h
          · omega
          · omega
      · constructor
        · rintro ⟨k, h⟩; cases h
        · rintro ⟨_, _, h, _⟩; omega
      · intro h; cases h
    have hodd : (ps.map BoxedUint.val).prod % 2 = 1 := by omega
    have hall : ∀ p ∈ ps, 1 < p.val := by
      intro p hp
      have hd : p.val ∣ (ps.map BoxedUint.val).prod := List.dvd_prod (List.mem_map.mpr ⟨p, hp, rfl⟩)
      have := h1 p hp
      rcases Nat.eq_zero_or_pos p.val with h0 | h0
      · rw [h0, Nat.zero_dvd] at hd; omega
      · omega
    obtain ⟨n, hn⟩ := computeModulus_exists (ps := ps) hne hodd
    obtain ⟨hnv, hnl⟩ := computeModulus_ok hn
    have hnp : n.toBoxedUint.prec = (ps.map BoxedUint.prec).sum := by rw [hsum]; unfold prec; rw [hnl]
    rw [hn, Res.ok_bind]
    obtain ⟨hc1, _, _⟩ := euler_spec (e := e) hlen2 (fun p hp => by have := hall p hp; omega)
    have hex : (ps.map BoxedUint.prec).sum + (ps.headD (wrap 1 0)).prec < e.prec ∧
          computePrivateExponentEulerTotient ps e = .panic .precision ∨
        e.prec ≤ (ps.map BoxedUint.prec).sum + (ps.headD (wrap 1 0)).prec ∧
          (Nat.Coprime e.val (ps.map (fun x => x.val - 1)).prod ∧
            (∃ d, computePrivateExponentEulerTotient ps e = .ok d) ∨
          ¬ Nat.Coprime e.val (ps.map (fun x => x.val - 1)).prod ∧
            computePrivateExponentEulerTotient ps e = .err .invalidPrime) := by
      match ps, hne, hlen2, hall with
      | p :: ps', _, hl, ha => exact euler_exact hl ha
    rcases hex with ⟨hw, hr⟩ | ⟨hw, ⟨hco, d, hd⟩ | ⟨hco, hr⟩⟩
    · rw [hr]
      have hw' : ¬ e.prec ≤ (ps.map BoxedUint.prec).sum + (ps.headD (wrap 1 0)).prec := by omega
      refine ⟨⟨fun _ => ⟨hlen2, hnd, Or.inr hw⟩, fun _ => trivial⟩, ?_, ?_, ?_⟩
      · intro er
        constructor
        · intro h; cases h
        · rintro (⟨_, h⟩ | ⟨_, _, h | ⟨_, h, _⟩⟩ | ⟨_, _, _, h, _⟩)
          · omega
          · exact absurd hnd h
          · exact absurd h hw'
          · exact absurd h hw'
      · constructor
        · rintro ⟨k, h⟩; cases h
        · rintro ⟨_, _, _, h, _⟩; exact absurd h hw'
      · intro h; cases h
    · obtain ⟨hd1, hd2, hd3⟩ := hc1 d hd
      rw [hd, Res.ok_bind]
      have hdl : 1 ≤ d.nlimbs := by
        have := n.nlimbs_pos
        omega
      have hcons : ∀ x ∈ ps, x.prec ≤ d.prec ∧ 1 < x.val ∧ d.val * e.val % (x.val - 1) = 1 := by
        intro x hx
        have hmod : d.val * e.val ≡ 1 [MOD (ps.map (fun p => p.val - 1)).prod] := by rw [mul_comm]; exact hd2
        have hx1 := hall x hx
        have hxo : x.val % 2 = 1 := by
          have hdv : x.val ∣ (ps.map BoxedUint.val).prod := List.dvd_prod (List.mem_map.mpr ⟨x, hx, rfl⟩)
          exact Nat.odd_iff.mp (Odd.of_dvd_nat (Nat.odd_iff.mpr hodd) hdv)
        exact ⟨by have := le_sum_nlimbs hx; unfold prec; omega, hx1,
          mod_eq_one_of_modEq hmod (List.dvd_prod (List.mem_map.mpr ⟨x, hx, rfl⟩)) (by omega)⟩
      have hfin := fromComponents_consistent (n := n) (e := e) (d := d) (ps := ps) (by rw [hnv]) hcons hlen2 hdl
      have hret := fromComponents_consistent_returns (n := n) (e := e) (d := d) (ps := ps) (by rw [hnv]) hcons hlen2 hdl
      rw [hnp, hnv] at hfin
      refine ⟨?_, fun er => ?_, ?_, hret.2⟩
      · constructor
        · intro h; exact absurd h hret.1
        · rintro ⟨_, _, h | h⟩ <;> omega
      · rw [hfin.1]
        constructor
        · intro h; exact Or.inr (Or.inr ⟨hlen2, hnd, hodd, hw, hco, h⟩)
        · rintro (⟨_, h⟩ | ⟨_, _, h | ⟨_, _, h⟩⟩ | ⟨_, _, _, _, _, h⟩)
          · exact absurd h hlen
          · exact absurd hnd h
          · exact absurd hco h
          · exact h
      · rw [hfin.2]
        exact ⟨fun h => ⟨hlen2, hnd, hodd, hw, hco, h⟩, fun h => h.2.2.2.2.2⟩
    · rw [hr]
      refine ⟨?_, ?_, ?_, ?_⟩
      · constructor
        · intro h; exact absurd h id
        · rintro ⟨_, _, h | h⟩ <;> omega
      · intro er
        constructor
        · intro h
          obtain rfl : Error.invalidPrime = er := by cases h; rfl
          exact Or.inr (Or.inl ⟨rfl, hlen2, Or.inr ⟨hodd, hw, hco⟩⟩)
        · rintro (⟨_, h⟩ | ⟨h, _⟩ | ⟨_, _, _, _, h, _⟩)
          · omega
          · rw [h]; rfl
          · exact absurd h hco
      · constructor
        · rintro ⟨k, h⟩; cases h
        · rintro ⟨_, _, _, _, h, _⟩; exact absurd h hco
      · intro h; cases h

example : (PrivateKey.fromPrimes [wrap 1 7, wrap 1 4] (wrap 1 3)).Panics ∧
    (PrivateKey.fromPrimes [wrap 1 7, wrap 1 11] (wrap 4 7)).Panics ∧
    (PrivateKey.fromPrimes [wrap 1 7, wrap 1 11] (wrap 3 7)).Returns := by decide +kernel

end RSA
