import Verif.Props.Keys
import Verif.Spec.KeyErrors

/-
Exactly which error, or panic, each way of building a key ends with (C74).
-/
namespace RSA
open BoxedUint

theorem Spec.firstFactor_cons {de w : Nat} {p : BoxedUint} {ps : List BoxedUint} {bad : BoxedUint → Prop} :
    Spec.FirstFactor de w (p :: ps) bad ↔ bad p ∨ Spec.FactorOk de w p ∧ Spec.FirstFactor de w ps bad := by
  constructor
  · rintro ⟨pre, x, post, h, hpre, hb⟩
    match pre, h with
    | [], h => obtain ⟨rfl, rfl⟩ := List.cons.inj h; exact Or.inl hb
    | y :: pre, h =>
      obtain ⟨rfl, rfl⟩ := List.cons.inj h
      exact Or.inr ⟨hpre _ (List.mem_cons_self ..), pre, x, post, rfl,
        fun z hz => hpre z (List.mem_cons_of_mem _ hz), hb⟩
  · rintro (hb | ⟨hp, pre, x, post, rfl, hpre, hb⟩)
    · exact ⟨[], p, ps, rfl, by simp, hb⟩
    · refine ⟨p :: pre, x, post, rfl, ?_, hb⟩
      intro z hz
      rcases List.mem_cons.mp hz with rfl | hz
      · exact hp
      · exact hpre z hz

theorem Spec.firstFactor_nil {de w : Nat} {bad : BoxedUint → Prop} : ¬ Spec.FirstFactor de w [] bad := by
  rintro ⟨pre, x, post, h, _⟩
  cases pre <;> cases h

/-- The exponent loop of `validate`, completely. -/
theorem validateExponents_verdict (de : BoxedUint) (b : Nat) : ∀ (ps : List BoxedUint), (∀ p ∈ ps, 1 ≤ p.val) →
    (∀ er, PrivateKey.validateExponents de b ps = .err er ↔ er = .invalidExponent ∧
      Spec.FirstFactor de.val b ps fun p => p.prec ≤ b ∧ 1 < p.val ∧ de.val % (p.val - 1) ≠ 1) ∧
    ((PrivateKey.validateExponents de b ps).Panics ↔
      Spec.FirstFactor de.val b ps fun p => b < p.prec ∨ p.val = 1) ∧
    PrivateKey.validateExponents de b ps ≠ .loop := by
  intro ps
  induction ps with
  | nil =>
    intro _
    refine ⟨fun er => ?_, ?_, ?_⟩
    · simp [PrivateKey.validateExponents, Spec.firstFactor_nil]
    · simp [PrivateKey.validateExponents, Spec.firstFactor_nil]
    · simp [PrivateKey.validateExponents]
  | cons p ps ih =>
    intro hall
    have hp := hall p (List.mem_cons_self ..)
    have ih := ih (fun q hq => hall q (List.mem_cons_of_mem _ hq))
    simp only [Spec.firstFactor_cons]
    unfold PrivateKey.validateExponents
    by_cases hw : p.prec ≤ b
    · rw [widen_of_le hw, Res.ok_bind]
      have hv := widen_val hw
      have hx := wrappingSub_one_val (wrap (limbsFor b) p.val) (by rw [hv]; exact hp)
      rw [hv] at hx
      by_cases h1 : p.val = 1
      · rw [expectNonZero_of_eq (by rw [hx, h1])]
        refine ⟨fun er => ?_, ?_, ?_⟩
        · simp [h1, Spec.FactorOk]
        · simp [h1]
        · simp
      · rw [expectNonZero_of_ne (by rw [hx]; omega), Res.ok_bind]
        have hr := rem_val de ((wrap (limbsFor b) p.val).wrappingSub BoxedUint.one) (by rw [hx]; omega)
        rw [hx] at hr
        by_cases hc : de.val % (p.val - 1) = 1
        · have : (de.rem ((wrap (limbsFor b) p.val).wrappingSub BoxedUint.one)).isOne = true := by
            unfold isOne; rw [hr, hc]; rfl
          simp only [this, Bool.not_true, Bool.false_eq_true, if_false]
          have hok : Spec.FactorOk de.val b p := ⟨hw, by omega, hc⟩
          refine ⟨fun er => ?_, ?_, ih.2.2⟩
          · rw [ih.1 er]; simp [hok, hc]
          · rw [ih.2.1]; simp [hok, h1, hw]
        · have : (de.rem ((wrap (limbsFor b) p.val).wrappingSub BoxedUint.one)).isOne = false := by
            unfold isOne; rw [hr]; simp [hc]
          simp only [this, Bool.not_false, if_true]
          refine ⟨fun er => ?_, ?_, by simp⟩
          · have : 1 < p.val := by omega
            constructor
            · intro h; exact ⟨(Res.err.inj h).symm, Or.inl ⟨hw, this, hc⟩⟩
            · rintro ⟨rfl, _⟩; rfl
          · simp [h1, hw, Spec.FactorOk, hc]
    · have : p.widen b = .panic .precision := by simp [widen, hw]
      rw [this]
      refine ⟨fun er => ?_, ?_, ?_⟩
      · simp [hw, Spec.FactorOk]
      · simp; left; omega
      · simp

/-- The errors of the public check. -/
theorem checkPublicWithMaxSize_err (n e : BoxedUint) (er : Error) :
    checkPublicWithMaxSize n e 4096 = .err er ↔ Spec.PublicError n.prec n.val e.val er := by
  have hmin : (ofU64 minPubExponent).val = 2 := by decide
  have hmax : (ofU64 maxPubExponent).val = 2 ^ 33 - 1 := by decide
  unfold checkPublicWithMaxSize
  simp only [ge, lt, gt, isEven, isZero, hmin, hmax]
  by_cases h1 : n.prec > 4096
  · rw [if_pos h1]
    cases er <;> simp [Spec.PublicError] <;> omega
  rw [if_neg h1]
  by_cases h2 : (!decide (e.val < n.val) || n.val % 2 == 0 || n.val == 0) = true
  · rw [if_pos h2]
    simp at h2
    cases er <;> simp [Spec.PublicError] <;> omega
  rw [if_neg h2]
  simp at h2
  by_cases h3 : (e.val % 2 == 0) = true
  · rw [if_pos h3]
    simp at h3
    cases er <;> simp [Spec.PublicError] <;> omega
  rw [if_neg h3]
  simp at h3
  by_cases h4 : decide (e.val < 2) = true
  · rw [if_pos h4]
    simp at h4
    cases er <;> simp [Spec.PublicError] <;> omega
  rw [if_neg h4]
  simp at h4
  by_cases h5 : decide (2 ^ 33 - 1 < e.val) = true
  · rw [if_pos h5]
    simp at h5
    cases er <;> simp [Spec.PublicError] <;> omega
  rw [if_neg h5]
  simp at h5
  cases er <;> simp [Spec.PublicError] <;> omega

theorem Spec.PublicError.not_ok {w n e : Nat} {er : Error} (h : Spec.PublicError w n e er) : ¬ Spec.PublicOk w n e := by
  unfold Spec.PublicOk
  cases er <;> simp [Spec.PublicError] at h <;> omega

/-- C74, `validate`: every error, with its exact cause, and exactly when it panics. -/
theorem C74_validate (k : PrivateKey) (hl : 1 ≤ k.pub.n.nlimbs) (hd : 1 ≤ k.d.nlimbs) :
    (∀ er, k.validate = .err er ↔ Spec.PublicError k.pub.n.prec k.pub.n.val k.pub.e.val er ∨
      Spec.PublicOk k.pub.n.prec k.pub.n.val k.pub.e.val ∧
        Spec.FactorError k.pub.n.prec k.pub.n.val (k.d.val * k.pub.e.val) k.d.prec k.primes er) ∧
    (k.validate.Panics ↔ Spec.PublicOk k.pub.n.prec k.pub.n.val k.pub.e.val ∧
        Spec.FactorPanic k.pub.n.prec k.pub.n.val (k.d.val * k.pub.e.val) k.d.prec k.primes) ∧
    k.validate ≠ .loop := by
  have hlim : 64 * limbsFor (2 * k.d.prec) = 2 * k.d.prec := by
    have : limbsFor (2 * k.d.prec) = 2 * k.d.nlimbs := by unfold limbsFor prec; omega
    rw [this]; unfold prec; ring
  unfold PrivateKey.validate
  rcases checkPublic_cases k.pub with hc | ⟨er', hc⟩
  · have hok : Spec.PublicOk k.pub.n.prec k.pub.n.val k.pub.e.val := (checkPublic_ok _).mp hc
    have hnerr : ∀ er, ¬ Spec.PublicError k.pub.n.prec k.pub.n.val k.pub.e.val er := fun er h => h.not_ok hok
    have he : k.pub.e.val ≤ 2 ^ 33 - 1 := hok.2.2.2.2.2
    have hno : k.pub.n.val % 2 = 1 := hok.2.2.1
    simp only [hnerr, hok, false_or, true_and]
    rw [hc, Res.ok_bind, PrivateKey.validateProduct_eq]
    by_cases hall : ∀ p ∈ k.primes, 1 ≤ p.val
    · have hnz : ∀ p ∈ k.primes, p.val ≠ 0 := fun p hp => by have := hall p hp; omega
      have hnz' : ¬ ∃ p ∈ k.primes, p.val = 0 := fun ⟨p, hp, h0⟩ => hnz p hp h0
      rw [if_pos hall, Res.ok_bind]
      have h1 : (oneWithPrecision k.pub.n.prec).val = 1 := by
        unfold oneWithPrecision
        rw [limbsFor_prec _ hl]
        exact wrap_val_of_lt (Nat.one_lt_two_pow (by omega))
      have h2 : (oneWithPrecision k.pub.n.prec).nlimbs = k.pub.n.nlimbs := limbsFor_prec _ hl
      rw [h1, h2, one_mul]
      have hbeq : (wrap k.pub.n.nlimbs (k.primes.map BoxedUint.val).prod).beq k.pub.n =
          decide ((k.primes.map BoxedUint.val).prod % 2 ^ k.pub.n.prec = k.pub.n.val) := rfl
      rw [hbeq]
      by_cases hm : (k.primes.map BoxedUint.val).prod % 2 ^ k.pub.n.prec = k.pub.n.val
      · rw [decide_eq_true hm]
        simp only [Bool.not_true, Bool.false_eq_true, if_false]
        obtain ⟨d', h3, h4, h5⟩ := PrivateKey.de_val k.d k.pub.e he
        rw [h3, Res.ok_bind]
        have hv := validateExponents_verdict (d'.wrappingMul k.pub.e) d'.prec k.primes hall
        rw [h4, h5, hlim] at hv
        rw [h4, hlim]
        refine ⟨fun er => ?_, ?_, hv.2.2⟩
        · rw [hv.1]
          cases er <;> simp [Spec.FactorError, hm, hnz']
        · rw [hv.2.1]
          simp [Spec.FactorPanic, hm]
      · rw [decide_eq_false hm]
        simp only [Bool.not_false, if_true]
        refine ⟨fun er => ?_, ?_, by simp⟩
        · cases er <;> simp [Spec.FactorError, hm, hnz']
          exact hnz
        · simp [Spec.FactorPanic, hm]
    · rw [if_neg hall]
      have hz : ∃ p ∈ k.primes, p.val = 0 := by
        push Not at hall
        obtain ⟨p, hp, h⟩ := hall
        exact ⟨p, hp, by omega⟩
      have hprod : (k.primes.map BoxedUint.val).prod = 0 := by
        obtain ⟨p, hp, h0⟩ := hz
        exact List.prod_eq_zero (List.mem_map.mpr ⟨p, hp, h0⟩)
      have hm : ¬ (k.primes.map BoxedUint.val).prod % 2 ^ k.pub.n.prec = k.pub.n.val := by
        rw [hprod, Nat.zero_mod]; omega
      have hnall : ¬ ∀ p ∈ k.primes, p.val ≠ 0 := fun h => by obtain ⟨p, hp, h0⟩ := hz; exact h p hp h0
      refine ⟨fun er => ?_, ?_, by simp⟩
      · cases er <;> simp only [Spec.FactorError, hm, hnall, false_and]
        all_goals first | (simp; done) | (simp; exact hz)
      · simp [Spec.FactorPanic, hm]
  · have hnok : ¬ Spec.PublicOk k.pub.n.prec k.pub.n.val k.pub.e.val := by
      intro h
      rw [(checkPublic_ok k.pub).mpr h] at hc
      cases hc
    rw [hc]
    refine ⟨fun er => ?_, ?_, by simp⟩
    · rw [← checkPublicWithMaxSize_err, show checkPublicWithMaxSize k.pub.n k.pub.e 4096 = _ from hc]
      simp [hnok]
    · simp [hnok]

example : (⟨⟨wrap 1 35, wrap 1 5, ⟨⟨wrap 1 35, by decide⟩⟩⟩, wrap 1 5, [wrap 1 5, wrap 1 7], none⟩ : PrivateKey).validate = .ok () ∧
    (⟨⟨wrap 1 35, wrap 1 5, ⟨⟨wrap 1 35, by decide⟩⟩⟩, wrap 1 7, [wrap 1 5, wrap 1 7], none⟩ : PrivateKey).validate =
      .err .invalidExponent := by decide +kernel

/-- C74, `precompute`: a key with cached values is left alone; otherwise, for factors no wider than `d`, the first two must
be odd, above 1 and coprime, and the only error is `InvalidPrime`; wider or missing factors panic. -/
theorem C74_precompute (k : PrivateKey) (hd : 1 ≤ k.d.nlimbs) :
    (k.precomputed ≠ none → k.precompute = .ok k) ∧
    (k.precomputed = none → ∀ p q rest, k.primes = p :: q :: rest → p.prec ≤ k.d.prec → q.prec ≤ k.d.prec →
      (p.val % 2 = 1 ∧ q.val % 2 = 1 ∧ 1 < p.val ∧ 1 < q.val ∧ Nat.Coprime q.val p.val →
        ∃ pre, k.precompute = .ok { k with precomputed := some pre } ∧ Spec.CacheOk k pre) ∧
      (¬ (p.val % 2 = 1 ∧ q.val % 2 = 1 ∧ 1 < p.val ∧ 1 < q.val ∧ Nat.Coprime q.val p.val) →
        k.precompute = .err .invalidPrime)) ∧
    (k.precomputed = none → (k.precompute.Panics ↔
      ¬ ∃ p q rest, k.primes = p :: q :: rest ∧ p.prec ≤ k.d.prec ∧ q.prec ≤ k.d.prec)) := by
  have hval : ∀ p q rest, k.precomputed = none → k.primes = p :: q :: rest → p.prec ≤ k.d.prec → q.prec ≤ k.d.prec →
      (p.val % 2 = 1 ∧ q.val % 2 = 1 ∧ 1 < p.val ∧ 1 < q.val ∧ Nat.Coprime q.val p.val →
        ∃ pre, k.precompute = .ok { k with precomputed := some pre } ∧ Spec.CacheOk k pre) ∧
      (¬ (p.val % 2 = 1 ∧ q.val % 2 = 1 ∧ 1 < p.val ∧ 1 < q.val ∧ Nat.Coprime q.val p.val) →
        k.precompute = .err .invalidPrime) := by
    intro p q rest hnone hps hpl hql
    have hpl' : p.nlimbs ≤ k.d.nlimbs := by unfold prec at hpl; omega
    have hql' : q.nlimbs ≤ k.d.nlimbs := by unfold prec at hql; omega
    constructor
    · rintro ⟨hpo, hqo, hp1, hq1, hco⟩
      obtain ⟨pre, hpre⟩ := precomputeValues_exists (rest := rest) hd hpl' hql' hpo hqo hp1 hq1 hco
      refine ⟨pre, ?_, ?_⟩
      · unfold PrivateKey.precompute
        rw [hnone, hps]
        simp only [Option.isSome_none, Bool.false_eq_true, if_false]
        rw [hpre, Res.ok_bind]
      · obtain ⟨p', q', rest', h1, _, _, _, _, _, _, h2, h3, h4, h5, h6, h7, h8, h9⟩ := precomputeValues_ok hd hpre
        cases h1
        exact ⟨⟨p, q, rest, hps, h2, h3, h4, h5, h6⟩, h7, h8, h9⟩
    · intro hbad
      have herr : PrivateKey.precomputeValues k.d (p :: q :: rest) = .err .invalidPrime := by
        rcases PrivateKey.precomputeValues_returns (rest := rest) hd hpl' hql' with ⟨pre, h⟩ | h
        · exfalso
          apply hbad
          obtain ⟨p', q', rest', h1, _, _, hpo, hqo, hp1, hq1, _, _, hpm, _, h6, h7, _⟩ := precomputeValues_ok hd h
          cases h1
          refine ⟨hpo, hqo, hp1, hq1, ?_⟩
          refine Nat.Coprime.symm (Nat.Coprime.coprime_mul_left_right (k := pre.qinv.res) ?_)
          unfold Nat.Coprime
          rw [Nat.gcd_rec, h6, Nat.gcd_one_left]
        · exact h
      unfold PrivateKey.precompute
      rw [hnone, hps]
      simp only [Option.isSome_none, Bool.false_eq_true, if_false]
      rw [herr]
      rfl
  refine ⟨?_, fun hnone p q rest hps hpl hql => hval p q rest hnone hps hpl hql, ?_⟩
  · intro h
    unfold PrivateKey.precompute
    rw [if_pos (Option.isSome_iff_ne_none.mpr h)]
  · intro hnone
    constructor
    · rintro hpanic ⟨p, q, rest, hps, hpl, hql⟩
      obtain ⟨h1, h2⟩ := hval p q rest hnone hps hpl hql
      by_cases hg : p.val % 2 = 1 ∧ q.val % 2 = 1 ∧ 1 < p.val ∧ 1 < q.val ∧ Nat.Coprime q.val p.val
      · obtain ⟨pre, h, _⟩ := h1 hg
        rw [h] at hpanic; exact hpanic
      · rw [h2 hg] at hpanic; exact hpanic
    · intro hno
      unfold PrivateKey.precompute
      rw [hnone]
      simp only [Option.isSome_none, Bool.false_eq_true, if_false]
      unfold PrivateKey.precomputeValues
      match hps : k.primes with
      | [] => simp [primeAt]
      | [p] =>
        simp only [primeAt, List.getElem?_cons_zero, Res.ok_bind]
        by_cases hp : p.prec ≤ k.d.prec
        · rw [widen_of_le hp]; simp
        · rw [widen_panic (by omega)]; trivial
      | p :: q :: rest =>
        simp only [primeAt, List.getElem?_cons_zero, List.getElem?_cons_succ, Res.ok_bind]
        by_cases hp : p.prec ≤ k.d.prec
        · rw [widen_of_le hp, Res.ok_bind]
          by_cases hq : q.prec ≤ k.d.prec
          · exact absurd ⟨p, q, rest, hps, hp, hq⟩ hno
          · rw [widen_panic (by omega)]; trivial
        · rw [widen_panic (by omega)]; trivial

theorem precomputeValues_not_loop (d : BoxedUint) (ps : List BoxedUint) :
    PrivateKey.precomputeValues d ps ≠ .loop := by
  have hw : ∀ (x : BoxedUint) b, x.widen b ≠ .loop := fun x b => by unfold widen; split <;> simp
  have hp : ∀ i, primeAt ps i ≠ .loop := fun i => by unfold primeAt; split <;> simp
  have ho : ∀ x, PrivateKey.oddOrInvalid x ≠ .loop := fun x => by unfold PrivateKey.oddOrInvalid; split <;> simp
  have hn : ∀ x, PrivateKey.nonZeroOrInvalid x ≠ .loop := fun x => by unfold PrivateKey.nonZeroOrInvalid; split <;> simp
  have hm : ∀ x m, MontyForm.new x m ≠ .loop := fun x m => by unfold MontyForm.new; split <;> simp
  intro h
  unfold PrivateKey.precomputeValues at h
  simp only [Res.bind_eq_loop, hw, hp, ho, hn, hm, false_or] at h
  obtain ⟨_, _, _, _, _, _, _, _, _, _, _, _, _, _, _, _, _, _, h⟩ := h
  split at h
  · cases h
  · split at h <;> cases h

/-- `from_components` with two or more factors is `validate`, followed by the computation of the CRT values. -/
theorem fromComponents_two (n : OddUint) (e d p q : BoxedUint) (rest : List BoxedUint) :
    PrivateKey.fromComponents n e d (p :: q :: rest) =
      ((⟨⟨n.toBoxedUint, e, ⟨n⟩⟩, d, p :: q :: rest, none⟩ : PrivateKey).validate >>= fun _ =>
        (⟨⟨n.toBoxedUint, e, ⟨n⟩⟩, d, p :: q :: rest, none⟩ : PrivateKey).tryPrecompute) := by
  have hnz : n.toBoxedUint.nonZero = some n.toBoxedUint := by
    have := n.pos
    unfold nonZero; rw [if_neg (by omega)]
  unfold PrivateKey.fromComponents
  simp only [hnz, Res.ok_bind]

/-- C74, `from_components` with factors: every error with its exact cause, and exactly when it panics. -/
theorem C74_from_components (n : OddUint) (e d : BoxedUint) (primes : List BoxedUint) (hd : 1 ≤ d.nlimbs)
    (hne : primes ≠ []) :
    (∀ er, PrivateKey.fromComponents n e d primes = .err er ↔
      (primes.length = 1 ∧ er = .nprimesTooSmall) ∨
      2 ≤ primes.length ∧ (Spec.PublicError n.toBoxedUint.prec n.toBoxedUint.val e.val er ∨
        Spec.PublicOk n.toBoxedUint.prec n.toBoxedUint.val e.val ∧
          Spec.FactorError n.toBoxedUint.prec n.toBoxedUint.val (d.val * e.val) d.prec primes er)) ∧
    ((PrivateKey.fromComponents n e d primes).Panics ↔
      2 ≤ primes.length ∧ Spec.PublicOk n.toBoxedUint.prec n.toBoxedUint.val e.val ∧
        (Spec.FactorPanic n.toBoxedUint.prec n.toBoxedUint.val (d.val * e.val) d.prec primes ∨
          (primes.map BoxedUint.val).prod % 2 ^ n.toBoxedUint.prec = n.toBoxedUint.val ∧
          (∀ p ∈ primes, Spec.FactorOk (d.val * e.val) (2 * d.prec) p) ∧ ∃ p ∈ primes.take 2, d.prec < p.prec)) ∧
    PrivateKey.fromComponents n e d primes ≠ .loop := by
  match primes, hne with
  | [p], _ =>
    have hnz : n.toBoxedUint.nonZero = some n.toBoxedUint := by
      have := n.pos
      unfold nonZero; rw [if_neg (by omega)]
    have : PrivateKey.fromComponents n e d [p] = .err .nprimesTooSmall := by
      unfold PrivateKey.fromComponents
      simp only [hnz]
      rfl
    rw [this]
    refine ⟨fun er => ?_, ?_, by simp⟩
    · simp [eq_comm]
    · simp
  | p :: q :: rest, _ =>
    rw [fromComponents_two]
    obtain ⟨k, hk⟩ : ∃ k : PrivateKey, k = ⟨⟨n.toBoxedUint, e, ⟨n⟩⟩, d, p :: q :: rest, none⟩ := ⟨_, rfl⟩
    rw [← hk]
    have hv := C74_validate k (by rw [hk]; exact n.nlimbs_pos) (by rw [hk]; exact hd)
    have hpc := C74_precompute k (by rw [hk]; exact hd)
    have hok := PrivateKey.validate_ok_iff k (by rw [hk]; exact n.nlimbs_pos)
    have hlim : 64 * limbsFor (2 * d.prec) = 2 * d.prec := by
      have : limbsFor (2 * d.prec) = 2 * d.nlimbs := by unfold limbsFor prec; omega
      rw [this]; unfold prec; ring
    have htry : ∀ er, k.tryPrecompute ≠ .err er := by
      intro er h
      unfold PrivateKey.tryPrecompute at h
      split at h
      · cases h
      · next hx => exact hx _ h
    have hA : ∀ er, (k.validate >>= fun _ => k.tryPrecompute) = .err er ↔ k.validate = .err er := by
      intro er
      rw [Res.bind_eq_err]
      constructor
      · rintro (h | ⟨_, _, h⟩)
        · exact h
        · exact absurd h (htry er)
      · exact Or.inl
    have hB : (k.validate >>= fun _ => k.tryPrecompute).Panics ↔
        k.validate.Panics ∨ k.validate = .ok () ∧ k.precompute.Panics := by
      have ht : k.tryPrecompute.Panics ↔ k.precompute.Panics := by
        unfold PrivateKey.tryPrecompute
        cases k.precompute <;> simp
      cases hx : k.validate with
      | ok u => rw [Res.ok_bind, ht]; simp
      | err er => simp
      | panic x => simp
      | loop => simp
    have hloop : (k.validate >>= fun _ => k.tryPrecompute) ≠ .loop := by
      intro h
      rw [Res.bind_eq_loop] at h
      rcases h with h | ⟨_, _, h⟩
      · exact hv.2.2 h
      · unfold PrivateKey.tryPrecompute PrivateKey.precompute at h
        rw [hk] at h
        simp only [Option.isSome_none, Bool.false_eq_true, if_false] at h
        split at h
        · cases h
        · rw [Res.bind_eq_loop] at h
          rcases h with h | ⟨_, _, h⟩
          · exact precomputeValues_not_loop _ _ h
          · cases h
    refine ⟨fun er => ?_, ?_, hloop⟩
    · rw [hA, hv.1, hk]
      simp
    · rw [hB, hv.2.1, hok, hpc.2.2 (by rw [hk])]
      have hp : checkPublic k.pub = .ok () ↔ Spec.PublicOk n.toBoxedUint.prec n.toBoxedUint.val e.val := by
        rw [hk]; exact checkPublic_ok _
      rw [hp, hk]
      simp only [hlim]
      have hlen : 2 ≤ (p :: q :: rest).length := by simp
      have hwide : (¬ ∃ p' q' rest', p :: q :: rest = p' :: q' :: rest' ∧ p'.prec ≤ d.prec ∧ q'.prec ≤ d.prec) ↔
          ∃ x ∈ (p :: q :: rest).take 2, d.prec < x.prec := by
        constructor
        · intro h
          by_contra hc
          push Not at hc
          exact h ⟨p, q, rest, rfl, hc p (by simp), hc q (by simp)⟩
        · rintro ⟨x, hx, hlt⟩ ⟨p', q', rest', h, h1, h2⟩
          cases h
          simp at hx
          rcases hx with rfl | rfl <;> omega
      rw [hwide]
      constructor
      · rintro (⟨h1, h2⟩ | ⟨⟨h1, h2, h3⟩, h4⟩)
        · exact ⟨hlen, h1, Or.inl h2⟩
        · exact ⟨hlen, h1, Or.inr ⟨h2, h3, h4⟩⟩
      · rintro ⟨_, h1, h2 | ⟨h2, h3, h4⟩⟩
        · exact Or.inl ⟨h1, h2⟩
        · exact Or.inr ⟨⟨h1, h2, h3⟩, h4⟩

example : PrivateKey.fromComponents ⟨wrap 1 35, by decide⟩ (wrap 1 5) (wrap 1 5) [wrap 1 35] = .err .nprimesTooSmall ∧
    PrivateKey.fromComponents ⟨wrap 1 35, by decide⟩ (wrap 1 5) (wrap 1 5) [wrap 1 0, wrap 1 7] = .err .invalidPrime := by
  decide +kernel

/-- C74, `from_components` without factors: the only error of its own is `InvalidArguments`, when the factors cannot be
recovered; a recovered key is refused for its public part or panics. -/
theorem C74_from_components_no_factors (n : OddUint) (e d : BoxedUint) :
    (∀ er, PrivateKey.fromComponents n e d [] = .err er ↔
      (er = .invalidArguments ∧ ∃ er', recoverPrimes n.toBoxedUint e d = .err er') ∨
      (∃ r, recoverPrimes n.toBoxedUint e d = .ok r) ∧
        Spec.PublicError n.toBoxedUint.prec n.toBoxedUint.val e.val er) ∧
    ((PrivateKey.fromComponents n e d []).Panics ↔ (recoverPrimes n.toBoxedUint e d).Panics ∨
      (∃ r, recoverPrimes n.toBoxedUint e d = .ok r) ∧ Spec.PublicOk n.toBoxedUint.prec n.toBoxedUint.val e.val) ∧
    PrivateKey.fromComponents n e d [] ≠ .loop := by
  have hnz : n.toBoxedUint.nonZero = some n.toBoxedUint := by
    have := n.pos
    unfold nonZero; rw [if_neg (by omega)]
  have hfc : PrivateKey.fromComponents n e d [] = (recoverPrimes n.toBoxedUint e d >>= fun r =>
      PrivateKey.fromComponents n e d [r.1, r.2]) := by
    unfold PrivateKey.fromComponents
    simp only [hnz]
  rw [hfc]
  by_cases he : 65536 < e.val
  · by_cases hw : e.prec ≤ 2 * d.prec ∧ n.toBoxedUint.prec ≤ 2 * d.prec ∧ 0 < d.val ∧ 0 < n.toBoxedUint.val
    · have hdl := nlimbs_pos_of_val_pos d hw.2.2.1
      rcases recoverPrimes_eq n.toBoxedUint e d he hw.1 hw.2.1 hw.2.2.1 hw.2.2.2 with ⟨_, h'⟩ | ⟨p, q, _, hpl, _, h'⟩
      · rw [h']
        refine ⟨fun er => ?_, by simp, by simp⟩
        simp [eq_comm]
      · have hpq : p.val * q.val = n.toBoxedUint.val := (C30_recovery_sound _ _ _ _ _ h').1
        have hprod : ([p, q].map BoxedUint.val).prod % 2 ^ n.toBoxedUint.prec = n.toBoxedUint.val := by
          simp only [List.map_cons, List.map_nil, List.prod_cons, List.prod_nil, mul_one]
          rw [hpq]
          exact Nat.mod_eq_of_lt n.toBoxedUint.isLt
        have hwide : 2 * d.prec < p.prec := by unfold prec; omega
        have hpan : Spec.FactorPanic n.toBoxedUint.prec n.toBoxedUint.val (d.val * e.val) d.prec [p, q] :=
          ⟨hprod, [], p, [q], rfl, by simp, Or.inl hwide⟩
        have hne : ∀ er, ¬ Spec.FactorError n.toBoxedUint.prec n.toBoxedUint.val (d.val * e.val) d.prec [p, q] er := by
          intro er h
          have hp0 : p.val ≠ 0 := by intro h0; rw [h0, zero_mul] at hpq; have := n.pos; omega
          have hq0 : q.val ≠ 0 := by intro h0; rw [h0, mul_zero] at hpq; have := n.pos; omega
          cases er <;> simp only [Spec.FactorError] at h
          · obtain ⟨x, hx, h0⟩ := h
            simp at hx
            rcases hx with rfl | rfl
            · exact hp0 h0
            · exact hq0 h0
          · exact h.2 hprod
          · obtain ⟨_, h⟩ := h
            rw [Spec.firstFactor_cons] at h
            rcases h with h | h
            · omega
            · have := h.1.1; omega
        have hC := C74_from_components n e d [p, q] hdl (by simp)
        rw [h', Res.ok_bind]
        refine ⟨fun er => ?_, ?_, hC.2.2⟩
        · rw [hC.1]; simp [hne]
        · rw [hC.2.1]; simp [hpan]
    · obtain ⟨x, hx⟩ := recoverPrimes_panics n.toBoxedUint e d he hw
      rw [hx]
      refine ⟨fun er => by simp, by simp, by simp⟩
  · rw [recoverPrimes_small _ e d (by omega)]
    refine ⟨fun er => ?_, by simp, by simp⟩
    simp [eq_comm]

example : PrivateKey.fromComponents Ex.nOdd (wrap 1 3) (wrap 4 Ex.dVal) [] = .err .invalidArguments := by decide +kernel

/-- With consistent factors and private exponent, `from_components` fails only for the public part. -/
theorem fromComponents_consistent {n : OddUint} {e d : BoxedUint} {ps : List BoxedUint}
    (hprod : (ps.map BoxedUint.val).prod = n.toBoxedUint.val)
    (hall : ∀ p ∈ ps, p.prec ≤ d.prec ∧ 1 < p.val ∧ d.val * e.val % (p.val - 1) = 1) (hlen : 2 ≤ ps.length)
    (hd : 1 ≤ d.nlimbs) :
    (∀ er, PrivateKey.fromComponents n e d ps = .err er ↔
      Spec.PublicError n.toBoxedUint.prec n.toBoxedUint.val e.val er) ∧
    ((∃ k, PrivateKey.fromComponents n e d ps = .ok k) ↔ Spec.PublicOk n.toBoxedUint.prec n.toBoxedUint.val e.val) := by
  have hm : (ps.map BoxedUint.val).prod % 2 ^ n.toBoxedUint.prec = n.toBoxedUint.val := by
    rw [hprod]; exact Nat.mod_eq_of_lt n.toBoxedUint.isLt
  have hok : ∀ p ∈ ps, Spec.FactorOk (d.val * e.val) (2 * d.prec) p := fun p hp =>
    ⟨by have := (hall p hp).1; omega, (hall p hp).2⟩
  have hno : ∀ bad : BoxedUint → Prop, (∀ p, Spec.FactorOk (d.val * e.val) (2 * d.prec) p → ¬ bad p) →
      ¬ Spec.FirstFactor (d.val * e.val) (2 * d.prec) ps bad := by
    rintro bad hbad ⟨pre, p, post, rfl, _, hb⟩
    exact hbad p (hok p (by simp)) hb
  have hfe : ∀ er, ¬ Spec.FactorError n.toBoxedUint.prec n.toBoxedUint.val (d.val * e.val) d.prec ps er := by
    intro er h
    cases er <;> simp only [Spec.FactorError] at h
    · obtain ⟨x, hx, h0⟩ := h
      have := (hall x hx).2.1
      omega
    · exact h.2 hm
    · exact hno _ (fun p hp hb => hb.2.2 hp.2.2) h.2
  have hfp : ¬ Spec.FactorPanic n.toBoxedUint.prec n.toBoxedUint.val (d.val * e.val) d.prec ps := by
    rintro ⟨_, h⟩
    exact hno _ (fun p hp hb => by have h1 := hp.1; have h2 := hp.2.1; omega) h
  have hC := C74_from_components n e d ps hd (by rintro rfl; simp at hlen)
  have herr : ∀ er, PrivateKey.fromComponents n e d ps = .err er ↔
      Spec.PublicError n.toBoxedUint.prec n.toBoxedUint.val e.val er := by
    intro er
    rw [hC.1]
    simp only [hfe, hlen, and_false, or_false, true_and]
    constructor
    · rintro (⟨h, _⟩ | h)
      · omega
      · exact h
    · exact Or.inr
  have hpan : ¬ (PrivateKey.fromComponents n e d ps).Panics := by
    rw [hC.2.1]
    rintro ⟨_, _, h | ⟨_, _, p, hp, h⟩⟩
    · exact hfp h
    · have := (hall p (List.mem_of_mem_take hp)).1
      omega
  refine ⟨herr, ?_⟩
  constructor
  · rintro ⟨k, hk⟩
    obtain ⟨h1, h2, h3, h4, h5, h6, h7, _⟩ := PrivateKey.fromComponents_ok (by rintro rfl; simp at hlen) hk
    have := ((PrivateKey.validate_ok_iff k (by rw [h1]; exact n.nlimbs_pos)).mp h7).1
    rw [checkPublic_ok, h1, h2] at this
    exact this
  · intro h
    cases hx : PrivateKey.fromComponents n e d ps with
    | ok k => exact ⟨k, rfl⟩
    | err er => exact absurd h ((herr er).mp hx).not_ok
    | panic x => rw [hx] at hpan; exact absurd trivial hpan
    | loop => exact absurd hx hC.2.2

/-- C74, `from_p_q` for odd factors above 1 and an exponent that fits: the outcome in every case. -/
theorem C74_from_p_q (p q e : BoxedUint) (hp : 1 < p.val) (hq : 1 < q.val) (hpo : p.val % 2 = 1) (hqo : q.val % 2 = 1)
    (he : e.prec ≤ p.prec + q.prec) :
    (∀ er, PrivateKey.fromPQ p q e = .err er ↔
      (er = .invalidPrime ∧ (p.val = q.val ∨ ¬ Nat.Coprime e.val (Nat.lcm (p.val - 1) (q.val - 1)))) ∨
      p.val ≠ q.val ∧ Nat.Coprime e.val (Nat.lcm (p.val - 1) (q.val - 1)) ∧
        Spec.PublicError (p.prec + q.prec) (p.val * q.val) e.val er) ∧
    ((∃ k, PrivateKey.fromPQ p q e = .ok k) ↔ p.val ≠ q.val ∧
      Nat.Coprime e.val (Nat.lcm (p.val - 1) (q.val - 1)) ∧
      Spec.PublicOk (p.prec + q.prec) (p.val * q.val) e.val) := by
  have hpl := nlimbs_pos_of_val_pos p (by omega)
  have hql := nlimbs_pos_of_val_pos q (by omega)
  unfold PrivateKey.fromPQ
  by_cases hpq : p.val = q.val
  · have hb : p.beq q = true := by simp [beq, hpq]
    rw [if_pos hb]
    simp [hpq, eq_comm]
  have hb : p.beq q = false := by simp [beq, hpq]
  rw [hb]
  simp only [Bool.false_eq_true, if_false]
  obtain ⟨hc1, hc2, hc3⟩ := carmichael_spec (e := e) hp hq
  have hew : e.prec ≤ 64 * (p.nlimbs + q.nlimbs) := by unfold prec at *; omega
  by_cases hco : Nat.Coprime e.val (Nat.lcm (p.val - 1) (q.val - 1))
  · obtain ⟨d, hd⟩ := hc2 hew hco
    obtain ⟨hd1, hd2, hd3⟩ := hc1 d hd
    obtain ⟨n, hn⟩ := computeModulus_exists (ps := [p, q]) (by simp) (by simp [Nat.mul_mod, hpo, hqo])
    obtain ⟨hnv, hnl⟩ := computeModulus_ok hn
    have hnv' : n.toBoxedUint.val = p.val * q.val := by rw [hnv]; simp
    have hnl' : n.toBoxedUint.nlimbs = p.nlimbs + q.nlimbs := by rw [hnl]; simp
    have hnp : n.toBoxedUint.prec = p.prec + q.prec := by unfold prec; rw [hnl']; ring
    rw [hd, Res.ok_bind, hn, Res.ok_bind]
    have hfin := fromComponents_consistent (n := n) (e := e) (d := d) (ps := [p, q]) (by rw [hnv])
      (by
        intro x hx
        have hmod : d.val * e.val ≡ 1 [MOD Nat.lcm (p.val - 1) (q.val - 1)] := by rw [mul_comm]; exact hd2
        rcases List.mem_cons.mp hx with rfl | hx
        · exact ⟨by unfold prec; omega, hp, mod_eq_one_of_modEq hmod (Nat.dvd_lcm_left _ _) (by omega)⟩
        · obtain rfl : x = q := by simpa using hx
          exact ⟨by unfold prec; omega, hq, mod_eq_one_of_modEq hmod (Nat.dvd_lcm_right _ _) (by omega)⟩)
      (by simp) (by omega)
    rw [hnp, hnv'] at hfin
    refine ⟨fun er => ?_, ?_⟩
    · rw [hfin.1]
      constructor
      · intro h; exact Or.inr ⟨hpq, hco, h⟩
      · rintro (⟨_, h | h⟩ | ⟨_, _, h⟩)
        · exact absurd h hpq
        · exact absurd hco h
        · exact h
    · rw [hfin.2]
      exact ⟨fun h => ⟨hpq, hco, h⟩, fun h => h.2.2⟩
  · rw [hc3 hew hco]
    simp [hpq, hco, eq_comm]

example : PrivateKey.fromPQ (wrap 1 7) (wrap 1 13) (wrap 1 3) = .err .invalidPrime ∧
    PrivateKey.fromPQ (wrap 1 7) (wrap 1 13) (wrap 1 1) = .err .publicExponentTooSmall := by decide +kernel

/-- C74, `from_primes` for odd factors above 1 and an exponent that fits: the outcome in every case. -/
theorem C74_from_primes (ps : List BoxedUint) (e : BoxedUint) (h1 : ∀ p ∈ ps, 1 < p.val ∧ p.val % 2 = 1)
    (he : e.prec ≤ (ps.map BoxedUint.prec).sum) :
    (∀ er, PrivateKey.fromPrimes ps e = .err er ↔
      (er = .nprimesTooSmall ∧ ps.length < 2) ∨
      (er = .invalidPrime ∧ 2 ≤ ps.length ∧
        (¬ (ps.map BoxedUint.val).Nodup ∨ ¬ Nat.Coprime e.val (ps.map (fun p => p.val - 1)).prod)) ∨
      2 ≤ ps.length ∧ (ps.map BoxedUint.val).Nodup ∧ Nat.Coprime e.val (ps.map (fun p => p.val - 1)).prod ∧
        Spec.PublicError (ps.map BoxedUint.prec).sum (ps.map BoxedUint.val).prod e.val er) ∧
    ((∃ k, PrivateKey.fromPrimes ps e = .ok k) ↔ 2 ≤ ps.length ∧ (ps.map BoxedUint.val).Nodup ∧
      Nat.Coprime e.val (ps.map (fun p => p.val - 1)).prod ∧
      Spec.PublicOk (ps.map BoxedUint.prec).sum (ps.map BoxedUint.val).prod e.val) := by
  have hsum : (ps.map BoxedUint.prec).sum = 64 * (ps.map BoxedUint.nlimbs).sum := by
    clear h1 he
    induction ps with
    | nil => rfl
    | cons p ps ih => simp only [List.map_cons, List.sum_cons, ih]; unfold prec; ring
  unfold PrivateKey.fromPrimes
  by_cases hlen : ps.length < 2
  · rw [if_pos hlen]
    have : ¬ 2 ≤ ps.length := by omega
    simp [hlen, this, eq_comm]
  rw [if_neg hlen]
  have hlen2 : 2 ≤ ps.length := by omega
  cases hdup : PrivateKey.hasDuplicate [] ps with
  | true =>
    have hnd : ¬ (ps.map BoxedUint.val).Nodup := by
      intro h
      have := (PrivateKey.hasDuplicate_iff ps []).mpr ⟨h, by simp⟩
      rw [this] at hdup; cases hdup
    simp [hnd, hlen, hlen2, eq_comm]
  | false =>
    have hnd := ((PrivateKey.hasDuplicate_iff ps []).mp hdup).1
    simp only [Bool.false_eq_true, if_false]
    have hne : ps ≠ [] := by rintro rfl; simp at hlen2
    obtain ⟨n, hn⟩ := computeModulus_exists (ps := ps) hne
      (prod_odd _ (fun x hx => by obtain ⟨p, hp, rfl⟩ := List.mem_map.mp hx; exact (h1 p hp).2))
    obtain ⟨hnv, hnl⟩ := computeModulus_ok hn
    have hnp : n.toBoxedUint.prec = (ps.map BoxedUint.prec).sum := by rw [hsum]; unfold prec; rw [hnl]
    rw [hn, Res.ok_bind]
    obtain ⟨hc1, hc2, hc3⟩ := euler_spec (e := e) hlen2 (fun p hp => by have := (h1 p hp).1; omega)
    have hpos : 0 < (ps.map (fun p => p.val - 1)).prod :=
      prod_pos _ (fun x hx => by obtain ⟨p, hp, rfl⟩ := List.mem_map.mp hx; have := (h1 p hp).1; omega)
    by_cases hco : Nat.Coprime e.val (ps.map (fun p => p.val - 1)).prod
    · obtain ⟨d, hd⟩ := hc2 (by rw [← hsum]; exact he) hpos hco
      obtain ⟨hd1, hd2, hd3⟩ := hc1 d hd
      rw [hd, Res.ok_bind]
      have hdl : 1 ≤ d.nlimbs := by
        have := n.nlimbs_pos
        omega
      have hfin := fromComponents_consistent (n := n) (e := e) (d := d) (ps := ps) (by rw [hnv])
        (by
          intro x hx
          have hmod : d.val * e.val ≡ 1 [MOD (ps.map (fun p => p.val - 1)).prod] := by rw [mul_comm]; exact hd2
          have hx1 := h1 x hx
          exact ⟨by have := le_sum_nlimbs hx; unfold prec; omega, hx1.1,
            mod_eq_one_of_modEq hmod (List.dvd_prod (List.mem_map.mpr ⟨x, hx, rfl⟩)) (by omega)⟩)
        hlen2 hdl
      rw [hnp, hnv] at hfin
      refine ⟨fun er => ?_, ?_⟩
      · rw [hfin.1]
        constructor
        · intro h; exact Or.inr (Or.inr ⟨hlen2, hnd, hco, h⟩)
        · rintro (⟨_, h⟩ | ⟨_, _, h | h⟩ | ⟨_, _, _, h⟩)
          · exact absurd h hlen
          · exact absurd hnd h
          · exact absurd hco h
          · exact h
      · rw [hfin.2]
        exact ⟨fun h => ⟨hlen2, hnd, hco, h⟩, fun h => h.2.2.2⟩
    · rw [hc3 (by rw [← hsum]; exact he) hpos hco]
      simp [hnd, hlen, hlen2, hco, eq_comm]

example : PrivateKey.fromPrimes [wrap 1 5, wrap 1 7, wrap 1 5] (wrap 1 5) = .err .invalidPrime ∧
    PrivateKey.fromPrimes [wrap 1 5, wrap 1 7, wrap 1 17] (wrap 1 1) = .err .publicExponentTooSmall := by decide +kernel

end RSA
