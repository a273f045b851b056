import Verif.Proof.Precompute
import Verif.Proof.PublicKey

namespace RSA
open BoxedUint

theorem expectNonZero_of_ne {x : BoxedUint} (h : x.val ≠ 0) : expectNonZero x = .ok x := by
  simp [expectNonZero, nonZero, h]

theorem expectNonZero_of_eq {x : BoxedUint} (h : x.val = 0) : expectNonZero x = .panic .unwrap := by
  simp [expectNonZero, nonZero, h]

theorem expectNonZero_ok {x y : BoxedUint} (h : expectNonZero x = .ok y) : y = x ∧ x.val ≠ 0 := by
  by_cases h0 : x.val = 0
  · rw [expectNonZero_of_eq h0] at h; cases h
  · rw [expectNonZero_of_ne h0] at h; exact ⟨(Res.ok.inj h).symm, h0⟩

theorem one_val : BoxedUint.one.val = 1 := rfl

namespace PrivateKey

/-- The product loop of `validate`: all factors at least 1, product modulo the width of `m`. -/
theorem validateProduct_eq : ∀ (ps : List BoxedUint) (m : BoxedUint),
    validateProduct ps m =
      if ∀ p ∈ ps, 1 ≤ p.val then .ok (wrap m.nlimbs (m.val * (ps.map BoxedUint.val).prod)) else .err .invalidPrime := by
  intro ps
  induction ps with
  | nil => intro m; simp [validateProduct]
  | cons p ps ih =>
    intro m
    unfold validateProduct
    by_cases h : p.lt BoxedUint.one = true
    · rw [if_pos h, if_neg]
      intro hall
      have := hall p (List.mem_cons_self ..)
      simp [lt, one_val] at h
      omega
    · rw [if_neg h, ih]
      have hp : 1 ≤ p.val := by simp [lt, one_val] at h; omega
      have hw : wrap (m.wrappingMul p).nlimbs ((m.wrappingMul p).val * (ps.map BoxedUint.val).prod)
          = wrap m.nlimbs (m.val * ((p :: ps).map BoxedUint.val).prod) := by
        refine ext_val (show m.nlimbs = m.nlimbs from rfl) ?_
        show (m.val * p.val % 2 ^ (64 * m.nlimbs)) * (ps.map BoxedUint.val).prod % 2 ^ (64 * m.nlimbs) = _
        rw [Nat.mod_mul_mod, List.map_cons, List.prod_cons, ← mul_assoc]
        rfl
      rw [hw]
      by_cases hall : ∀ q ∈ ps, 1 ≤ q.val
      · rw [if_pos hall, if_pos]
        intro q hq
        rcases List.mem_cons.mp hq with rfl | hq
        · exact hp
        · exact hall q hq
      · rw [if_neg hall, if_neg]
        intro h'
        exact hall (fun q hq => h' q (List.mem_cons_of_mem _ hq))

/-- The exponent loop of `validate` accepts exactly this. -/
theorem validateExponents_ok (de : BoxedUint) (b : Nat) : ∀ (ps : List BoxedUint), (∀ p ∈ ps, 1 ≤ p.val) →
    (validateExponents de b ps = .ok () ↔ ∀ p ∈ ps, p.prec ≤ b ∧ 1 < p.val ∧ de.val % (p.val - 1) = 1) := by
  intro ps
  induction ps with
  | nil => intro _; simp [validateExponents]
  | cons p ps ih =>
    intro hall
    have hp := hall p (List.mem_cons_self ..)
    have ih := ih (fun q hq => hall q (List.mem_cons_of_mem _ hq))
    unfold validateExponents
    simp only [List.forall_mem_cons]
    by_cases hw : p.prec ≤ b
    · rw [widen_of_le hw, Res.ok_bind]
      have hv := widen_val hw
      have hx := wrappingSub_one_val (wrap (limbsFor b) p.val) (by rw [hv]; exact hp)
      rw [hv] at hx
      by_cases h1 : p.val = 1
      · rw [expectNonZero_of_eq (by rw [hx, h1])]
        simp [h1]
      · rw [expectNonZero_of_ne (by rw [hx]; omega), Res.ok_bind]
        have hr := rem_val de ((wrap (limbsFor b) p.val).wrappingSub BoxedUint.one) (by rw [hx]; omega)
        rw [hx] at hr
        by_cases hc : de.val % (p.val - 1) = 1
        · have : (de.rem ((wrap (limbsFor b) p.val).wrappingSub BoxedUint.one)).isOne = true := by
            unfold isOne; rw [hr, hc]; rfl
          rw [this]
          simp only [Bool.not_true, Bool.false_eq_true, if_false]
          rw [ih]
          exact ⟨fun h => ⟨⟨hw, by omega, hc⟩, h⟩, fun h => h.2⟩
        · have : (de.rem ((wrap (limbsFor b) p.val).wrappingSub BoxedUint.one)).isOne = false := by
            unfold isOne; rw [hr]; simp [hc]
          rw [this]
          simp only [Bool.not_false, if_true]
          exact ⟨fun h => (by cases h), fun h => absurd h.1.2.2 hc⟩
    · have : p.widen b = .panic .precision := by simp [widen, hw]
      rw [this]
      exact ⟨fun h => (by cases h), fun h => absurd h.1.1 hw⟩

/-- The exponent loop never fails otherwise than by an error, when no factor is 1 and all fit. -/
theorem validateExponents_returns (de : BoxedUint) (b : Nat) : ∀ (ps : List BoxedUint),
    (∀ p ∈ ps, 1 < p.val ∧ p.prec ≤ b) →
    validateExponents de b ps = .ok () ∨ validateExponents de b ps = .err .invalidExponent := by
  intro ps
  induction ps with
  | nil => intro _; exact Or.inl rfl
  | cons p ps ih =>
    intro hall
    obtain ⟨hp, hw⟩ := hall p (List.mem_cons_self ..)
    unfold validateExponents
    rw [widen_of_le hw, Res.ok_bind]
    have hv := widen_val hw
    have hx := wrappingSub_one_val (wrap (limbsFor b) p.val) (by rw [hv]; omega)
    rw [hv] at hx
    rw [expectNonZero_of_ne (by rw [hx]; omega), Res.ok_bind]
    dsimp only
    split
    · exact Or.inr rfl
    · exact ih (fun q hq => hall q (List.mem_cons_of_mem _ hq))

/-- `d * e` at twice the width of `d` does not wrap for an acceptable exponent. -/
theorem de_val (d e : BoxedUint) (he : e.val ≤ 2 ^ 33 - 1) :
    ∃ d', d.widen (2 * d.prec) = .ok d' ∧ d'.prec = 64 * limbsFor (2 * d.prec) ∧ (d'.wrappingMul e).val = d.val * e.val := by
  have hle : d.prec ≤ 2 * d.prec := by omega
  refine ⟨_, widen_of_le hle, rfl, ?_⟩
  have hv := widen_val hle
  show (wrap (limbsFor (2 * d.prec)) d.val).val * e.val % 2 ^ (64 * limbsFor (2 * d.prec)) = _
  rw [hv]
  apply Nat.mod_eq_of_lt
  have hd := d.isLt
  have hpow : (2 : Nat) ^ (64 * d.nlimbs) * 2 ^ 33 ≤ 2 ^ (64 * limbsFor (2 * d.prec)) * 2 ^ 0 ∨ d.nlimbs = 0 := by
    by_cases h0 : d.nlimbs = 0
    · exact Or.inr h0
    · left
      rw [← pow_add, ← pow_add]
      refine Nat.pow_le_pow_right (by norm_num) ?_
      have := le_limbsFor (2 * d.prec)
      unfold prec at *; omega
  rcases hpow with h | h
  · have h1 : d.val * e.val < 2 ^ (64 * d.nlimbs) * 2 ^ 33 := by
      calc d.val * e.val ≤ d.val * 2 ^ 33 := Nat.mul_le_mul_left _ (by omega)
        _ < _ := Nat.mul_lt_mul_of_pos_right hd (by norm_num)
    omega
  · rw [h] at hd
    have : d.val = 0 := by simpa using hd
    rw [this, zero_mul]; positivity

/-- Exactly what `validate` accepts. -/
theorem validate_ok_iff (k : PrivateKey) (hl : 1 ≤ k.pub.n.nlimbs) :
    k.validate = .ok () ↔ checkPublic k.pub = .ok () ∧
      (k.primes.map BoxedUint.val).prod % 2 ^ k.pub.n.prec = k.pub.n.val ∧
      ∀ p ∈ k.primes, p.prec ≤ 64 * limbsFor (2 * k.d.prec) ∧ 1 < p.val ∧ k.d.val * k.pub.e.val % (p.val - 1) = 1 := by
  unfold validate
  rcases checkPublic_cases k.pub with hc | ⟨er, hc⟩
  · rw [hc, Res.ok_bind, validateProduct_eq]
    have he : k.pub.e.val ≤ 2 ^ 33 - 1 := ((checkPublic_ok _).mp hc).2.2.2.2.2
    by_cases hall : ∀ p ∈ k.primes, 1 ≤ p.val
    · rw [if_pos hall, Res.ok_bind]
      have h1 : (oneWithPrecision k.pub.n.prec).val = 1 := by
        unfold oneWithPrecision
        rw [limbsFor_prec _ hl]
        exact wrap_val_of_lt (Nat.one_lt_two_pow (by omega))
      have h2 : (oneWithPrecision k.pub.n.prec).nlimbs = k.pub.n.nlimbs := limbsFor_prec _ hl
      rw [h1, h2, one_mul]
      have hbeq : (wrap k.pub.n.nlimbs (k.primes.map BoxedUint.val).prod).beq k.pub.n =
          decide ((k.primes.map BoxedUint.val).prod % 2 ^ k.pub.n.prec = k.pub.n.val) := rfl
      rw [hbeq]
      by_cases hm : (k.primes.map BoxedUint.val).prod % 2 ^ k.pub.n.prec = k.pub.n.val
      · rw [decide_eq_true hm]
        simp only [Bool.not_true, Bool.false_eq_true, if_false]
        obtain ⟨d', h3, h4, h5⟩ := de_val k.d k.pub.e he
        rw [h3, Res.ok_bind, validateExponents_ok _ _ _ hall, h4, h5]
        exact ⟨fun h => ⟨trivial, hm, h⟩, fun h => h.2.2⟩
      · rw [decide_eq_false hm]
        simp only [Bool.not_false, if_true]
        exact ⟨fun h => (by cases h), fun h => absurd h.2.1 hm⟩
    · rw [if_neg hall]
      refine ⟨fun h => (by cases h), fun h => absurd ?_ hall⟩
      intro p hp
      have := (h.2.2 p hp).2.1
      omega
  · rw [hc]
    exact ⟨fun h => (by cases h), fun h => (by cases h.1)⟩

/-- `validate` returns for factors above 1 of at most twice the width of `d`. -/
theorem validate_returns (k : PrivateKey) (h : ∀ p ∈ k.primes, p.val ≠ 1 ∧ p.prec ≤ 2 * k.d.prec) :
    k.validate = .ok () ∨ ∃ e, k.validate = .err e := by
  unfold validate
  rcases checkPublic_cases k.pub with hc | ⟨er, hc⟩
  · have he : k.pub.e.val ≤ 2 ^ 33 - 1 := ((checkPublic_ok _).mp hc).2.2.2.2.2
    rw [hc, Res.ok_bind, validateProduct_eq]
    by_cases hall : ∀ p ∈ k.primes, 1 ≤ p.val
    · rw [if_pos hall, Res.ok_bind]
      split
      · exact Or.inr ⟨_, rfl⟩
      · obtain ⟨d', h3, h4, h5⟩ := de_val k.d k.pub.e he
        rw [h3, Res.ok_bind]
        rcases validateExponents_returns (d'.wrappingMul k.pub.e) d'.prec k.primes (fun p hp => by
          obtain ⟨h6, h7⟩ := h p hp
          have := hall p hp
          have := le_limbsFor (2 * k.d.prec)
          exact ⟨by omega, by rw [h4]; omega⟩) with h | h
        · exact Or.inl h
        · exact Or.inr ⟨_, h⟩
    · rw [if_neg hall]; exact Or.inr ⟨_, rfl⟩
  · rw [hc]; exact Or.inr ⟨_, rfl⟩

/-- The CRT computation returns for factors no wider than `d`; its only error is `InvalidPrime`. -/
theorem precomputeValues_returns {d p q : BoxedUint} {rest : List BoxedUint} (hd : 1 ≤ d.nlimbs)
    (hpl : p.nlimbs ≤ d.nlimbs) (hql : q.nlimbs ≤ d.nlimbs) :
    (∃ pre, precomputeValues d (p :: q :: rest) = .ok pre) ∨
      precomputeValues d (p :: q :: rest) = .err .invalidPrime := by
  have hlf : limbsFor d.prec = d.nlimbs := limbsFor_prec d hd
  obtain ⟨p', hp', hpv, hpn⟩ := widen_self (x := p) hlf (by unfold prec; omega)
  obtain ⟨q', hq', hqv, hqn⟩ := widen_self (x := q) hlf (by unfold prec; omega)
  by_cases hpo : p.val % 2 = 1
  · by_cases hqo : q.val % 2 = 1
    · by_cases hp1 : 1 < p.val
      · by_cases hq1 : 1 < q.val
        · by_cases hco : Nat.Coprime q.val p.val
          · exact Or.inl (precomputeValues_exists hd hpl hql hpo hqo hp1 hq1 hco)
          · right
            unfold precomputeValues
            simp only [primeAt, List.getElem?_cons_zero, List.getElem?_cons_succ, Res.ok_bind]
            rw [hp', Res.ok_bind, hq', Res.ok_bind]
            have o1 : oddOrInvalid p' = .ok ⟨p', by rw [hpv]; exact hpo⟩ := by
              simp [oddOrInvalid, OddUint.new, hpv, hpo]
            have o2 : oddOrInvalid q' = .ok ⟨q', by rw [hqv]; exact hqo⟩ := by
              simp [oddOrInvalid, OddUint.new, hqv, hqo]
            rw [o1, Res.ok_bind, o2, Res.ok_bind]
            have hx : (p'.wrappingSub BoxedUint.one).val ≠ 0 := by rw [wrappingSub_one_val _ (by omega)]; omega
            have hy : (q'.wrappingSub BoxedUint.one).val ≠ 0 := by rw [wrappingSub_one_val _ (by omega)]; omega
            have n1 : nonZeroOrInvalid (p'.wrappingSub BoxedUint.one) = .ok (p'.wrappingSub BoxedUint.one) := by
              simp [nonZeroOrInvalid, nonZero, hx]
            have n2 : nonZeroOrInvalid (q'.wrappingSub BoxedUint.one) = .ok (q'.wrappingSub BoxedUint.one) := by
              simp [nonZeroOrInvalid, nonZero, hy]
            rw [n1, Res.ok_bind, n2, Res.ok_bind]
            rw [MontyForm.new_eq (by unfold MontyParams.prec prec; simp only; rw [hpn, hqn]), Res.ok_bind]
            simp only [MontyForm.invert]
            have hm : (MontyParams.mk ⟨p', by rw [hpv]; exact hpo⟩).mod = p.val := hpv
            have hnone : natInvMod (q'.val % (MontyParams.mk ⟨p', by rw [hpv]; exact hpo⟩).mod)
                (MontyParams.mk ⟨p', by rw [hpv]; exact hpo⟩).mod = none := by
              rw [natInvMod_none (by rw [hm]; omega), hm, hqv]
              unfold Nat.Coprime at *
              rw [← Nat.gcd_rec, Nat.gcd_comm]; exact hco
            rw [hnone]
            rfl
        · right
          have hqe : q.val = 1 := by omega
          unfold precomputeValues
          simp only [primeAt, List.getElem?_cons_zero, List.getElem?_cons_succ, Res.ok_bind]
          rw [hp', Res.ok_bind, hq', Res.ok_bind]
          have o1 : oddOrInvalid p' = .ok ⟨p', by rw [hpv]; exact hpo⟩ := by
            simp [oddOrInvalid, OddUint.new, hpv, hpo]
          have o2 : oddOrInvalid q' = .ok ⟨q', by rw [hqv]; exact hqo⟩ := by
            simp [oddOrInvalid, OddUint.new, hqv, hqo]
          rw [o1, Res.ok_bind, o2, Res.ok_bind]
          have hx : (p'.wrappingSub BoxedUint.one).val ≠ 0 := by rw [wrappingSub_one_val _ (by omega)]; omega
          have hy : (q'.wrappingSub BoxedUint.one).val = 0 := by rw [wrappingSub_one_val _ (by omega)]; omega
          have n1 : nonZeroOrInvalid (p'.wrappingSub BoxedUint.one) = .ok (p'.wrappingSub BoxedUint.one) := by
            simp [nonZeroOrInvalid, nonZero, hx]
          have n2 : nonZeroOrInvalid (q'.wrappingSub BoxedUint.one) = .err .invalidPrime := by
            simp [nonZeroOrInvalid, nonZero, hy]
          rw [n1, Res.ok_bind, n2]
          rfl
      · right
        have hpe : p.val = 1 := by omega
        unfold precomputeValues
        simp only [primeAt, List.getElem?_cons_zero, List.getElem?_cons_succ, Res.ok_bind]
        rw [hp', Res.ok_bind, hq', Res.ok_bind]
        have o1 : oddOrInvalid p' = .ok ⟨p', by rw [hpv]; exact hpo⟩ := by
          simp [oddOrInvalid, OddUint.new, hpv, hpo]
        have o2 : oddOrInvalid q' = .ok ⟨q', by rw [hqv]; exact hqo⟩ := by
          simp [oddOrInvalid, OddUint.new, hqv, hqo]
        rw [o1, Res.ok_bind, o2, Res.ok_bind]
        have hx : (p'.wrappingSub BoxedUint.one).val = 0 := by rw [wrappingSub_one_val _ (by omega)]; omega
        have n1 : nonZeroOrInvalid (p'.wrappingSub BoxedUint.one) = .err .invalidPrime := by
          simp [nonZeroOrInvalid, nonZero, hx]
        rw [n1]
        rfl
    · right
      unfold precomputeValues
      simp only [primeAt, List.getElem?_cons_zero, List.getElem?_cons_succ, Res.ok_bind]
      rw [hp', Res.ok_bind, hq', Res.ok_bind]
      have o1 : oddOrInvalid p' = .ok ⟨p', by rw [hpv]; exact hpo⟩ := by
        simp [oddOrInvalid, OddUint.new, hpv, hpo]
      have o2 : oddOrInvalid q' = .err .invalidPrime := by
        simp [oddOrInvalid, OddUint.new, hqv, hqo]
      rw [o1, Res.ok_bind, o2]
      rfl
  · right
    unfold precomputeValues
    simp only [primeAt, List.getElem?_cons_zero, List.getElem?_cons_succ, Res.ok_bind]
    rw [hp', Res.ok_bind, hq', Res.ok_bind]
    have o1 : oddOrInvalid p' = .err .invalidPrime := by
      simp [oddOrInvalid, OddUint.new, hpv, hpo]
    rw [o1]
    rfl

/-- `tryPrecompute` keeps the key and caches either nothing or the values `precomputeValues` computes. -/
theorem tryPrecompute_ok {k k' : PrivateKey} (h0 : k.precomputed = none) (h : k.tryPrecompute = .ok k') :
    (k' = k ∧ ∃ e, precomputeValues k.d k.primes = .err e) ∨
      ∃ pre, precomputeValues k.d k.primes = .ok pre ∧ k' = { k with precomputed := some pre } := by
  unfold tryPrecompute precompute at h
  rw [h0] at h
  simp only [Option.isSome_none, Bool.false_eq_true, if_false] at h
  cases hv : precomputeValues k.d k.primes with
  | ok pre =>
    rw [hv] at h
    exact Or.inr ⟨pre, rfl, (Res.ok.inj h).symm⟩
  | err e => rw [hv] at h; exact Or.inl ⟨(Res.ok.inj h).symm, e, rfl⟩
  | panic e => rw [hv] at h; cases h
  | loop => rw [hv] at h; cases h

/-- What a key returned by `from_components` for given factors is. -/
theorem fromComponents_ok {n : OddUint} {e d : BoxedUint} {primes : List BoxedUint} {k : PrivateKey}
    (hne : primes ≠ []) (h : fromComponents n e d primes = .ok k) :
    k.pub.n = n.toBoxedUint ∧ k.pub.e = e ∧ k.pub.nParams = ⟨n⟩ ∧ k.d = d ∧ k.primes = primes ∧
      2 ≤ primes.length ∧ k.validate = .ok () ∧
      (∀ pre, k.precomputed = some pre → precomputeValues d primes = .ok pre) ∧
      (k.precomputed = none → ∃ er, precomputeValues d primes = .err er) := by
  have hnz : n.toBoxedUint.nonZero = some n.toBoxedUint := by
    have := n.pos
    unfold nonZero; rw [if_neg (by omega)]
  unfold fromComponents at h
  simp only [hnz] at h
  match primes, hne with
  | [p], _ => simp at h
  | p :: q :: rest, _ =>
    simp only [Res.ok_bind] at h
    rw [Res.bind_eq_ok] at h
    obtain ⟨_, hv, h⟩ := h
    rcases tryPrecompute_ok rfl h with ⟨rfl, her⟩ | ⟨pre, hpre, rfl⟩
    · refine ⟨rfl, rfl, rfl, rfl, rfl, by simp, hv, ?_, fun _ => her⟩
      intro pre hp; cases hp
    · refine ⟨rfl, rfl, rfl, rfl, rfl, by simp, ?_, ?_, ?_⟩
      · exact hv
      · intro pre' hp
        obtain rfl := Option.some.inj hp
        exact hpre
      · intro hp; cases hp

theorem fromComponents_ok_of_validate {n : OddUint} {e d p q : BoxedUint} {rest : List BoxedUint}
    (hd : 1 ≤ d.nlimbs) (hpl : p.nlimbs ≤ d.nlimbs) (hql : q.nlimbs ≤ d.nlimbs)
    (hv : PrivateKey.validate ⟨⟨n.toBoxedUint, e, ⟨n⟩⟩, d, p :: q :: rest, none⟩ = .ok ()) :
    ∃ k, fromComponents n e d (p :: q :: rest) = .ok k := by
  have hnz : n.toBoxedUint.nonZero = some n.toBoxedUint := by
    have := n.pos
    unfold nonZero; rw [if_neg (by omega)]
  unfold fromComponents
  simp only [hnz, Res.ok_bind]
  rw [hv, Res.ok_bind]
  unfold tryPrecompute precompute
  simp only [Option.isSome_none, Bool.false_eq_true, if_false]
  rcases precomputeValues_returns (rest := rest) hd hpl hql with ⟨pre, h⟩ | h
  · rw [h]; exact ⟨_, rfl⟩
  · rw [h]; exact ⟨_, rfl⟩

end PrivateKey
end RSA
