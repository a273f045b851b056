import Verif.Model.Key
import Verif.Proof.Rsa

namespace RSA
open BoxedUint

theorem wrappingSub_one_val (x : BoxedUint) (hx : 0 < x.val) : (x.wrappingSub BoxedUint.one).val = x.val - 1 := by
  have hl := nlimbs_pos_of_val_pos x hx
  have h2 : (1 : Nat) < 2 ^ (64 * x.nlimbs) := Nat.one_lt_two_pow (by omega)
  have h1 : BoxedUint.one.val = 1 := rfl
  unfold wrappingSub wrap
  simp only [h1, Nat.mod_eq_of_lt h2]
  have e : x.val + 2 ^ (64 * x.nlimbs) - 1 = (x.val - 1) + 2 ^ (64 * x.nlimbs) := by omega
  rw [e, Nat.add_mod_right, Nat.mod_eq_of_lt]
  have := x.isLt; omega

theorem rem_val (x y : BoxedUint) (hy : 0 < y.val) : (x.rem y).val = x.val % y.val :=
  wrap_val_of_lt (lt_trans (Nat.mod_lt _ hy) y.isLt)

theorem widen_self {x : BoxedUint} {b l : Nat} (hb : limbsFor b = l) (h : x.prec ≤ b) :
    ∃ y, x.widen b = .ok y ∧ y.val = x.val ∧ y.nlimbs = l :=
  ⟨_, widen_of_le h, widen_val h, hb⟩

/-- What a successful computation of the CRT values gives. -/
theorem precomputeValues_ok {d : BoxedUint} {primes : List BoxedUint} {pre : Precomputed} (hd : 1 ≤ d.nlimbs)
    (h : PrivateKey.precomputeValues d primes = .ok pre) :
    ∃ p q rest, primes = p :: q :: rest ∧ p.nlimbs ≤ d.nlimbs ∧ q.nlimbs ≤ d.nlimbs ∧
      p.val % 2 = 1 ∧ q.val % 2 = 1 ∧ 1 < p.val ∧ 1 < q.val ∧
      pre.dp.val = d.val % (p.val - 1) ∧ pre.dq.val = d.val % (q.val - 1) ∧
      pre.pParams.modulus.toBoxedUint.val = p.val ∧ pre.qParams.modulus.toBoxedUint.val = q.val ∧
      pre.qinv.res * q.val % p.val = 1 ∧ pre.qinv.params = pre.pParams ∧
      pre.pParams.modulus.toBoxedUint.nlimbs = d.nlimbs ∧ pre.qParams.modulus.toBoxedUint.nlimbs = d.nlimbs := by
  unfold PrivateKey.precomputeValues at h
  match primes, h with
  | [], h => simp [primeAt] at h
  | [p], h =>
    simp only [primeAt, List.getElem?_cons_zero, Res.ok_bind] at h
    rw [Res.bind_eq_ok] at h
    obtain ⟨_, _, h⟩ := h
    simp at h
  | p :: q :: rest, h =>
    simp only [primeAt, List.getElem?_cons_zero, List.getElem?_cons_succ, Res.ok_bind] at h
    rw [Res.bind_eq_ok] at h
    obtain ⟨p', hp', h⟩ := h
    rw [Res.bind_eq_ok] at h
    obtain ⟨q', hq', h⟩ := h
    rw [Res.bind_eq_ok] at h
    obtain ⟨pO, hpO, h⟩ := h
    rw [Res.bind_eq_ok] at h
    obtain ⟨qO, hqO, h⟩ := h
    rw [Res.bind_eq_ok] at h
    obtain ⟨x, hx, h⟩ := h
    rw [Res.bind_eq_ok] at h
    obtain ⟨y, hy, h⟩ := h
    have hlf : limbsFor d.prec = d.nlimbs := limbsFor_prec d hd
    have hpw : p.prec ≤ d.prec := by
      by_contra hc; simp [widen, hc] at hp'
    have hqw : q.prec ≤ d.prec := by
      by_contra hc; simp [widen, hc] at hq'
    rw [widen_of_le hpw] at hp'
    rw [widen_of_le hqw] at hq'
    have hpv : p'.val = p.val := by rw [← Res.ok.inj hp', widen_val hpw]
    have hqv : q'.val = q.val := by rw [← Res.ok.inj hq', widen_val hqw]
    have hpl : p'.nlimbs = d.nlimbs := by rw [← Res.ok.inj hp']; exact hlf
    have hql : q'.nlimbs = d.nlimbs := by rw [← Res.ok.inj hq']; exact hlf
    have hpO' : pO.toBoxedUint = p' ∧ p'.val % 2 = 1 := by
      unfold PrivateKey.oddOrInvalid OddUint.new at hpO
      split at hpO
      · next o ho =>
        split at ho
        · next hodd => obtain rfl := Option.some.inj ho; obtain rfl := Res.ok.inj hpO; exact ⟨rfl, hodd⟩
        · cases ho
      · cases hpO
    have hqO' : qO.toBoxedUint = q' ∧ q'.val % 2 = 1 := by
      unfold PrivateKey.oddOrInvalid OddUint.new at hqO
      split at hqO
      · next o ho =>
        split at ho
        · next hodd => obtain rfl := Option.some.inj ho; obtain rfl := Res.ok.inj hqO; exact ⟨rfl, hodd⟩
        · cases ho
      · cases hqO
    have hp0 : 0 < p'.val := by have := hpO'.2; omega
    have hq0 : 0 < q'.val := by have := hqO'.2; omega
    have hxx : x = p'.wrappingSub BoxedUint.one ∧ x.val ≠ 0 := by
      unfold PrivateKey.nonZeroOrInvalid nonZero at hx
      split at hx
      · next o ho =>
        split at ho
        · cases ho
        · next h0 => obtain rfl := Option.some.inj ho; obtain rfl := Res.ok.inj hx; exact ⟨rfl, h0⟩
      · cases hx
    have hyy : y = q'.wrappingSub BoxedUint.one ∧ y.val ≠ 0 := by
      unfold PrivateKey.nonZeroOrInvalid nonZero at hy
      split at hy
      · next o ho =>
        split at ho
        · cases ho
        · next h0 => obtain rfl := Option.some.inj ho; obtain rfl := Res.ok.inj hy; exact ⟨rfl, h0⟩
      · cases hy
    have hxv : x.val = p.val - 1 := by rw [hxx.1, wrappingSub_one_val _ hp0, hpv]
    have hyv : y.val = q.val - 1 := by rw [hyy.1, wrappingSub_one_val _ hq0, hqv]
    rw [Res.bind_eq_ok] at h
    obtain ⟨qm, hqm, h⟩ := h
    have hqmp : q'.prec = (MontyParams.mk pO).prec := by
      by_contra hc; simp [MontyForm.new, hc] at hqm
    rw [MontyForm.new_eq hqmp] at hqm
    obtain rfl := Res.ok.inj hqm
    split at h
    · cases h
    · next qinv hqinv =>
      unfold MontyForm.invert at hqinv
      rw [Option.map_eq_some_iff] at hqinv
      obtain ⟨iv, hiv, rfl⟩ := hqinv
      obtain ⟨hmpos, hivlt, _, hivmul⟩ := natInvMod_some hiv
      split at h
      · cases h
      · obtain rfl := Res.ok.inj h
        have hmod : (MontyParams.mk pO).mod = p.val := by
          show pO.toBoxedUint.val = _; rw [hpO'.1, hpv]
        refine ⟨p, q, rest, rfl, by unfold prec at hpw; omega, by unfold prec at hqw; omega, by rw [← hpv]; exact hpO'.2,
          by rw [← hqv]; exact hqO'.2, by have := hxx.2; omega, by have := hyy.2; omega, ?_, ?_, ?_, ?_, ?_, rfl, ?_, ?_⟩
        · rw [← hxv]; exact rem_val _ _ (by have := hxx.2; omega)
        · rw [← hyv]; exact rem_val _ _ (by have := hyy.2; omega)
        · show pO.toBoxedUint.val = _; rw [hpO'.1, hpv]
        · show qO.toBoxedUint.val = _; rw [hqO'.1, hqv]
        · rw [hmod] at hivmul
          simp only at hivmul
          rw [hqv, Nat.mod_mul_mod] at hivmul
          have hp1 : 1 < p.val := by have := hxx.2; omega
          rw [Nat.mod_eq_of_lt hp1, mul_comm] at hivmul
          exact hivmul
        · show pO.toBoxedUint.nlimbs = _; rw [hpO'.1, hpl]
        · show qO.toBoxedUint.nlimbs = _; rw [hqO'.1, hql]

/-- The CRT values can be computed for odd first primes above 1, coprime, that fit the width of `d`. -/
theorem precomputeValues_exists {d p q : BoxedUint} {rest : List BoxedUint} (hd : 1 ≤ d.nlimbs)
    (hpl : p.nlimbs ≤ d.nlimbs) (hql : q.nlimbs ≤ d.nlimbs) (hpo : p.val % 2 = 1) (hqo : q.val % 2 = 1)
    (hp1 : 1 < p.val) (hq1 : 1 < q.val) (hco : Nat.Coprime q.val p.val) :
    ∃ pre, PrivateKey.precomputeValues d (p :: q :: rest) = .ok pre := by
  have hlf : limbsFor d.prec = d.nlimbs := limbsFor_prec d hd
  obtain ⟨p', hp', hpv, hpn⟩ := widen_self (x := p) hlf (by unfold prec; omega)
  obtain ⟨q', hq', hqv, hqn⟩ := widen_self (x := q) hlf (by unfold prec; omega)
  unfold PrivateKey.precomputeValues
  simp only [primeAt, List.getElem?_cons_zero, List.getElem?_cons_succ, Res.ok_bind]
  rw [hp', Res.ok_bind, hq', Res.ok_bind]
  have o1 : PrivateKey.oddOrInvalid p' = .ok ⟨p', by rw [hpv]; exact hpo⟩ := by
    simp [PrivateKey.oddOrInvalid, OddUint.new, hpv, hpo]
  have o2 : PrivateKey.oddOrInvalid q' = .ok ⟨q', by rw [hqv]; exact hqo⟩ := by
    simp [PrivateKey.oddOrInvalid, OddUint.new, hqv, hqo]
  rw [o1, Res.ok_bind, o2, Res.ok_bind]
  have hx : (p'.wrappingSub BoxedUint.one).val ≠ 0 := by rw [wrappingSub_one_val _ (by omega)]; omega
  have hy : (q'.wrappingSub BoxedUint.one).val ≠ 0 := by rw [wrappingSub_one_val _ (by omega)]; omega
  have n1 : PrivateKey.nonZeroOrInvalid (p'.wrappingSub BoxedUint.one) = .ok (p'.wrappingSub BoxedUint.one) := by
    simp [PrivateKey.nonZeroOrInvalid, nonZero, hx]
  have n2 : PrivateKey.nonZeroOrInvalid (q'.wrappingSub BoxedUint.one) = .ok (q'.wrappingSub BoxedUint.one) := by
    simp [PrivateKey.nonZeroOrInvalid, nonZero, hy]
  rw [n1, Res.ok_bind, n2, Res.ok_bind]
  rw [MontyForm.new_eq (by unfold MontyParams.prec prec; simp only; rw [hpn, hqn]), Res.ok_bind]
  simp only [MontyForm.invert]
  have hm : (MontyParams.mk ⟨p', by rw [hpv]; exact hpo⟩).mod = p.val := hpv
  have hcop : Nat.Coprime (q'.val % (MontyParams.mk ⟨p', by rw [hpv]; exact hpo⟩).mod)
      (MontyParams.mk ⟨p', by rw [hpv]; exact hpo⟩).mod := by
    rw [hm, hqv]
    unfold Nat.Coprime
    rw [← Nat.gcd_rec, Nat.gcd_comm]; exact hco
  obtain ⟨r, hr⟩ := natInvMod_isSome (by rw [hm]; omega) hcop
  rw [hr]
  simp only [Option.map_some]
  have e1 : (d.rem (p'.wrappingSub BoxedUint.one)).prec = d.prec := by
    show 64 * p'.nlimbs = 64 * d.nlimbs; rw [hpn]
  have e2 : (d.rem (q'.wrappingSub BoxedUint.one)).prec = d.prec := by
    show 64 * q'.nlimbs = 64 * d.nlimbs; rw [hqn]
  have e3 : p'.prec = d.prec := by unfold prec; rw [hpn]
  have e4 : q'.prec = d.prec := by unfold prec; rw [hqn]
  simp only [e1, e2, MontyParams.prec, e3, e4, ne_eq, not_true_eq_false, or_self, if_false]
  exact ⟨_, rfl⟩

end RSA
