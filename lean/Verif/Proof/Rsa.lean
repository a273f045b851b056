import Verif.Model.Rsa
import Verif.Spec.Key
import Verif.Proof.Num

namespace RSA
open BoxedUint

theorem OddUint.pos (o : OddUint) : 0 < o.toBoxedUint.val := by
  have := o.odd; omega

theorem OddUint.nlimbs_pos (o : OddUint) : 1 ≤ o.toBoxedUint.nlimbs := nlimbs_pos_of_val_pos _ o.pos

theorem MontyParams.mod_pos (p : MontyParams) : 0 < p.mod := p.modulus.pos

theorem MontyParams.mod_lt (p : MontyParams) : p.mod < 2 ^ (64 * p.modulus.toBoxedUint.nlimbs) :=
  p.modulus.toBoxedUint.isLt

theorem widen_of_le {x : BoxedUint} {b : Nat} (h : x.prec ≤ b) : x.widen b = .ok (wrap (limbsFor b) x.val) := by
  simp [widen, h]

theorem widen_val {x : BoxedUint} {b : Nat} (h : x.prec ≤ b) : (wrap (limbsFor b) x.val).val = x.val := by
  apply wrap_val_of_lt
  refine lt_of_lt_of_le x.isLt (Nat.pow_le_pow_right (by norm_num) ?_)
  have := le_limbsFor b
  unfold prec at h; omega

theorem shorten_of_le {x : BoxedUint} {b : Nat} (h : b ≤ x.prec) : x.shorten b = .ok (wrap (limbsFor b) x.val) := by
  simp [shorten, h]

/-- Outcome of `reduce_vartime`, whatever the width of `x`: high limbs beyond the modulus' width are dropped. -/
theorem reduceVartime_eq (x : BoxedUint) (p : MontyParams) :
    reduceVartime x p = .ok ⟨p, x.val % 2 ^ p.prec % p.mod⟩ := by
  have hl := p.modulus.nlimbs_pos
  have hpl : limbsFor p.modulus.toBoxedUint.prec = p.modulus.toBoxedUint.nlimbs := limbsFor_prec _ hl
  have step : ∀ y : BoxedUint, y.val = x.val % 2 ^ p.prec →
      ((y.rem p.modulus.toBoxedUint).widen p.prec >>= fun r => MontyForm.new r p)
        = .ok ⟨p, x.val % 2 ^ p.prec % p.mod⟩ := by
    intro y hy
    have hp : (y.rem p.modulus.toBoxedUint).prec = p.prec := rfl
    rw [widen_of_le hp.le, Res.ok_bind]
    have hw : (wrap (limbsFor p.prec) (y.rem p.modulus.toBoxedUint).val).prec = p.prec := by
      show 64 * limbsFor p.modulus.toBoxedUint.prec = _
      rw [hpl]; rfl
    have hv : (y.rem p.modulus.toBoxedUint).val = y.val % p.mod :=
      wrap_val_of_lt (lt_trans (Nat.mod_lt _ p.mod_pos) p.mod_lt)
    unfold MontyForm.new
    rw [if_pos hw, widen_val hp.le, hv, Nat.mod_mod, hy]
  unfold reduceVartime
  simp only
  have hpp : p.modulus.toBoxedUint.prec = p.prec := rfl
  rw [hpp]
  rcases lt_trichotomy x.prec p.prec with h | h | h
  · rw [if_pos h, widen_of_le h.le, Res.ok_bind]
    apply step
    rw [widen_val h.le, Nat.mod_eq_of_lt]
    exact lt_of_lt_of_le x.isLt (Nat.pow_le_pow_right (by norm_num) h.le)
  · rw [if_neg (by omega), if_pos h, Res.ok_bind]
    apply step
    rw [Nat.mod_eq_of_lt]
    rw [← h]; exact x.isLt
  · rw [if_neg (by omega), if_neg (by omega), shorten_of_le h.le, Res.ok_bind]
    apply step
    show x.val % 2 ^ (64 * limbsFor p.prec) = _
    rw [← hpp, hpl]; rfl

theorem powModParams_eq (b e : BoxedUint) (p : MontyParams) :
    powModParams b e p =
      .ok (wrap p.modulus.toBoxedUint.nlimbs ((b.val % 2 ^ p.prec) ^ e.val % p.mod)) := by
  unfold powModParams
  rw [reduceVartime_eq, Res.ok_bind]
  simp only [MontyForm.pow, MontyForm.retrieve, MontyForm.powMod_eq, ← Nat.pow_mod]

theorem mod_val (p : MontyParams) (v : Nat) : (wrap p.modulus.toBoxedUint.nlimbs (v % p.mod)).val = v % p.mod :=
  wrap_val_of_lt (lt_trans (Nat.mod_lt _ p.mod_pos) p.mod_lt)

theorem mulModParams_eq (x y : BoxedUint) (p : MontyParams) (hx : x.prec = p.prec) (hy : y.prec = p.prec) :
    mulModParams x y p = .ok (wrap p.modulus.toBoxedUint.nlimbs (x.val * y.val % p.mod)) := by
  unfold mulModParams MontyForm.new
  rw [if_pos hx, if_pos hy]
  simp only [Res.ok_bind, MontyForm.mul, MontyForm.retrieve, if_true, ← Nat.mul_mod]

theorem mulModParams_ok {x y r : BoxedUint} {p : MontyParams} (h : mulModParams x y p = .ok r) :
    x.prec = p.prec ∧ y.prec = p.prec ∧ r = wrap p.modulus.toBoxedUint.nlimbs (x.val * y.val % p.mod) := by
  by_cases hx : x.prec = p.prec
  · by_cases hy : y.prec = p.prec
    · rw [mulModParams_eq x y p hx hy] at h
      exact ⟨hx, hy, (Res.ok.inj h).symm⟩
    · simp [mulModParams, MontyForm.new, hx, hy] at h
  · simp [mulModParams, MontyForm.new, hx] at h

/-! ## The public operation -/

theorem rsaEncrypt_eq (k : PublicKey) (hk : k.Coherent) (m : BoxedUint) :
    rsaEncrypt k m = .ok (wrap k.n.nlimbs ((m.val % 2 ^ k.n.prec) ^ k.e.val % k.n.val)) := by
  unfold rsaEncrypt
  rw [powModParams_eq]
  unfold PublicKey.Coherent at hk
  unfold MontyParams.prec MontyParams.mod
  rw [hk]

theorem coherent_pos {k : PublicKey} (hk : k.Coherent) : 0 < k.n.val := by
  unfold PublicKey.Coherent at hk
  rw [← hk]; exact k.nParams.modulus.pos

theorem coherent_mod {k : PublicKey} (hk : k.Coherent) : k.nParams.mod = k.n.val := by
  unfold PublicKey.Coherent at hk; unfold MontyParams.mod; rw [hk]

theorem coherent_prec {k : PublicKey} (hk : k.Coherent) : k.nParams.prec = k.n.prec := by
  unfold PublicKey.Coherent at hk; unfold MontyParams.prec; rw [hk]

theorem coherent_nlimbs {k : PublicKey} (hk : k.Coherent) : k.nParams.modulus.toBoxedUint.nlimbs = k.n.nlimbs := by
  unfold PublicKey.Coherent at hk; rw [hk]

theorem coherent_nlimbs_pos {k : PublicKey} (hk : k.Coherent) : 1 ≤ k.n.nlimbs :=
  nlimbs_pos_of_val_pos _ (coherent_pos hk)

theorem coherent_odd {k : PublicKey} (hk : k.Coherent) : k.n.val % 2 = 1 := by
  unfold PublicKey.Coherent at hk
  rw [← hk]; exact k.nParams.modulus.odd

/-- A reduced value stored at the width of `n`. -/
theorem wrap_mod_val (n : BoxedUint) (hn : 0 < n.val) (v : Nat) : (wrap n.nlimbs (v % n.val)).val = v % n.val :=
  wrap_val_of_lt (lt_trans (Nat.mod_lt _ hn) n.isLt)

theorem wrap_lt_val {n : BoxedUint} {v : Nat} (h : v < n.val) : (wrap n.nlimbs v).val = v :=
  wrap_val_of_lt (lt_trans h n.isLt)

theorem rsaEncrypt_lt (k : PublicKey) (hk : k.Coherent) (m : BoxedUint) (hm : m.val < 2 ^ k.n.prec) :
    rsaEncrypt k m = .ok (wrap k.n.nlimbs (m.val ^ k.e.val % k.n.val)) := by
  rw [rsaEncrypt_eq k hk, Nat.mod_eq_of_lt hm]

/-! ## Blinding -/

theorem blindLoop_ok {σ : Type} (R : RngImpl σ) (n : BoxedUint) (hl : 1 ≤ n.nlimbs) :
    ∀ (fuel : Nat) (s : σ) (r ir : BoxedUint) (s' : σ), blindLoop R n fuel s = .ok ((r, ir), s') →
      r.nlimbs = n.nlimbs ∧ ir.nlimbs = n.nlimbs ∧ ir.val < n.val ∧ r.val * ir.val % n.val = 1 % n.val := by
  intro fuel
  induction fuel with
  | zero => intro s r ir s' h; cases h
  | succ f ih =>
    intro s r ir s' h
    rw [blindLoop] at h
    split at h
    · cases h
    · next rv s1 hR =>
      simp only at h
      split at h
      · next ir' hinv =>
        obtain ⟨⟨rfl, rfl⟩, rfl⟩ : (_ = r ∧ ir' = ir) ∧ s1 = s' := by simpa using h
        have hl' : (if (wrap n.nlimbs rv).isZero = true then oneWithPrecision n.prec else wrap n.nlimbs rv).nlimbs
            = n.nlimbs := by
          split
          · exact limbsFor_prec n hl
          · rfl
        refine ⟨hl', ?_⟩
        unfold invMod at hinv
        rw [Option.map_eq_some_iff] at hinv
        obtain ⟨iv, hiv, rfl⟩ := hinv
        obtain ⟨hpos, hlt, _, hmul⟩ := natInvMod_some hiv
        refine ⟨rfl, ?_, ?_⟩
        · rw [wrap_lt_val hlt]; exact hlt
        · rw [wrap_lt_val hlt]; exact hmul
      · exact ih _ _ _ _ h

theorem wrap_ite_val (n : BoxedUint) {rv : Nat} (hrv : rv < n.val) :
    (if (wrap n.nlimbs rv).isZero = true then oneWithPrecision n.prec else wrap n.nlimbs rv).val
      = if rv = 0 then 1 else rv := by
  have hv : (wrap n.nlimbs rv).val = rv := wrap_lt_val hrv
  unfold isZero
  rw [hv]
  by_cases h0 : rv = 0
  · subst h0
    simp only [beq_self_eq_true, if_true]
    unfold oneWithPrecision
    apply wrap_val_of_lt
    apply Nat.one_lt_two_pow
    have := le_limbsFor n.prec
    unfold limbsFor; omega
  · simp [h0, hv]

/-- The blinding loop ends exactly as the draws of the generator say. -/
theorem blindLoop_draws {σ : Type} (R : RngImpl σ) (n : BoxedUint) (hn : 0 < n.val) {s : σ} {o : Option σ} {j : Nat}
    (h : Spec.Draws R n.val s o j) : ∀ fuel, j ≤ fuel →
      (∀ s', o = some s' → ∃ r ir, blindLoop R n fuel s = .ok ((r, ir), s')) ∧
      (o = none → blindLoop R n fuel s = .err .rng) := by
  induction h with
  | fail s hf =>
    intro fuel hj
    obtain ⟨f, rfl⟩ : ∃ f, fuel = f + 1 := ⟨fuel - 1, by omega⟩
    simp only [blindLoop]
    rcases hR : R.randMod s n.val with ⟨o, s1⟩
    rw [hR] at hf
    simp only at hf
    subst hf
    exact ⟨fun _ h => by simp at h, fun _ => rfl⟩
  | good s r hs hr =>
    intro fuel hj
    obtain ⟨f, rfl⟩ : ∃ f, fuel = f + 1 := ⟨fuel - 1, by omega⟩
    have hlt := R.randMod_lt s n.val r hs hn
    have hval := wrap_ite_val n hlt
    simp only [blindLoop]
    rcases hR : R.randMod s n.val with ⟨o, s1⟩
    rw [hR] at hs
    simp only at hs
    subst hs
    simp only
    have hcop : Nat.Coprime (if r = 0 then 1 else r) n.val := by
      split
      · exact Nat.coprime_one_left _
      · next h0 => exact hr.resolve_left h0
    obtain ⟨iv, hiv⟩ := natInvMod_isSome hn hcop
    have : invMod (if (wrap n.nlimbs r).isZero = true then oneWithPrecision n.prec else wrap n.nlimbs r) n
        = some (wrap n.nlimbs iv) := by
      unfold invMod; rw [hval, hiv]; rfl
    rw [this]
    exact ⟨fun s' h => ⟨_, _, by rw [Option.some.inj h]⟩, fun h => by simp at h⟩
  | again s r o j hs h0 hr _ ih =>
    intro fuel hj
    obtain ⟨f, rfl⟩ : ∃ f, fuel = f + 1 := ⟨fuel - 1, by omega⟩
    have hlt := R.randMod_lt s n.val r hs hn
    have hval := wrap_ite_val n hlt
    have := ih f (by omega)
    simp only [blindLoop]
    rcases hR : R.randMod s n.val with ⟨o', s1⟩
    rw [hR] at hs this
    simp only at hs this
    subst hs
    simp only
    have hnone : invMod (if (wrap n.nlimbs r).isZero = true then oneWithPrecision n.prec else wrap n.nlimbs r) n
        = none := by
      unfold invMod
      rw [hval, if_neg h0, (natInvMod_none hn).mpr hr]; rfl
    rw [hnone]
    exact this

/-- The loop cannot do anything but succeed, report an RNG failure, or still be running. -/
theorem blindLoop_outcomes {σ : Type} (R : RngImpl σ) (n : BoxedUint) : ∀ (fuel : Nat) (s : σ),
    (∃ r ir s', blindLoop R n fuel s = .ok ((r, ir), s')) ∨ blindLoop R n fuel s = .err .rng ∨
      blindLoop R n fuel s = .loop := by
  intro fuel
  induction fuel with
  | zero => intro s; exact Or.inr (Or.inr rfl)
  | succ f ih =>
    intro s
    rw [blindLoop]
    split
    · exact Or.inr (Or.inl rfl)
    · simp only
      split
      · exact Or.inl ⟨_, _, _, rfl⟩
      · exact ih _

/-- `blind` on a coherent key with `c` at the width of `n`. -/
theorem blind_eq {σ : Type} (R : RngImpl σ) (fuel : Nat) (s : σ) (k : PublicKey) (hk : k.Coherent) (c : BoxedUint)
    (hc : c.prec = k.n.prec) :
    blind R fuel s k c k.nParams =
      (blindLoop R k.n fuel s >>= fun x =>
        .ok ((wrap k.n.nlimbs (c.val * (x.1.1.val ^ k.e.val % k.n.val) % k.n.val), x.1.2), x.2)) := by
  have hn := coherent_pos hk
  have hb : k.n.beq k.nParams.modulus.toBoxedUint = true := by
    unfold PublicKey.Coherent at hk
    simp [beq, hk]
  unfold blind
  simp only [hb, Bool.not_true, Bool.false_eq_true, if_false]
  rcases hloop : blindLoop R k.n fuel s with ⟨⟨r, ir⟩, s'⟩ | e | p | _
  · obtain ⟨h1, h2, h3, h4⟩ := blindLoop_ok R k.n (coherent_nlimbs_pos hk) _ _ _ _ _ hloop
    have hrlt : r.val < 2 ^ k.n.prec := by have := r.isLt; rw [h1] at this; exact this
    have hpow : powModParams r k.e k.nParams = .ok (wrap k.n.nlimbs (r.val ^ k.e.val % k.n.val)) := by
      have := rsaEncrypt_lt k hk r hrlt
      exact this
    simp only [Res.ok_bind, hpow]
    rw [mulModParams_eq _ _ _ (by rw [hc, coherent_prec hk])
      (by rw [coherent_prec hk]; rfl), Res.ok_bind]
    rw [coherent_nlimbs hk, coherent_mod hk, wrap_mod_val k.n hn]
    have e1 : (wrap k.n.nlimbs (c.val * (r.val ^ k.e.val % k.n.val) % k.n.val)).prec = k.nBitsPrecision := rfl
    have e2 : ir.prec = k.nBitsPrecision := by
      unfold PublicKey.nBitsPrecision prec; rw [h2]
    simp only [e1, e2, ne_eq, not_true_eq_false, if_false]
  · rfl
  · rfl
  · rfl

/-! ## The private exponentiation -/

theorem crt_combine (p q m1 m2 qinv : Nat) (hp : 0 < p) (hm2 : m2 < q) (hinv : qinv * q % p = 1) :
    let h := qinv * ((m1 % p + p - m2 % p) % p) % p
    h * q + m2 < p * q ∧ h * q + m2 ≡ m1 [MOD p] ∧ h * q + m2 ≡ m2 [MOD q] := by
  intro h
  have hh : h < p := Nat.mod_lt _ hp
  refine ⟨by nlinarith, ?_, ?_⟩
  · have hsub : (m1 % p + p - m2 % p) + m2 % p ≡ m1 [MOD p] := by
      have : m2 % p < p := Nat.mod_lt _ hp
      have e : (m1 % p + p - m2 % p) + m2 % p = m1 % p + p := by omega
      rw [e]
      unfold Nat.ModEq
      simp
    have hinv' : qinv * q ≡ 1 [MOD p] := by
      unfold Nat.ModEq
      rw [hinv]
      by_cases h1 : p = 1
      · subst h1; simp [Nat.mod_one] at hinv
      · rw [Nat.mod_eq_of_lt (by omega)]
    have h1 : h * q ≡ m1 % p + p - m2 % p [MOD p] := by
      calc h * q ≡ (qinv * ((m1 % p + p - m2 % p) % p)) * q [MOD p] := (Nat.mod_modEq _ _).mul_right _
        _ ≡ (qinv * (m1 % p + p - m2 % p)) * q [MOD p] := ((Nat.mod_modEq _ _).mul_left _).mul_right _
        _ = (qinv * q) * (m1 % p + p - m2 % p) := by ring
        _ ≡ 1 * (m1 % p + p - m2 % p) [MOD p] := hinv'.mul_right _
        _ = _ := one_mul _
    calc h * q + m2 ≡ (m1 % p + p - m2 % p) + m2 % p [MOD p] := h1.add (Nat.mod_modEq _ _).symm
      _ ≡ m1 [MOD p] := hsub
  · unfold Nat.ModEq
    simp

theorem MontyForm.new_eq {x : BoxedUint} {p : MontyParams} (h : x.prec = p.prec) : MontyForm.new x p = .ok ⟨p, x.val % p.mod⟩ := by
  simp [MontyForm.new, h]

theorem MontyForm.sub_eq {x y : MontyForm} (h : x.params = y.params) :
    x.sub y = .ok ⟨x.params, (x.res + x.params.mod - y.res % x.params.mod) % x.params.mod⟩ := by
  simp [MontyForm.sub, h]

theorem MontyForm.mul_eq {x y : MontyForm} (h : x.params = y.params) :
    x.mul y = .ok ⟨x.params, x.res * y.res % x.params.mod⟩ := by
  simp [MontyForm.mul, h]

/-- The exponentiation of a well-formed key computes `c ^ d mod n`, with or without CRT. -/
theorem rsaPrivateExp_eq {k : PrivateKey} (hk : Spec.WellFormed k) (c : BoxedUint) (hc : c.nlimbs = k.d.nlimbs)
    (hcn : c.val < k.pub.n.val) :
    ∃ m, rsaPrivateExp k c = .ok m ∧ m.val = c.val ^ k.d.val % k.pub.n.val ∧ k.pub.n.nlimbs ≤ m.nlimbs := by
  have hco : k.pub.Coherent := hk.coherent
  have hn := coherent_pos hco
  have plain : ∃ m, powModParams c k.d k.pub.nParams = .ok m ∧ m.val = c.val ^ k.d.val % k.pub.n.val ∧
      k.pub.n.nlimbs ≤ m.nlimbs := by
    rw [powModParams_eq, coherent_prec hco, coherent_mod hco, coherent_nlimbs hco]
    refine ⟨_, rfl, ?_, le_rfl⟩
    rw [wrap_mod_val _ hn, Nat.mod_eq_of_lt (a := c.val)]
    exact lt_trans hcn k.pub.n.isLt
  cases hpre : k.precomputed with
  | none => unfold rsaPrivateExp; simp only [hpre]; exact plain
  | some pre =>
    by_cases hlen : k.primes.length > 2
    · unfold rsaPrivateExp; simp only [hpre, hlen, decide_true]; exact plain
    · obtain ⟨⟨p, q, rest, hpr, hdp, hdq, hpm, hqm, hinv⟩, hqp, hpw, hqw⟩ := hk.cache pre hpre
      have hrest : rest = [] := by
        rw [hpr] at hlen
        simp at hlen
        exact hlen
      subst hrest
      have hnum := hk.numbers
      rw [hpr] at hnum
      have hpp : p.val.Prime := hnum.prime _ (by simp)
      have hqq : q.val.Prime := hnum.prime _ (by simp)
      have hprod : p.val * q.val = k.pub.n.val := by simpa using hnum.prod
      have hne : p.val ≠ q.val := by simpa using hnum.nodup
      have hpM : pre.pParams.mod = p.val := hpm
      have hqM : pre.qParams.mod = q.val := hqm
      have hcp : c.prec = pre.pParams.prec := by
        unfold MontyParams.prec prec; rw [hpw, hc]
      have hcq : c.prec = pre.qParams.prec := by
        unfold MontyParams.prec prec; rw [hqw, hc]
      -- exponents
      have hexp : ∀ r : Nat, r.Prime → k.d.val * k.pub.e.val % (r - 1) = 1 → c.val ^ (k.d.val % (r - 1)) ≡ c.val ^ k.d.val [MOD r] := by
        intro r hr he
        have hd0 : k.d.val % (r - 1) ≠ 0 := by
          intro h0
          rw [Nat.mul_mod, h0] at he
          simp at he
        apply pow_modEq_of_exp hr _ _ _ (Nat.pos_of_ne_zero hd0)
        · rcases Nat.eq_zero_or_pos k.d.val with h | h
          · rw [h] at hd0; simp at hd0
          · exact h
        · exact Nat.mod_modEq _ _
      have hxp := hexp p.val hpp (hnum.exp _ (by simp))
      have hxq := hexp q.val hqq (hnum.exp _ (by simp))
      set m2 : BoxedUint := wrap pre.qParams.modulus.toBoxedUint.nlimbs (c.val ^ pre.dq.val % q.val) with hm2
      have hm2v : m2.val = c.val ^ pre.dq.val % q.val := by
        have := mod_val pre.qParams (c.val ^ pre.dq.val)
        rw [hqM] at this; exact this
      have hm2p : m2.prec = pre.pParams.prec := by
        show 64 * pre.qParams.modulus.toBoxedUint.nlimbs = 64 * pre.pParams.modulus.toBoxedUint.nlimbs
        rw [hqw, hpw]
      have hcomb := crt_combine p.val q.val (c.val ^ pre.dp.val) m2.val pre.qinv.res hpp.pos
        (by rw [hm2v]; exact Nat.mod_lt _ hqq.pos) hinv
      set h := pre.qinv.res * ((c.val ^ pre.dp.val % p.val + p.val - m2.val % p.val) % p.val) % p.val with hh
      obtain ⟨hlt, hmp, hmq⟩ := hcomb
      have hpre2 : rsaPrivateExp k c = .ok (((wrap pre.pParams.modulus.toBoxedUint.nlimbs h).wrappingMul q).wrappingAdd m2) := by
        unfold rsaPrivateExp
        simp only [hpre, hlen, decide_false]
        rw [hpr]
        simp only [primeAt, List.getElem?_cons_zero, List.getElem?_cons_succ, Res.ok_bind]
        rw [MontyForm.new_eq hcp, MontyForm.new_eq hcq]
        simp only [Res.ok_bind, MontyForm.pow, MontyForm.powMod_eq, ← Nat.pow_mod, hpM, hqM, MontyForm.retrieve]
        rw [← hm2, MontyForm.new_eq hm2p, Res.ok_bind, MontyForm.sub_eq (by rfl), Res.ok_bind, MontyForm.mul_eq hqp,
          Res.ok_bind]
        simp only [hqp, hpM, Nat.mod_mod]
        rfl
      refine ⟨_, hpre2, ?_, ?_⟩
      · -- value
        have hnd : (2 : Nat) ^ (64 * k.pub.n.nlimbs) ≤ 2 ^ (64 * k.d.nlimbs) :=
          Nat.pow_le_pow_right (by norm_num) (by have := hk.width; omega)
        have hbig : h * q.val + m2.val < 2 ^ (64 * k.d.nlimbs) := by
          calc _ < p.val * q.val := hlt
            _ = k.pub.n.val := hprod
            _ < _ := lt_of_lt_of_le k.pub.n.isLt hnd
        have hhp : h < p.val := Nat.mod_lt _ hpp.pos
        have hq1 : 1 ≤ q.val := hqq.pos
        have hhlt : h < 2 ^ (64 * k.d.nlimbs) := by nlinarith
        have v1 : (wrap pre.pParams.modulus.toBoxedUint.nlimbs h).val = h := by
          rw [hpw]; exact wrap_val_of_lt hhlt
        have v2 : ((wrap pre.pParams.modulus.toBoxedUint.nlimbs h).wrappingMul q).val = h * q.val := by
          unfold wrappingMul
          rw [v1, wrap_nlimbs, hpw]
          exact wrap_val_of_lt (by omega)
        have v3 : (((wrap pre.pParams.modulus.toBoxedUint.nlimbs h).wrappingMul q).wrappingAdd m2).val
            = h * q.val + m2.val := by
          unfold wrappingAdd
          rw [v2]
          apply wrap_val_of_lt
          have : max ((wrap pre.pParams.modulus.toBoxedUint.nlimbs h).wrappingMul q).nlimbs m2.nlimbs = k.d.nlimbs := by
            show max pre.pParams.modulus.toBoxedUint.nlimbs pre.qParams.modulus.toBoxedUint.nlimbs = _
            rw [hpw, hqw, max_self]
          rw [this]; exact hbig
        rw [v3]
        have key : h * q.val + m2.val ≡ c.val ^ k.d.val [MOD p.val * q.val] := by
          rw [← Nat.modEq_and_modEq_iff_modEq_mul ((Nat.coprime_primes hpp hqq).mpr hne)]
          constructor
          · rw [hdp] at hmp; exact hmp.trans hxp
          · refine hmq.trans ?_
            rw [hm2v]
            refine (Nat.mod_modEq _ _).trans ?_
            rw [hdq]; exact hxq
        rw [hprod] at key
        rw [← key]
        exact (Nat.mod_eq_of_lt (by rw [← hprod]; exact hlt)).symm
      · show k.pub.n.nlimbs ≤ max pre.pParams.modulus.toBoxedUint.nlimbs pre.qParams.modulus.toBoxedUint.nlimbs
        rw [hpw, hqw, max_self]; exact hk.width

/-- `c ^ d mod n` of a blinded `c` times the inverse of the blinding factor. -/
theorem unblind_nat (n e d c r ir : Nat) (hred : (c * (r ^ e)) ^ d % n = c ^ d * r % n)
    (hr : r * ir % n = 1 % n) : (c * (r ^ e % n) % n) ^ d % n * ir % n = c ^ d % n := by
  have h1 : (c * (r ^ e % n) % n) ^ d ≡ (c * (r ^ e)) ^ d [MOD n] := by
    apply Nat.ModEq.pow
    exact (Nat.mod_modEq _ _).trans ((Nat.mod_modEq _ _).mul_left _)
  have h2 : (c * (r ^ e)) ^ d ≡ c ^ d * r [MOD n] := hred
  have h3 : (c * (r ^ e % n) % n) ^ d % n * ir ≡ c ^ d * r * ir [MOD n] :=
    ((Nat.mod_modEq _ _).trans (h1.trans h2)).mul_right _
  have h4 : c ^ d * r * ir ≡ c ^ d * 1 [MOD n] := by
    rw [mul_assoc]; exact Nat.ModEq.mul_left _ hr
  have := h3.trans h4
  rw [mul_one] at this
  exact this

theorem one_mod_of {x m : Nat} (h : x % m = 1) : 1 % m = 1 := by
  rw [← h, Nat.mod_mod]

theorem wf_rsa {k : PrivateKey} (hk : Spec.WellFormed k) (m : Nat) :
    m ^ (k.d.val * k.pub.e.val) ≡ m [MOD k.pub.n.val] := by
  rw [← hk.numbers.prod]
  apply rsa_exp _ _ _ _ hk.numbers.prime hk.numbers.nodup ?_
  · intro p hp
    rw [hk.numbers.exp p hp]
    exact (one_mod_of (hk.numbers.exp p hp)).symm
  · intro p hp h2
    subst h2
    have := hk.numbers.exp 2 hp
    omega

theorem rsaDecrypt_ge {σ : Type} (R : RngImpl σ) (fuel : Nat) (rng : Option σ) (k : PrivateKey) (c : BoxedUint)
    (hc : k.pub.n.val ≤ c.val) : rsaDecrypt R fuel rng k c = .err .decryption := by
  unfold rsaDecrypt
  have : c.ge k.pub.n = true := by simp [ge, lt, hc]
  simp [this]

/-- Unblinded decryption with a well-formed key is `c ^ d mod n`. -/
theorem rsaDecrypt_none {σ : Type} (R : RngImpl σ) (fuel : Nat) {k : PrivateKey} (hk : Spec.WellFormed k)
    (c : BoxedUint) (hw : c.nlimbs ≤ k.d.nlimbs) (hc : c.val < k.pub.n.val) :
    rsaDecrypt R fuel none k c = .ok (wrap k.pub.n.nlimbs (c.val ^ k.d.val % k.pub.n.val), none) := by
  have hco : k.pub.Coherent := hk.coherent
  have hl := coherent_nlimbs_pos hco
  have hdl : 1 ≤ k.d.nlimbs := le_trans hl hk.width
  unfold rsaDecrypt
  have hge : c.ge k.pub.n = false := by simp [ge, lt, hc]
  simp only [hge, Bool.false_eq_true, if_false]
  have hwp : c.prec ≤ k.d.prec := by unfold prec; omega
  rw [widen_of_le hwp, Res.ok_bind]
  obtain ⟨m, hm, hv, hlm⟩ := rsaPrivateExp_eq hk (wrap (limbsFor k.d.prec) c.val) (limbsFor_prec _ hdl)
    (by rw [widen_val hwp]; exact hc)
  rw [hm, Res.ok_bind, coherent_prec hco, shorten_of_le (by unfold prec; omega), Res.ok_bind]
  rw [limbsFor_prec _ hl, hv, widen_val hwp]

/-- Blinded decryption with a well-formed key is the blinding loop followed by `c ^ d mod n`. -/
theorem rsaDecrypt_some {σ : Type} (R : RngImpl σ) (fuel : Nat) (s : σ) {k : PrivateKey} (hk : Spec.WellFormed k)
    (c : BoxedUint) (hw : c.nlimbs = k.pub.n.nlimbs) (hc : c.val < k.pub.n.val) :
    rsaDecrypt R fuel (some s) k c = (blindLoop R k.pub.n fuel s >>= fun x =>
      .ok (wrap k.pub.n.nlimbs (c.val ^ k.d.val % k.pub.n.val), some x.2)) := by
  have hco : k.pub.Coherent := hk.coherent
  have hn := coherent_pos hco
  have hl := coherent_nlimbs_pos hco
  have hdl : 1 ≤ k.d.nlimbs := le_trans hl hk.width
  unfold rsaDecrypt
  have hge : c.ge k.pub.n = false := by simp [ge, lt, hc]
  simp only [hge, Bool.false_eq_true, if_false]
  rw [blind_eq R fuel s k.pub hco c (by unfold prec; rw [hw])]
  rcases hloop : blindLoop R k.pub.n fuel s with ⟨⟨r, ir⟩, s'⟩ | e | p | _
  · obtain ⟨h1, h2, h3, h4⟩ := blindLoop_ok R k.pub.n hl _ _ _ _ _ hloop
    simp only [Res.ok_bind]
    set b := wrap k.pub.n.nlimbs (c.val * (r.val ^ k.pub.e.val % k.pub.n.val) % k.pub.n.val) with hb
    have hbv : b.val = c.val * (r.val ^ k.pub.e.val % k.pub.n.val) % k.pub.n.val := wrap_mod_val _ hn _
    have hwp : b.prec ≤ k.d.prec := by
      show 64 * k.pub.n.nlimbs ≤ 64 * k.d.nlimbs
      have := hk.width; omega
    rw [widen_of_le hwp, Res.ok_bind]
    obtain ⟨m, hm, hv, hlm⟩ := rsaPrivateExp_eq hk (wrap (limbsFor k.d.prec) b.val) (limbsFor_prec _ hdl)
      (by rw [widen_val hwp, hbv]; exact Nat.mod_lt _ hn)
    rw [hm, Res.ok_bind, coherent_prec hco, shorten_of_le (by unfold prec; omega), Res.ok_bind]
    rw [limbsFor_prec _ hl, hv, widen_val hwp, hbv]
    have hpm : (wrap k.pub.n.nlimbs ((c.val * (r.val ^ k.pub.e.val % k.pub.n.val) % k.pub.n.val) ^ k.d.val
        % k.pub.n.val)).prec = k.pub.n.prec := rfl
    have hpi : ir.prec = k.pub.n.prec := by unfold prec; rw [h2]
    unfold unblind
    rw [hpm, hpi, coherent_prec hco]
    simp only [ne_eq, not_true_eq_false, if_false]
    rw [mulModParams_eq _ _ _ (by rw [coherent_prec hco]; rfl) (by rw [coherent_prec hco]; exact hpi), Res.ok_bind]
    rw [coherent_nlimbs hco, coherent_mod hco, wrap_mod_val _ hn]
    rw [unblind_nat k.pub.n.val k.pub.e.val k.d.val c.val r.val ir.val ?_ h4]
    have h5 : (r.val ^ k.pub.e.val) ^ k.d.val ≡ r.val [MOD k.pub.n.val] := by
      rw [← pow_mul, mul_comm k.pub.e.val]; exact wf_rsa hk _
    rw [mul_pow]
    exact h5.mul_left _
  · rfl
  · rfl
  · rfl

/-- The checked operation of a well-formed key, when blinding succeeds. -/
theorem rsaDecryptAndCheck_ok {σ : Type} (R : RngImpl σ) (fuel : Nat) (rng : Option σ) {k : PrivateKey}
    (hk : Spec.WellFormed k) (c : BoxedUint) (hw : c.nlimbs = k.pub.n.nlimbs) (hc : c.val < k.pub.n.val)
    (hb : Spec.BlindingOk R k.pub.n.val fuel rng) :
    ∃ rng', rsaDecryptAndCheck R fuel k rng c = .ok (wrap k.pub.n.nlimbs (c.val ^ k.d.val % k.pub.n.val), rng') := by
  have hco : k.pub.Coherent := hk.coherent
  have hn := coherent_pos hco
  have hcheck : rsaEncrypt k.pub (wrap k.pub.n.nlimbs (c.val ^ k.d.val % k.pub.n.val)) = .ok c := by
    rw [rsaEncrypt_lt _ hco _ (by rw [wrap_mod_val _ hn]; exact lt_trans (Nat.mod_lt _ hn) k.pub.n.isLt),
      wrap_mod_val _ hn]
    congr 1
    apply ext_val
    · exact hw.symm
    · rw [wrap_mod_val _ hn, ← Nat.pow_mod, ← pow_mul, wf_rsa hk, Nat.mod_eq_of_lt hc]
  have hbeq : c.beq c = true := by simp [beq]
  unfold rsaDecryptAndCheck
  cases rng with
  | none =>
    rw [rsaDecrypt_none R fuel hk c (by rw [hw]; exact hk.width) hc]
    simp only [Res.ok_bind, hcheck, hbeq]
    exact ⟨_, rfl⟩
  | some s =>
    obtain ⟨s', j, hd, hj⟩ := hb
    obtain ⟨r, ir, hl⟩ := (blindLoop_draws R k.pub.n hn hd fuel hj).1 s' rfl
    rw [rsaDecrypt_some R fuel s hk c hw hc, hl]
    simp only [Res.ok_bind, hcheck, hbeq]
    exact ⟨_, rfl⟩

/-- The checked operation of a well-formed key, whatever the generator does. -/
theorem rsaDecryptAndCheck_cases {σ : Type} (R : RngImpl σ) (fuel : Nat) (rng : Option σ) {k : PrivateKey}
    (hk : Spec.WellFormed k) (c : BoxedUint) (hw : c.nlimbs = k.pub.n.nlimbs) (hc : c.val < k.pub.n.val) :
    (∃ rng', rsaDecryptAndCheck R fuel k rng c =
        .ok (wrap k.pub.n.nlimbs (c.val ^ k.d.val % k.pub.n.val), rng')) ∨
      (rng.isSome ∧ rsaDecryptAndCheck R fuel k rng c = .err .rng) ∨
      (rng.isSome ∧ rsaDecryptAndCheck R fuel k rng c = .loop) := by
  cases rng with
  | none => exact Or.inl (rsaDecryptAndCheck_ok R fuel none hk c hw hc trivial)
  | some s =>
    have hco : k.pub.Coherent := hk.coherent
    have hn := coherent_pos hco
    rcases blindLoop_outcomes R k.pub.n fuel s with ⟨r, ir, s', h⟩ | h | h
    · left
      obtain ⟨_, hnone⟩ := rsaDecryptAndCheck_ok R fuel none hk c hw hc trivial
      unfold rsaDecryptAndCheck at hnone ⊢
      rw [rsaDecrypt_none R fuel hk c (by rw [hw]; exact hk.width) hc, Res.ok_bind] at hnone
      rw [rsaDecrypt_some R fuel s hk c hw hc, h, Res.ok_bind, Res.ok_bind]
      rw [Res.bind_eq_ok] at hnone
      obtain ⟨y, hy, hy2⟩ := hnone
      simp only [hy, Res.ok_bind]
      split at hy2
      · cases hy2
      · next hne => rw [if_neg hne]; exact ⟨_, rfl⟩
    · refine Or.inr (Or.inl ⟨rfl, ?_⟩)
      unfold rsaDecryptAndCheck
      rw [rsaDecrypt_some R fuel s hk c hw hc, h]; rfl
    · refine Or.inr (Or.inr ⟨rfl, ?_⟩)
      unfold rsaDecryptAndCheck
      rw [rsaDecrypt_some R fuel s hk c hw hc, h]; rfl

theorem rsaDecryptAndCheck_ge {σ : Type} (R : RngImpl σ) (fuel : Nat) (rng : Option σ) (k : PrivateKey) (c : BoxedUint)
    (hc : k.pub.n.val ≤ c.val) : rsaDecryptAndCheck R fuel k rng c = .err .decryption := by
  unfold rsaDecryptAndCheck
  rw [rsaDecrypt_ge R fuel rng k c hc]; rfl

/-- `e`-th powers modulo the modulus of a well-formed key are injective below it. -/
theorem wf_inj {k : PrivateKey} (hk : Spec.WellFormed k) {a b : Nat} (ha : a < k.pub.n.val) (hb : b < k.pub.n.val)
    (h : a ^ k.pub.e.val % k.pub.n.val = b ^ k.pub.e.val % k.pub.n.val) : a = b := by
  have h' : a ^ k.pub.e.val ≡ b ^ k.pub.e.val [MOD k.pub.n.val] := h
  have h2 := h'.pow k.d.val
  rw [← pow_mul, ← pow_mul, mul_comm] at h2
  have h3 : a ≡ b [MOD k.pub.n.val] := (wf_rsa hk a).symm.trans (h2.trans (wf_rsa hk b))
  exact Nat.ModEq.eq_of_lt_of_lt h3 ha hb

end RSA
