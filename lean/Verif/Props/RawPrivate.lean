import Verif.Spec.RawPrivate
import Verif.Proof.Returns
import Verif.Props.Outcome
import Verif.Props.ExampleKeys

/-! C85: the raw private operation on keys that need not be correct, at every width. -/
namespace RSA
open BoxedUint

/-- The model's way of keeping `m_1 - m_2` non-negative agrees with the integer remainder. -/
theorem garner_h (p a b u : Nat) (hp : 0 < p) :
    ((u * ((a % p + p - b % p) % p) % p : Nat) : Int) = (((a % p : Nat) : Int) - (b : Int)) * u % p := by
  have hb : b % p ≤ a % p + p := le_trans (Nat.mod_lt b hp).le (Nat.le_add_left _ _)
  push_cast [Nat.cast_sub hb]
  rw [mul_comm (u : Int)]
  apply Int.ModEq.eq
  show _ ≡ _ [ZMOD p]
  apply Int.ModEq.mul_right
  refine (Int.mod_modEq _ _).trans ?_
  apply Int.ModEq.sub
  · simp [Int.ModEq]
  · exact Int.mod_modEq _ _

theorem rsaPrivateExp_plain {k : PrivateKey} (hco : k.pub.Coherent) (h : k.precomputed = none ∨ 2 < k.primes.length)
    (c : BoxedUint) (hc : c.val < k.pub.n.val) :
    rsaPrivateExp k c = .ok (wrap k.pub.n.nlimbs (c.val ^ k.d.val % k.pub.n.val)) := by
  have hp : powModParams c k.d k.pub.nParams = .ok (wrap k.pub.n.nlimbs (c.val ^ k.d.val % k.pub.n.val)) := by
    rw [powModParams_eq, coherent_prec hco, coherent_mod hco, coherent_nlimbs hco,
      Nat.mod_eq_of_lt (a := c.val) (b := 2 ^ k.pub.n.prec) (lt_trans hc k.pub.n.isLt)]
  unfold rsaPrivateExp
  rcases h with h | h
  · simp only [h]; exact hp
  · cases hq : k.precomputed with
    | none => exact hp
    | some pre =>
      have : k.primes.length > 2 := h
      simp only [this, decide_true]; exact hp

theorem rsaPrivateExp_crt {k : PrivateKey} {p q : BoxedUint} (hu : Spec.UsesCrt k p q)
    (hcache : ∀ pre, k.precomputed = some pre → Spec.CacheOk k pre) (c : BoxedUint) (hc : c.nlimbs = k.d.nlimbs) :
    ∃ m u, rsaPrivateExp k c = .ok m ∧ m.nlimbs = k.d.nlimbs ∧ u * q.val % p.val = 1 ∧
      (m.val : Int) = Spec.rfcCrt p.val q.val k.d.val u c.val % 2 ^ k.d.prec := by
  obtain ⟨hs, hpr⟩ := hu
  obtain ⟨pre, hpre⟩ := Option.isSome_iff_exists.mp hs
  obtain ⟨⟨p', q', rest, hpr', hdp, hdq, hpm, hqm, hinv⟩, hqp, hpw, hqw⟩ := hcache pre hpre
  rw [hpr] at hpr'
  cases hpr'
  have hpM : pre.pParams.mod = p.val := hpm
  have hqM : pre.qParams.mod = q.val := hqm
  have hp0 : 0 < p.val := by
    have := pre.pParams.modulus.odd
    rw [hpm] at this; omega
  have hcp : c.prec = pre.pParams.prec := by unfold MontyParams.prec prec; rw [hpw, hc]
  have hcq : c.prec = pre.qParams.prec := by unfold MontyParams.prec prec; rw [hqw, hc]
  have hlen : ¬ k.primes.length > 2 := by rw [hpr]; simp
  set m2 : BoxedUint := wrap pre.qParams.modulus.toBoxedUint.nlimbs (c.val ^ pre.dq.val % q.val) with hm2
  have hm2v : m2.val = c.val ^ pre.dq.val % q.val := by
    have := mod_val pre.qParams (c.val ^ pre.dq.val)
    rw [hqM] at this; exact this
  have hm2p : m2.prec = pre.pParams.prec := by
    show 64 * pre.qParams.modulus.toBoxedUint.nlimbs = 64 * pre.pParams.modulus.toBoxedUint.nlimbs
    rw [hqw, hpw]
  set h := pre.qinv.res * ((c.val ^ pre.dp.val % p.val + p.val - m2.val % p.val) % p.val) % p.val with hh
  have hrun : rsaPrivateExp k c = .ok (((wrap pre.pParams.modulus.toBoxedUint.nlimbs h).wrappingMul q).wrappingAdd m2) := by
    unfold rsaPrivateExp
    simp only [hpre, hlen, decide_false]
    rw [hpr]
    simp only [primeAt, List.getElem?_cons_zero, List.getElem?_cons_succ, Res.ok_bind]
    rw [MontyForm.new_eq hcp, MontyForm.new_eq hcq]
    simp only [Res.ok_bind, MontyForm.pow, MontyForm.powMod_eq, ← Nat.pow_mod, hpM, hqM, MontyForm.retrieve]
    rw [← hm2, MontyForm.new_eq hm2p, Res.ok_bind, MontyForm.sub_eq (by rfl), Res.ok_bind, MontyForm.mul_eq hqp,
      Res.ok_bind]
    simp only [hqp, hpM, Nat.mod_mod]
    rfl
  refine ⟨_, pre.qinv.res, hrun, ?_, hinv, ?_⟩
  · show max pre.pParams.modulus.toBoxedUint.nlimbs pre.qParams.modulus.toBoxedUint.nlimbs = _
    rw [hpw, hqw, max_self]
  · have hv : (((wrap pre.pParams.modulus.toBoxedUint.nlimbs h).wrappingMul q).wrappingAdd m2).val
        = (h * q.val + m2.val) % 2 ^ (64 * k.d.nlimbs) := by
      show ((h % 2 ^ (64 * pre.pParams.modulus.toBoxedUint.nlimbs) * q.val) %
        2 ^ (64 * pre.pParams.modulus.toBoxedUint.nlimbs) + m2.val) %
        2 ^ (64 * max pre.pParams.modulus.toBoxedUint.nlimbs pre.qParams.modulus.toBoxedUint.nlimbs) = _
      rw [hpw, hqw, max_self]
      simp [Nat.add_mod, Nat.mul_mod]
    have hg := garner_h p.val (c.val ^ pre.dp.val) m2.val pre.qinv.res hp0
    rw [← hh] at hg
    rw [hv]
    unfold Spec.rfcCrt prec
    dsimp only
    push_cast
    rw [hg, hm2v, hdp, hdq]
    push_cast
    ring_nf

/-- C85, without blinding: what `rsa_decrypt` gives for every ciphertext, at every width, on any key object whose stored
moduli belong together, whether or not its numbers make a correct RSA key. -/
theorem C85_raw_private {σ : Type} (R : RngImpl σ) (fuel : Nat) {k : PrivateKey} (hco : k.pub.Coherent)
    (hd : 1 ≤ k.d.nlimbs) (hcache : ∀ pre, k.precomputed = some pre → Spec.CacheOk k pre) (c : BoxedUint) :
    (k.pub.n.val ≤ c.val → rsaDecrypt R fuel none k c = .err .decryption) ∧
    (c.val < k.pub.n.val → k.d.prec < c.prec → rsaDecrypt R fuel none k c = .panic .precision) ∧
    (c.val < k.pub.n.val → c.prec ≤ k.d.prec →
      (k.precomputed = none ∨ 2 < k.primes.length →
        ∃ x, rsaDecrypt R fuel none k c = .ok (x, none) ∧ x.prec = k.pub.n.prec ∧
          x.val = c.val ^ k.d.val % k.pub.n.val) ∧
      (∀ p q, Spec.UsesCrt k p q →
        (k.d.prec < k.pub.n.prec → rsaDecrypt R fuel none k c = .panic .precision) ∧
        (k.pub.n.prec ≤ k.d.prec →
          ∃ x u, rsaDecrypt R fuel none k c = .ok (x, none) ∧ x.prec = k.pub.n.prec ∧ u * q.val % p.val = 1 ∧
            (x.val : Int) = Spec.rfcCrt p.val q.val k.d.val u c.val % 2 ^ k.pub.n.prec))) := by
  have hl := coherent_nlimbs_pos hco
  refine ⟨fun h => rsaDecrypt_ge R fuel none k c h, ?_, ?_⟩
  · intro hc hw
    have hge : c.ge k.pub.n = false := by simp [ge, lt, hc]
    unfold rsaDecrypt
    simp only [hge, Bool.false_eq_true, if_false]
    have : c.widen k.d.prec = .panic .precision := by unfold widen; rw [if_neg (by omega)]
    rw [this]; rfl
  · intro hc hw
    have hge : c.ge k.pub.n = false := by simp [ge, lt, hc]
    have hrun : rsaDecrypt R fuel none k c = (rsaPrivateExp k (wrap (limbsFor k.d.prec) c.val) >>= fun m =>
        m.shorten k.pub.n.prec >>= fun m => .ok (m, none)) := by
      unfold rsaDecrypt
      simp only [hge, Bool.false_eq_true, if_false]
      rw [widen_of_le hw, Res.ok_bind, coherent_prec hco]
    have hcl : (wrap (limbsFor k.d.prec) c.val).nlimbs = k.d.nlimbs := limbsFor_prec _ hd
    have hcv : (wrap (limbsFor k.d.prec) c.val).val = c.val := widen_val hw
    constructor
    · intro h
      rw [hrun, rsaPrivateExp_plain hco h _ (by rw [hcv]; exact hc), Res.ok_bind,
        shorten_of_le (by show 64 * k.pub.n.nlimbs ≤ 64 * k.pub.n.nlimbs; exact le_refl _), Res.ok_bind]
      refine ⟨_, rfl, ?_, ?_⟩
      · show 64 * limbsFor k.pub.n.prec = 64 * k.pub.n.nlimbs
        rw [limbsFor_prec _ hl]
      · rw [limbsFor_prec _ hl, hcv, wrap_mod_val _ (coherent_pos hco), wrap_mod_val _ (coherent_pos hco)]
    · intro p q hu
      obtain ⟨m, u, hm, hml, hui, hmv⟩ := rsaPrivateExp_crt hu hcache _ hcl
      rw [hcv] at hmv
      constructor
      · intro hn
        rw [hrun, hm, Res.ok_bind]
        have : m.shorten k.pub.n.prec = .panic .precision := by
          unfold shorten
          rw [if_neg (by unfold prec at hn ⊢; rw [hml]; omega)]
        rw [this]; rfl
      · intro hn
        rw [hrun, hm, Res.ok_bind, shorten_of_le (by unfold prec at hn ⊢; rw [hml]; exact hn), Res.ok_bind]
        refine ⟨_, u, rfl, ?_, hui, ?_⟩
        · show 64 * limbsFor k.pub.n.prec = 64 * k.pub.n.nlimbs
          rw [limbsFor_prec _ hl]
        · show ((m.val % 2 ^ (64 * limbsFor k.pub.n.prec) : Nat) : Int) = _
          rw [limbsFor_prec _ hl]
          push_cast
          rw [hmv]
          exact Int.emod_emod_of_dvd _ (pow_dvd_pow 2 hn)

/-! ### With blinding -/

theorem unitDrawn_draws {σ : Type} {R : RngImpl σ} {n : Nat} {s : σ} {r : Nat} {s' : σ} {j : Nat}
    (h : Spec.UnitDrawn R n s r s' j) : Spec.Draws R n s (some s') j := by
  induction h with
  | good s r h hr => exact .good s r h hr
  | again s r r' s' j h h0 hr _ ih => exact .again s r _ j h h0 hr ih

theorem blindLoop_unit {σ : Type} (R : RngImpl σ) (n : BoxedUint) (hn : 0 < n.val) {s : σ} {r : Nat} {s' : σ} {j : Nat}
    (h : Spec.UnitDrawn R n.val s r s' j) : ∀ fuel, j ≤ fuel →
      ∃ x ir, blindLoop R n fuel s = .ok ((x, ir), s') ∧ x.val = r := by
  induction h with
  | good s r hs hr =>
    intro fuel hj
    obtain ⟨f, rfl⟩ : ∃ f, fuel = f + 1 := ⟨fuel - 1, by omega⟩
    have hval := wrap_ite_val n (R.randMod_lt s n.val r hs hn)
    simp only [blindLoop]
    rcases hR : R.randMod s n.val with ⟨o, s1⟩
    rw [hR] at hs
    simp only at hs
    subst hs
    simp only
    have hcop : Nat.Coprime (if r = 0 then 1 else r) n.val := by
      split
      · exact Nat.coprime_one_left _
      · next h0 => exact hr.resolve_left h0
    obtain ⟨iv, hiv⟩ := natInvMod_isSome hn hcop
    have : invMod (if (wrap n.nlimbs r).isZero = true then oneWithPrecision n.prec else wrap n.nlimbs r) n
        = some (wrap n.nlimbs iv) := by
      unfold invMod; rw [hval, hiv]; rfl
    rw [this]
    exact ⟨_, _, rfl, hval⟩
  | again s r r' s' j hs h0 hr _ ih =>
    intro fuel hj
    obtain ⟨f, rfl⟩ : ∃ f, fuel = f + 1 := ⟨fuel - 1, by omega⟩
    have hval := wrap_ite_val n (R.randMod_lt s n.val r hs hn)
    have := ih f (by omega)
    simp only [blindLoop]
    rcases hR : R.randMod s n.val with ⟨o', s1⟩
    rw [hR] at hs this
    simp only at hs this
    subst hs
    simp only
    have hnone : invMod (if (wrap n.nlimbs r).isZero = true then oneWithPrecision n.prec else wrap n.nlimbs r) n
        = none := by
      unfold invMod
      rw [hval, if_neg h0, (natInvMod_none hn).mpr hr]; rfl
    rw [hnone]
    exact this

/-- Draws that settle on a usable value settle on some unit. -/
theorem draws_unit {σ : Type} {R : RngImpl σ} {n : Nat} {s : σ} {o : Option σ} {j : Nat} (h : Spec.Draws R n s o j) :
    ∀ s', o = some s' → ∃ r, Spec.UnitDrawn R n s r s' j := by
  induction h with
  | fail s h => intro s' h; cases h
  | good s r h hr => intro s' hs; cases hs; exact ⟨_, .good s r h hr⟩
  | again s r o j h h0 hr _ ih =>
    intro s' hs
    obtain ⟨r', hr'⟩ := ih s' hs
    exact ⟨r', .again s r r' s' j h h0 hr hr'⟩

/-- A loop that is not still running has settled. -/
theorem blindLoop_settles {σ : Type} (R : RngImpl σ) (n : BoxedUint) (hn : 0 < n.val) : ∀ (fuel : Nat) (s : σ),
    blindLoop R n fuel s ≠ .loop → ∃ o j, Spec.Draws R n.val s o j ∧ j ≤ fuel := by
  intro fuel
  induction fuel with
  | zero => intro s h; exact absurd rfl h
  | succ f ih =>
    intro s h
    cases hs : (R.randMod s n.val).1 with
    | none => exact ⟨none, 1, .fail s hs, by omega⟩
    | some r =>
      by_cases hu : r = 0 ∨ Nat.Coprime r n.val
      · exact ⟨_, 1, .good s r hs hu, by omega⟩
      · have h0 : r ≠ 0 := fun h => hu (Or.inl h)
        have hr : ¬ Nat.Coprime r n.val := fun h => hu (Or.inr h)
        have hval := wrap_ite_val n (R.randMod_lt s n.val r hs hn)
        have hnone : invMod (if (wrap n.nlimbs r).isZero = true then oneWithPrecision n.prec else wrap n.nlimbs r) n
            = none := by
          unfold invMod
          rw [hval, if_neg h0, (natInvMod_none hn).mpr hr]; rfl
        have hstep : blindLoop R n (f + 1) s = blindLoop R n f (R.randMod s n.val).2 := by
          rw [blindLoop]
          rcases hR : R.randMod s n.val with ⟨o, s1⟩
          rw [hR] at hs
          simp only at hs
          subst hs
          simp only
          rw [hnone]
        rw [hstep] at h
        obtain ⟨o, j, hd, hj⟩ := ih _ h
        exact ⟨o, j + 1, .again s r o j hs h0 hr hd, by omega⟩

/-- The integer formula does not depend on which inverse of `q` is used. -/
theorem rfcCrt_inv {p q d u u' c : Nat} (hu : u * q % p = 1) (hu' : u' * q % p = 1) :
    Spec.rfcCrt p q d u c = Spec.rfcCrt p q d u' c := by
  have h : (u : Int) ≡ u' [ZMOD p] := by
    have hn : u ≡ u' [MOD p] := by
      have e1 : u * q ≡ 1 [MOD p] := by
        have : 1 % p = 1 := by
          rw [← hu]; exact Nat.mod_mod _ _
        unfold Nat.ModEq; rw [hu, this]
      have e2 : u' * q ≡ 1 [MOD p] := by
        have : 1 % p = 1 := by
          rw [← hu]; exact Nat.mod_mod _ _
        unfold Nat.ModEq; rw [hu', this]
      calc u = u * 1 := (mul_one u).symm
        _ ≡ u * (u' * q) [MOD p] := (e2.mul_left u).symm
        _ = u' * (u * q) := by ring
        _ ≡ u' * 1 [MOD p] := e1.mul_left u'
        _ = u' := mul_one u'
    exact (Int.natCast_modEq_iff).mpr hn
  unfold Spec.rfcCrt
  dsimp only
  congr 2
  exact (h.mul_left _)

/-- The exponentiation followed by the cut to the width of `n`. -/
theorem exp_outcome {k : PrivateKey} (hco : k.pub.Coherent) (hcache : ∀ pre, k.precomputed = some pre → Spec.CacheOk k pre)
    (c : BoxedUint) (hcl : c.nlimbs = k.d.nlimbs) (hc : c.val < k.pub.n.val) :
    (∃ e, Spec.Exponentiates k c.val e) ∧
    ∀ e, Spec.Exponentiates k c.val e →
      (rsaPrivateExp k c >>= fun m => m.shorten k.pub.n.prec) = (e >>= fun v => .ok (wrap k.pub.n.nlimbs v)) ∧
      (∀ v, e = .ok v → v < 2 ^ k.pub.n.prec) := by
  have hl := coherent_nlimbs_pos hco
  have hn := coherent_pos hco
  constructor
  · cases hpre : k.precomputed with
    | none => exact ⟨_, .plain (Or.inl hpre)⟩
    | some pre =>
      obtain ⟨⟨p, q, rest, hpr, -⟩, -⟩ := hcache pre hpre
      cases rest with
      | cons a l => exact ⟨_, .plain (Or.inr (by rw [hpr]; simp))⟩
      | nil =>
        have hu : Spec.UsesCrt k p q := ⟨by rw [hpre]; rfl, hpr⟩
        by_cases hw : k.pub.n.prec ≤ k.d.prec
        · obtain ⟨m, u, -, -, hui, -⟩ := rsaPrivateExp_crt hu hcache c hcl
          refine ⟨_, .crt p q u (Spec.rfcCrt p.val q.val k.d.val u c.val % 2 ^ k.pub.n.prec).toNat hu hw hui ?_⟩
          exact Int.toNat_of_nonneg (Int.emod_nonneg _ (by positivity))
        · exact ⟨_, .narrow p q hu (by omega)⟩
  · intro e he
    cases he with
    | plain h =>
      rw [rsaPrivateExp_plain hco h c hc, Res.ok_bind,
        shorten_of_le (by show 64 * k.pub.n.nlimbs ≤ 64 * k.pub.n.nlimbs; exact le_refl _), limbsFor_prec _ hl,
        wrap_mod_val _ hn, Res.ok_bind]
      refine ⟨rfl, fun v hv => ?_⟩
      cases hv
      exact lt_trans (Nat.mod_lt _ hn) k.pub.n.isLt
    | crt p q u v h hw hu hv =>
      obtain ⟨m, u', hm, hml, hu', hmv⟩ := rsaPrivateExp_crt h hcache c hcl
      have hvm : v = m.val % 2 ^ k.pub.n.prec := by
        have : (v : Int) = ((m.val % 2 ^ k.pub.n.prec : Nat) : Int) := by
          push_cast
          rw [hv, hmv, rfcCrt_inv hu hu']
          exact (Int.emod_emod_of_dvd _ (pow_dvd_pow 2 hw)).symm
        exact_mod_cast this
      rw [hm, Res.ok_bind, shorten_of_le (by unfold prec at hw ⊢; rw [hml]; exact hw), limbsFor_prec _ hl, Res.ok_bind]
      refine ⟨?_, fun w hwv => ?_⟩
      · congr 1
        refine ext_val (by rfl) ?_
        show m.val % 2 ^ (64 * k.pub.n.nlimbs) = v % 2 ^ (64 * k.pub.n.nlimbs)
        rw [hvm]
        exact (Nat.mod_mod _ _).symm
      · cases hwv
        rw [hvm]
        exact Nat.mod_lt _ (by positivity)
    | narrow p q h hw =>
      obtain ⟨m, u', hm, hml, -, -⟩ := rsaPrivateExp_crt h hcache c hcl
      rw [hm, Res.ok_bind]
      refine ⟨?_, fun w hwv => by cases hwv⟩
      unfold shorten
      rw [if_neg (by unfold prec at hw ⊢; rw [hml]; omega)]
      rfl

theorem exp_bind {α : Type} {k : PrivateKey} {c : BoxedUint} {e : Res Nat} (f : BoxedUint → Res α)
    (h : (rsaPrivateExp k c >>= fun m => m.shorten k.pub.n.prec) = (e >>= fun v => .ok (wrap k.pub.n.nlimbs v))) :
    (rsaPrivateExp k c >>= fun m => m.shorten k.pub.n.prec >>= f) = (e >>= fun v => f (wrap k.pub.n.nlimbs v)) := by
  have : (rsaPrivateExp k c >>= fun m => m.shorten k.pub.n.prec >>= f) =
      ((rsaPrivateExp k c >>= fun m => m.shorten k.pub.n.prec) >>= f) := by
    cases rsaPrivateExp k c <;> rfl
  rw [this, h]
  cases e <;> rfl

theorem blind_wide {σ : Type} (R : RngImpl σ) (fuel : Nat) (s : σ) (k : PublicKey) (hk : k.Coherent) (c : BoxedUint)
    (hc : c.prec ≠ k.n.prec) :
    blind R fuel s k c k.nParams = (blindLoop R k.n fuel s >>= fun _ => .panic .precision) := by
  have hb : k.n.beq k.nParams.modulus.toBoxedUint = true := by
    unfold PublicKey.Coherent at hk
    simp [beq, hk]
  unfold blind
  simp only [hb, Bool.not_true, Bool.false_eq_true, if_false]
  rcases hloop : blindLoop R k.n fuel s with ⟨⟨r, ir⟩, s'⟩ | e | p | _
  · simp only [Res.ok_bind]
    rw [powModParams_eq, Res.ok_bind]
    have : ∀ y, mulModParams c y k.nParams = .panic .precision := by
      intro y
      unfold mulModParams MontyForm.new
      rw [if_neg (by rw [coherent_prec hk]; exact hc)]
      rfl
    rw [this]; rfl
  · rfl
  · rfl
  · rfl

/-- C85: what `rsa_decrypt` gives for every ciphertext, at every width, with or without a blinding generator, on any key
object whose stored moduli belong together, whether or not its numbers make a correct RSA key. -/
theorem C85_decrypt {σ : Type} (R : RngImpl σ) (fuel : Nat) (rng : Option σ) {k : PrivateKey} (hco : k.pub.Coherent)
    (hd : 1 ≤ k.d.nlimbs) (hcache : ∀ pre, k.precomputed = some pre → Spec.CacheOk k pre) (c : BoxedUint)
    (r : Res (BoxedUint × Option σ)) :
    rsaDecrypt R fuel rng k c = r ↔ Spec.RawDecrypts R fuel rng k c r := by
  have hl := coherent_nlimbs_pos hco
  have hn := coherent_pos hco
  -- the two shapes of the run
  have hnone : c.val < k.pub.n.val → c.prec ≤ k.d.prec → rsaDecrypt R fuel none k c =
      (rsaPrivateExp k (wrap (limbsFor k.d.prec) c.val) >>= fun m => m.shorten k.pub.n.prec >>= fun m => .ok (m, none)) := by
    intro hc hw
    have hge : c.ge k.pub.n = false := by simp [ge, lt, hc]
    unfold rsaDecrypt
    simp only [hge, Bool.false_eq_true, if_false]
    rw [widen_of_le hw, Res.ok_bind, coherent_prec hco]
  have hexp : ∀ b : BoxedUint, b.val < k.pub.n.val → b.prec ≤ k.d.prec → _ := fun b hb hw =>
    exp_outcome hco hcache (wrap (limbsFor k.d.prec) b.val) (limbsFor_prec _ hd) (by rw [widen_val hw]; exact hb)
  have hsome : ∀ s, c.val < k.pub.n.val → rsaDecrypt R fuel (some s) k c =
      (blind R fuel s k.pub c k.pub.nParams >>= fun x => x.1.1.widen k.d.prec >>= fun b =>
        rsaPrivateExp k b >>= fun m => m.shorten k.pub.n.prec >>= fun m => unblind m x.1.2 k.pub.nParams >>= fun y =>
          .ok (y, some x.2)) := by
    intro s hc
    have hge : c.ge k.pub.n = false := by simp [ge, lt, hc]
    unfold rsaDecrypt
    simp only [hge, Bool.false_eq_true, if_false]
    rw [coherent_prec hco]
  -- a blinded run at the right widths
  have hblind : ∀ s r s' j, c.val < k.pub.n.val → Spec.UnitDrawn R k.pub.n.val s r s' j → j ≤ fuel →
      c.prec = k.pub.n.prec → k.pub.n.prec ≤ k.d.prec →
      (∃ v, Spec.Exponentiates k (c.val * r ^ k.pub.e.val % k.pub.n.val) (.ok v)) ∧
      (∃ ir, r * ir % k.pub.n.val = 1 % k.pub.n.val) ∧
      ∀ v ir, Spec.Exponentiates k (c.val * r ^ k.pub.e.val % k.pub.n.val) (.ok v) →
        r * ir % k.pub.n.val = 1 % k.pub.n.val →
        rsaDecrypt R fuel (some s) k c = .ok (wrap k.pub.n.nlimbs (v * ir % k.pub.n.val), some s') := by
    intro s r s' j hc hu hj hw hwd
    obtain ⟨x, ir', hloop, hxr⟩ := blindLoop_unit R k.pub.n hn hu fuel hj
    obtain ⟨h1, h2, h3, h4⟩ := blindLoop_ok R k.pub.n hl _ _ _ _ _ hloop
    rw [hxr] at h4
    set b := wrap k.pub.n.nlimbs (c.val * (x.val ^ k.pub.e.val % k.pub.n.val) % k.pub.n.val) with hb
    have hbv : b.val = c.val * r ^ k.pub.e.val % k.pub.n.val := by
      rw [hb, wrap_mod_val _ hn, hxr, Nat.mul_mod_mod]
    have hbw : b.prec ≤ k.d.prec := hwd
    have hblt : b.val < k.pub.n.val := by rw [hbv]; exact Nat.mod_lt _ hn
    obtain ⟨⟨e, he⟩, hall⟩ := hexp b hblt hbw
    rw [widen_val hbw, hbv] at he hall
    refine ⟨?_, ⟨_, h4⟩, ?_⟩
    · cases he with
      | plain h => exact ⟨_, .plain h⟩
      | crt p q u v h hw' hu hv => exact ⟨v, .crt p q u v h hw' hu hv⟩
      | narrow p q h hw' => omega
    · intro v ir hv hir
      obtain ⟨hrun, hvlt⟩ := hall _ hv
      rw [hsome s hc, blind_eq R fuel s k.pub hco c hw, hloop]
      simp only [Res.ok_bind]
      rw [← hb, widen_of_le hbw, Res.ok_bind, hbv, exp_bind _ hrun, Res.ok_bind]
      have hpi : ir'.prec = k.pub.n.prec := by unfold prec; rw [h2]
      have hpm : (wrap k.pub.n.nlimbs v).prec = k.pub.n.prec := rfl
      unfold unblind
      rw [hpm, hpi, coherent_prec hco]
      simp only [ne_eq, not_true_eq_false, if_false]
      rw [mulModParams_eq _ _ _ (by rw [coherent_prec hco]; rfl) (by rw [coherent_prec hco]; exact hpi), Res.ok_bind,
        coherent_nlimbs hco, coherent_mod hco, wrap_val_of_lt (hvlt v rfl)]
      congr 3
      have e1 : ir'.val ≡ ir [MOD k.pub.n.val] := by
        calc ir'.val = ir'.val * 1 := (mul_one _).symm
          _ ≡ ir'.val * (r * ir) [MOD k.pub.n.val] := (Nat.ModEq.mul_left _ hir).symm
          _ = ir * (r * ir'.val) := by ring
          _ ≡ ir * 1 [MOD k.pub.n.val] := Nat.ModEq.mul_left _ h4
          _ = ir := mul_one _
      exact e1.mul_left v
  refine graph_iff ?_ ?_ r
  · by_cases hc : c.val < k.pub.n.val
    · cases rng with
      | none =>
        by_cases hw : c.prec ≤ k.d.prec
        · obtain ⟨⟨e, he⟩, hall⟩ := hexp c hc hw
          have hlt := (hall e he).2
          rw [widen_val hw] at he
          cases he with
          | plain h =>
            exact ⟨_, .plain hc rfl hw (wrap k.pub.n.nlimbs (c.val ^ k.d.val % k.pub.n.val))
              (by rw [wrap_mod_val _ hn]; exact .plain h) rfl⟩
          | crt p q u v h hw' hu hv =>
            exact ⟨_, .plain hc rfl hw (wrap k.pub.n.nlimbs v)
              (by rw [wrap_val_of_lt (hlt v rfl)]; exact .crt p q u v h hw' hu hv) rfl⟩
          | narrow p q h hw' => exact ⟨_, .narrow hc rfl hw (.narrow p q h hw')⟩
        · exact ⟨_, .wide hc rfl (by omega)⟩
      | some s =>
        by_cases hset : Spec.Settles R k.pub.n.val fuel (some s)
        · obtain ⟨o, j, hdr, hj⟩ := hset
          cases o with
          | none => exact ⟨_, .noDraw hc s j rfl hdr hj⟩
          | some s' =>
            obtain ⟨u, hu⟩ := draws_unit hdr s' rfl
            by_cases hw : c.prec ≠ k.pub.n.prec ∨ k.d.prec < k.pub.n.prec
            · exact ⟨_, .blindWidth hc s u s' j rfl hu hj hw⟩
            · have hw1 : c.prec = k.pub.n.prec := by by_contra h; exact hw (Or.inl h)
              have hw2 : k.pub.n.prec ≤ k.d.prec := by by_contra h; exact hw (Or.inr (by omega))
              obtain ⟨⟨v, hv⟩, ⟨ir, hir⟩, -⟩ := hblind s u s' j hc hu hj hw1 hw2
              exact ⟨_, .blinded hc s u s' j ir v (wrap k.pub.n.nlimbs (v * ir % k.pub.n.val)) rfl hu hj hw1 hw2 hir hv rfl
                (wrap_mod_val _ hn _)⟩
        · exact ⟨_, .drawing hc hset⟩
    · exact ⟨_, .tooLarge (by omega)⟩
  · intro r hr
    cases hr with
    | tooLarge h => exact rsaDecrypt_ge R fuel rng k c h
    | wide hc hs hw =>
      subst hs
      exact (C85_raw_private R fuel hco hd hcache c).2.1 hc hw
    | narrow hc hs hw he =>
      subst hs
      obtain ⟨-, hall⟩ := hexp c hc hw
      rw [hnone hc hw, exp_bind _ (hall _ (by rw [widen_val hw]; exact he)).1]
      rfl
    | plain hc hs hw x he hx =>
      subst hs
      obtain ⟨-, hall⟩ := hexp c hc hw
      rw [hnone hc hw, exp_bind _ (hall _ (by rw [widen_val hw]; exact he)).1, Res.ok_bind]
      congr 2
      have hxl : x.nlimbs = k.pub.n.nlimbs := by unfold prec at hx; omega
      rw [← hxl, wrap_self]
    | noDraw hc s j hs hdr hj =>
      subst hs
      rw [hsome s hc]
      have hloop := (blindLoop_draws R k.pub.n hn hdr fuel hj).2 rfl
      by_cases hw : c.prec = k.pub.n.prec
      · rw [blind_eq R fuel s k.pub hco c hw, hloop]; rfl
      · rw [blind_wide R fuel s k.pub hco c hw, hloop]; rfl
    | drawing hc h =>
      cases rng with
      | none => exact absurd trivial h
      | some s =>
        rw [hsome s hc]
        have hloop : blindLoop R k.pub.n fuel s = .loop := by
          by_contra hl'
          exact h (blindLoop_settles R k.pub.n hn fuel s hl')
        by_cases hw : c.prec = k.pub.n.prec
        · rw [blind_eq R fuel s k.pub hco c hw, hloop]; rfl
        · rw [blind_wide R fuel s k.pub hco c hw, hloop]; rfl
    | blindWidth hc s u s' j hs hu hj hw =>
      subst hs
      rw [hsome s hc]
      obtain ⟨x, ir', hloop, hxr⟩ := blindLoop_unit R k.pub.n hn hu fuel hj
      by_cases hw1 : c.prec = k.pub.n.prec
      · have hw2 := hw.resolve_left (fun h => h hw1)
        rw [blind_eq R fuel s k.pub hco c hw1, hloop]
        simp only [Res.ok_bind]
        unfold widen
        rw [if_neg (by show ¬ (64 * k.pub.n.nlimbs ≤ k.d.prec); unfold prec at hw2 ⊢; omega)]
        rfl
      · rw [blind_wide R fuel s k.pub hco c hw1, hloop]; rfl
    | blinded hc s u s' j ir v x hs hu hj hw hwd hir he hx hv =>
      subst hs
      rw [(hblind s u s' j hc hu hj hw hwd).2.2 v ir he hir, ← hv]
      have hxl : x.nlimbs = k.pub.n.nlimbs := by unfold prec at hx; omega
      rw [← hxl, wrap_self]

/-- C85, the checked operation `rsa_decrypt_and_check`, on the same keys. -/
theorem C85_checked {σ : Type} (R : RngImpl σ) (fuel : Nat) (rng : Option σ) {k : PrivateKey} (hco : k.pub.Coherent)
    (hd : 1 ≤ k.d.nlimbs) (hcache : ∀ pre, k.precomputed = some pre → Spec.CacheOk k pre) (c : BoxedUint)
    (r : Res (BoxedUint × Option σ)) :
    rsaDecryptAndCheck R fuel k rng c = r ↔ Spec.RawChecked R fuel rng k c r := by
  have hn := coherent_pos hco
  have hiff := C85_decrypt R fuel rng hco hd hcache c
  have hx : ∀ x rng', Spec.RawDecrypts R fuel rng k c (.ok (x, rng')) →
      rsaDecryptAndCheck R fuel k rng c =
        if x.val ^ k.pub.e.val % k.pub.n.val = c.val then .ok (x, rng') else .err .internal := by
    intro x rng' h
    have hxl : x.prec = k.pub.n.prec := by cases h <;> assumption
    have hxlt : x.val < 2 ^ k.pub.n.prec := by rw [← hxl]; exact x.isLt
    unfold rsaDecryptAndCheck
    rw [(hiff _).mpr h, Res.ok_bind]
    dsimp only
    rw [rsaEncrypt_lt _ hco _ hxlt, Res.ok_bind]
    simp only [beq, wrap_mod_val _ hn]
    by_cases he : x.val ^ k.pub.e.val % k.pub.n.val = c.val
    · simp [he]
    · have : ¬ c.val = x.val ^ k.pub.e.val % k.pub.n.val := fun h => he h.symm
      simp [he, this]
  refine graph_iff ?_ ?_ r
  · have h := (hiff (rsaDecrypt R fuel rng k c)).mp rfl
    cases hr : rsaDecrypt R fuel rng k c with
    | ok a =>
      obtain ⟨x, rng'⟩ := a
      rw [hr] at h
      by_cases he : x.val ^ k.pub.e.val % k.pub.n.val = c.val
      · exact ⟨_, .good x rng' h he⟩
      · exact ⟨_, .fault x rng' h he⟩
    | err e => rw [hr] at h; exact ⟨_, .none _ h (by intro a ha; cases ha)⟩
    | panic e => rw [hr] at h; exact ⟨_, .none _ h (by intro a ha; cases ha)⟩
    | loop => rw [hr] at h; exact ⟨_, .none _ h (by intro a ha; cases ha)⟩
  · intro r hr
    cases hr with
    | good x rng' h he => rw [hx x rng' h, if_pos he]
    | fault x rng' h he => rw [hx x rng' h, if_neg he]
    | none r h hne =>
      have := (hiff r).mpr h
      unfold rsaDecryptAndCheck
      rw [this]
      cases r with
      | ok a => exact absurd rfl (hne a)
      | err e => rfl
      | panic e => rfl
      | loop => rfl

/-- `n = 15` in two limbs with `d = 3` in one, as `from_components` makes it (see C44). -/
def Ex.narrowKey : Option PrivateKey :=
  match PrivateKey.fromComponents ⟨wrap 2 15, by decide⟩ (wrap 1 3) (wrap 1 3) [wrap 1 3, wrap 1 5] with
  | .ok k => some k
  | _ => none

/-- The hypotheses hold of a correct key, and both branches are met. -/
example : Ex.key.pub.Coherent ∧ 1 ≤ Ex.key.d.nlimbs ∧ (∀ pre, Ex.key.precomputed = some pre → Spec.CacheOk Ex.key pre) :=
  ⟨Ex.key_wf.coherent, by decide, Ex.key_wf.cache⟩

/-- A ciphertext stored as narrowly as `d` passes `widen` and then panics in `shorten`; without the cached values the same
ciphertext is decrypted. -/
example : (match Ex.narrowKey with
    | some k => decide (k.precomputed.isSome = true ∧ k.d.prec < k.pub.n.prec ∧
        rsaDecrypt dummyRng 0 none k (wrap 1 2) = .panic .precision ∧
        rsaDecrypt dummyRng 0 none k.clearPrecomputed (wrap 1 2) = .ok (wrap 2 8, none))
    | none => false) = true := by decide +kernel

/-- The example key with factors that are not those of its modulus, and the cached values that belong to them. -/
def Ex.wrongKey : PrivateKey :=
  { Ex.keyNoCrt with
    primes := [wrap 1 7, wrap 1 11]
    precomputed := some
      { dp := wrap 4 (Ex.dVal % 6), dq := wrap 4 (Ex.dVal % 10), qinv := ⟨⟨⟨wrap 4 7, by decide⟩⟩, 2⟩
        pParams := ⟨⟨wrap 4 7, by decide⟩⟩, qParams := ⟨⟨wrap 4 11, by decide⟩⟩ } }

/-- The hypotheses hold of it. -/
theorem Ex.wrongKey_ok : Ex.wrongKey.pub.Coherent ∧ 1 ≤ Ex.wrongKey.d.nlimbs ∧
    ∀ pre, Ex.wrongKey.precomputed = some pre → Spec.CacheOk Ex.wrongKey pre := by
  refine ⟨rfl, by decide, ?_⟩
  intro pre h
  cases h
  exact ⟨⟨_, _, _, rfl, by decide, by decide, by decide, by decide, by decide⟩, rfl, rfl, rfl⟩

/-- It is not a correct key, and these are the values `precompute` gives it. -/
example : Ex.wrongKey.clearPrecomputed.precompute = .ok Ex.wrongKey ∧ ¬ Spec.WellFormed Ex.wrongKey := by
  refine ⟨by decide +kernel, fun h => absurd h.numbers.prod (by decide)⟩

/-- The value computed from the wrong factors is given out unchecked, and refused when checked. -/
example : rsaDecrypt Ex.countingRng 3 none Ex.wrongKey (wrap 4 5) = .ok (wrap 4 59, none) ∧
    Spec.rfcCrt 7 11 Ex.dVal 2 5 = 59 ∧
    (match rsaDecrypt Ex.countingRng 3 (some 2) Ex.wrongKey (wrap 4 5) with | .ok _ => true | _ => false) = true ∧
    rsaDecryptAndCheck Ex.countingRng 3 Ex.wrongKey (some 2) (wrap 4 5) = .err .internal ∧
    rsaDecryptAndCheck Ex.countingRng 3 Ex.wrongKey none (wrap 4 5) = .err .internal := by
  decide +kernel

example := C85_raw_private Ex.countingRng 3 Ex.wrongKey_ok.1 Ex.wrongKey_ok.2.1 Ex.wrongKey_ok.2.2 (wrap 4 12345)
example := C85_decrypt Ex.countingRng 3 (some 5) Ex.wrongKey_ok.1 Ex.wrongKey_ok.2.1 Ex.wrongKey_ok.2.2 (wrap 4 12345)

end RSA
