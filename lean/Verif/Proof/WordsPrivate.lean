import Verif.Proof.Words
import Verif.Proof.Rsa
import Verif.Proof.Key
import Verif.Proof.Pss
import Verif.Spec.WordsKey

namespace RSA
namespace words
open BoxedUint (beBytes beVal beVal_lt pow256 beVal_beBytes natInvMod natInvMod_some natInvMod_isSome natInvMod_none)

namespace Uint
variable {w : Nat}

theorem prec_le {x y : Uint w} (h : x.nlimbs ≤ y.nlimbs) : x.prec ≤ y.prec := Nat.mul_le_mul_left _ h

theorem widen_of_le {x : Uint w} {b : Nat} (h : x.prec ≤ b) : x.widen b = .ok (wrap (limbsFor w b) x.val) := by
  simp [widen, h]

theorem shorten_of_le {x : Uint w} {b : Nat} (h : b ≤ x.prec) : x.shorten b = .ok (wrap (limbsFor w b) x.val) := by
  simp [shorten, h]

/-- Widening to the width of another number. -/
theorem widen_to (hw : 0 < w) {x y : Uint w} (hy : 1 ≤ y.nlimbs) (h : x.nlimbs ≤ y.nlimbs) :
    ∃ z : Uint w, x.widen y.prec = .ok z ∧ z.val = x.val ∧ z.nlimbs = y.nlimbs := by
  refine ⟨_, widen_of_le (prec_le h), ?_, ?_⟩
  · have hl : limbsFor w y.prec = y.nlimbs := limbsFor_mul hw hy
    rw [hl]
    exact wrap_val_of_lt (lt_of_lt_of_le x.isLt (Nat.pow_le_pow_right (by norm_num) (Nat.mul_le_mul_left _ h)))
  · exact limbsFor_mul hw hy

theorem wrap_mod_val (n : Uint w) (hn : 0 < n.val) (v : Nat) : (wrap (w := w) n.nlimbs (v % n.val)).val = v % n.val :=
  wrap_val_of_lt (lt_trans (Nat.mod_lt _ hn) n.isLt)

theorem wrap_lt_val {n : Uint w} {v : Nat} (h : v < n.val) : (wrap (w := w) n.nlimbs v).val = v :=
  wrap_val_of_lt (lt_trans h n.isLt)

end Uint
open Uint

variable {w : Nat}

theorem Monty.new_eq {x : Uint w} {p : Params w} (h : x.nlimbs = p.modulus.nlimbs) :
    Monty.new x p = .ok ⟨p, x.val % p.modulus.val⟩ := by
  have : x.prec = p.prec := by unfold Params.prec Uint.prec; rw [h]
  simp [Monty.new, this]

theorem Monty.sub_eq {x y : Monty w} (h : x.params = y.params) :
    x.sub y = .ok ⟨x.params, (x.res + x.params.modulus.val - y.res % x.params.modulus.val) % x.params.modulus.val⟩ := by
  simp [Monty.sub, h]

theorem Monty.mul_eq {x y : Monty w} (h : x.params = y.params) :
    x.mul y = .ok ⟨x.params, x.res * y.res % x.params.modulus.val⟩ := by
  simp [Monty.mul, h]

theorem mulModParams_eq (a b : Uint w) (p : Params w) (ha : a.nlimbs = p.modulus.nlimbs)
    (hb : b.nlimbs = p.modulus.nlimbs) :
    mulModParams a b p = .ok (wrap p.modulus.nlimbs (a.val * b.val % p.modulus.val)) := by
  unfold mulModParams
  rw [Monty.new_eq ha, Res.ok_bind, Monty.new_eq hb, Res.ok_bind, Monty.mul_eq (by rfl), Res.ok_bind]
  simp only [Monty.retrieve, ← Nat.mul_mod]

/-! ## Blinding -/

theorem blindLoop_ok {σ : Type} (hw : 0 < w) (R : RngImpl σ) (n : Uint w) (hl : 1 ≤ n.nlimbs) :
    ∀ (fuel : Nat) (s : σ) (r ir : Uint w) (s' : σ), blindLoop R n fuel s = .ok ((r, ir), s') →
      r.nlimbs = n.nlimbs ∧ ir.nlimbs = n.nlimbs ∧ ir.val < n.val ∧ r.val * ir.val % n.val = 1 % n.val := by
  intro fuel
  induction fuel with
  | zero => intro s r ir s' h; cases h
  | succ f ih =>
    intro s r ir s' h
    rw [blindLoop] at h
    split at h
    · cases h
    · next rv s1 hR =>
      simp only at h
      split at h
      · next ir' hinv =>
        obtain ⟨⟨rfl, rfl⟩, rfl⟩ : (_ = r ∧ ir' = ir) ∧ s1 = s' := by simpa using h
        have hl' : (if (wrap n.nlimbs rv : Uint w).isZero = true then oneWithPrecision n.prec
            else wrap n.nlimbs rv : Uint w).nlimbs = n.nlimbs := by
          split
          · exact limbsFor_mul hw hl
          · rfl
        refine ⟨hl', ?_⟩
        unfold invMod at hinv
        rw [Option.map_eq_some_iff] at hinv
        obtain ⟨iv, hiv, rfl⟩ := hinv
        obtain ⟨hpos, hlt, _, hmul⟩ := natInvMod_some hiv
        refine ⟨rfl, ?_, ?_⟩
        · rw [Uint.wrap_lt_val hlt]; exact hlt
        · rw [Uint.wrap_lt_val hlt]; exact hmul
      · exact ih _ _ _ _ h

theorem wrap_ite_val (hw : 0 < w) (n : Uint w) {rv : Nat} (hrv : rv < n.val) :
    (if (wrap n.nlimbs rv : Uint w).isZero = true then oneWithPrecision n.prec else wrap n.nlimbs rv : Uint w).val
      = if rv = 0 then 1 else rv := by
  have hv : (wrap n.nlimbs rv : Uint w).val = rv := Uint.wrap_lt_val hrv
  unfold isZero
  rw [hv]
  by_cases h0 : rv = 0
  · subst h0
    simp only [beq_self_eq_true, if_true]
    unfold oneWithPrecision
    apply wrap_val_of_lt
    apply Nat.one_lt_two_pow
    unfold limbsFor
    have : 0 < 8 * w * max 1 (divCeil n.prec (8 * w)) := Nat.mul_pos (by omega) (by omega)
    omega
  · simp [h0, hv]

/-- The blinding loop ends exactly as the draws of the generator say. -/
theorem blindLoop_draws {σ : Type} (hw : 0 < w) (R : RngImpl σ) (n : Uint w) (hn : 0 < n.val) {s : σ} {o : Option σ}
    {j : Nat} (h : Spec.Draws R n.val s o j) : ∀ fuel, j ≤ fuel →
      (∀ s', o = some s' → ∃ r ir, blindLoop R n fuel s = .ok ((r, ir), s')) ∧
      (o = none → blindLoop R n fuel s = .err .rng) := by
  induction h with
  | fail s hf =>
    intro fuel hj
    obtain ⟨f, rfl⟩ : ∃ f, fuel = f + 1 := ⟨fuel - 1, by omega⟩
    simp only [blindLoop]
    rcases hR : R.randMod s n.val with ⟨o, s1⟩
    rw [hR] at hf
    simp only at hf
    subst hf
    exact ⟨fun _ h => by simp at h, fun _ => rfl⟩
  | good s r hs hr =>
    intro fuel hj
    obtain ⟨f, rfl⟩ : ∃ f, fuel = f + 1 := ⟨fuel - 1, by omega⟩
    have hlt := R.randMod_lt s n.val r hs hn
    have hval := wrap_ite_val hw n hlt
    simp only [blindLoop]
    rcases hR : R.randMod s n.val with ⟨o, s1⟩
    rw [hR] at hs
    simp only at hs
    subst hs
    simp only
    have hcop : Nat.Coprime (if r = 0 then 1 else r) n.val := by
      split
      · exact Nat.coprime_one_left _
      · next h0 => exact hr.resolve_left h0
    obtain ⟨iv, hiv⟩ := natInvMod_isSome hn hcop
    have : invMod (if (wrap n.nlimbs r : Uint w).isZero = true then oneWithPrecision n.prec else wrap n.nlimbs r) n
        = some (wrap n.nlimbs iv) := by
      unfold invMod; rw [hval, hiv]; rfl
    rw [this]
    exact ⟨fun s' h => ⟨_, _, by rw [Option.some.inj h]⟩, fun h => by simp at h⟩
  | again s r o j hs h0 hr _ ih =>
    intro fuel hj
    obtain ⟨f, rfl⟩ : ∃ f, fuel = f + 1 := ⟨fuel - 1, by omega⟩
    have hlt := R.randMod_lt s n.val r hs hn
    have hval := wrap_ite_val hw n hlt
    have := ih f (by omega)
    simp only [blindLoop]
    rcases hR : R.randMod s n.val with ⟨o', s1⟩
    rw [hR] at hs this
    simp only at hs this
    subst hs
    simp only
    have hnone : invMod (if (wrap n.nlimbs r : Uint w).isZero = true then oneWithPrecision n.prec else wrap n.nlimbs r) n
        = none := by
      unfold invMod
      rw [hval, if_neg h0, (natInvMod_none hn).mpr hr]; rfl
    rw [hnone]
    exact this

/-- The loop cannot do anything but succeed, report an RNG failure, or still be running. -/
theorem blindLoop_outcomes {σ : Type} (R : RngImpl σ) (n : Uint w) : ∀ (fuel : Nat) (s : σ),
    (∃ r ir s', blindLoop R n fuel s = .ok ((r, ir), s')) ∨ blindLoop R n fuel s = .err .rng ∨
      blindLoop R n fuel s = .loop := by
  intro fuel
  induction fuel with
  | zero => intro s; exact Or.inr (Or.inr rfl)
  | succ f ih =>
    intro s
    rw [blindLoop]
    split
    · exact Or.inr (Or.inl rfl)
    · simp only
      split
      · exact Or.inl ⟨_, _, _, rfl⟩
      · exact ih _

theorem powModParams_eq (hw : 0 < w) (k : PubKey w) (x y : Uint w) (hx : x.val < 2 ^ k.n.prec) :
    powModParams x y k.n = .ok (wrap k.n.nlimbs (x.val ^ y.val % k.n.val)) :=
  rsaEncrypt_eq hw ⟨k.n, y, k.odd⟩ x hx

/-- `blind` with `c` at the width of `n`. -/
theorem blind_eq {σ : Type} (hw : 0 < w) (R : RngImpl σ) (fuel : Nat) (s : σ) (k : PubKey w) (c : Uint w)
    (hc : c.nlimbs = k.n.nlimbs) :
    blind R fuel s k c =
      (blindLoop R k.n fuel s >>= fun x =>
        .ok ((wrap k.n.nlimbs (c.val * (x.1.1.val ^ k.e.val % k.n.val) % k.n.val), x.1.2), x.2)) := by
  have hn := k.pos
  unfold blind
  rcases hloop : blindLoop R k.n fuel s with ⟨⟨r, ir⟩, s'⟩ | e | p | _
  · obtain ⟨h1, h2, h3, h4⟩ := blindLoop_ok hw R k.n (nlimbs_pos _ hn) _ _ _ _ _ hloop
    have hrlt : r.val < 2 ^ k.n.prec := by have := r.isLt; rw [h1] at this; exact this
    simp only [Res.ok_bind, powModParams_eq hw k r k.e hrlt]
    rw [mulModParams_eq _ _ k.nParams hc (by rfl), Res.ok_bind]
    have e0 : k.nParams.modulus = k.n := rfl
    rw [e0, Uint.wrap_mod_val k.n hn]
    have e1 : (wrap k.n.nlimbs (c.val * (r.val ^ k.e.val % k.n.val) % k.n.val) : Uint w).prec = k.nBitsPrecision := rfl
    have e2 : ir.prec = k.nBitsPrecision := by
      unfold PubKey.nBitsPrecision prec; rw [h2]
    simp only [e1, e2, ne_eq, not_true_eq_false, if_false]
  · rfl
  · rfl
  · rfl

/-! ## The private exponentiation -/

/-- The exponentiation of a well-formed key computes `c ^ d mod n`, with or without CRT. -/
theorem rsaPrivateExp_eq (hw : 0 < w) {k : PrivKey w} (hk : Spec.WordsWellFormed k) (c : Uint w)
    (hc : c.nlimbs = k.d.nlimbs) (hcn : c.val < k.pub.n.val) :
    ∃ m, rsaPrivateExp k c = .ok m ∧ m.val = c.val ^ k.d.val % k.pub.n.val ∧ k.pub.n.nlimbs ≤ m.nlimbs := by
  have hn := k.pub.pos
  have plain : ∃ m, powModParams c k.d k.pub.n = .ok m ∧ m.val = c.val ^ k.d.val % k.pub.n.val ∧
      k.pub.n.nlimbs ≤ m.nlimbs := by
    rw [powModParams_eq hw k.pub c k.d (hcn.trans k.pub.n.isLt)]
    exact ⟨_, rfl, Uint.wrap_mod_val _ hn _, le_rfl⟩
  cases hpre : k.precomputed with
  | none => unfold rsaPrivateExp; simp only [hpre]; exact plain
  | some pre =>
    by_cases hlen : k.primes.length > 2
    · unfold rsaPrivateExp; simp only [hpre, hlen, decide_true]; exact plain
    · obtain ⟨⟨p, q, rest, hpr, hdp, hdq, hpM, hqM, hinv⟩, hqp, hpw, hqw⟩ := hk.cache pre hpre
      have hrest : rest = [] := by
        rw [hpr] at hlen
        simp at hlen
        exact hlen
      subst hrest
      have hnum := hk.numbers
      rw [hpr] at hnum
      have hpp : p.val.Prime := hnum.prime _ (by simp)
      have hqq : q.val.Prime := hnum.prime _ (by simp)
      have hprod : p.val * q.val = k.pub.n.val := by simpa using hnum.prod
      have hne : p.val ≠ q.val := by simpa using hnum.nodup
      have hcp : c.nlimbs = pre.pParams.modulus.nlimbs := by rw [hpw, hc]
      have hcq : c.nlimbs = pre.qParams.modulus.nlimbs := by rw [hqw, hc]
      have hexp : ∀ r : Nat, r.Prime → k.d.val * k.pub.e.val % (r - 1) = 1 →
          c.val ^ (k.d.val % (r - 1)) ≡ c.val ^ k.d.val [MOD r] := by
        intro r hr he
        have hd0 : k.d.val % (r - 1) ≠ 0 := by
          intro h0
          rw [Nat.mul_mod, h0] at he
          simp at he
        apply pow_modEq_of_exp hr _ _ _ (Nat.pos_of_ne_zero hd0)
        · rcases Nat.eq_zero_or_pos k.d.val with h | h
          · rw [h] at hd0; simp at hd0
          · exact h
        · exact Nat.mod_modEq _ _
      have hxp := hexp p.val hpp (hnum.exp _ (by simp))
      have hxq := hexp q.val hqq (hnum.exp _ (by simp))
      set m2 : Uint w := wrap pre.qParams.modulus.nlimbs (c.val ^ pre.dq.val % q.val) with hm2
      have hm2v : m2.val = c.val ^ pre.dq.val % q.val := by
        have := Uint.wrap_mod_val pre.qParams.modulus (by rw [hqM]; exact hqq.pos) (c.val ^ pre.dq.val)
        rw [hqM] at this; exact this
      have hm2p : m2.nlimbs = pre.pParams.modulus.nlimbs := by
        show pre.qParams.modulus.nlimbs = pre.pParams.modulus.nlimbs
        rw [hqw, hpw]
      have hcomb := crt_combine p.val q.val (c.val ^ pre.dp.val) m2.val pre.qinv.res hpp.pos
        (by rw [hm2v]; exact Nat.mod_lt _ hqq.pos) hinv
      set h := pre.qinv.res * ((c.val ^ pre.dp.val % p.val + p.val - m2.val % p.val) % p.val) % p.val with hh
      obtain ⟨hlt, hmp, hmq⟩ := hcomb
      have hpre2 : rsaPrivateExp k c =
          .ok (((wrap pre.pParams.modulus.nlimbs h : Uint w).wrappingMul q).wrappingAdd m2) := by
        unfold rsaPrivateExp
        simp only [hpre, hlen, decide_false]
        rw [hpr]
        simp only [primeAt, List.getElem?_cons_zero, List.getElem?_cons_succ, Res.ok_bind]
        rw [Monty.new_eq hcp, Monty.new_eq hcq]
        simp only [Res.ok_bind, Monty.pow, MontyForm.powMod_eq, ← Nat.pow_mod, hpM, hqM, Monty.retrieve]
        rw [← hm2, Monty.new_eq hm2p, Res.ok_bind, Monty.sub_eq (by rfl), Res.ok_bind, Monty.mul_eq hqp,
          Res.ok_bind]
        simp only [hqp, hpM, Nat.mod_mod]
        rfl
      refine ⟨_, hpre2, ?_, ?_⟩
      · have hnd : (2 : Nat) ^ (8 * w * k.pub.n.nlimbs) ≤ 2 ^ (8 * w * k.d.nlimbs) :=
          Nat.pow_le_pow_right (by norm_num) (Nat.mul_le_mul_left _ hk.width)
        have hbig : h * q.val + m2.val < 2 ^ (8 * w * k.d.nlimbs) := by
          calc _ < p.val * q.val := hlt
            _ = k.pub.n.val := hprod
            _ < _ := lt_of_lt_of_le k.pub.n.isLt hnd
        have hhp : h < p.val := Nat.mod_lt _ hpp.pos
        have hq1 : 1 ≤ q.val := hqq.pos
        have hhlt : h < 2 ^ (8 * w * k.d.nlimbs) := by nlinarith
        have v1 : (wrap pre.pParams.modulus.nlimbs h : Uint w).val = h := by
          rw [hpw]; exact wrap_val_of_lt hhlt
        have v2 : ((wrap pre.pParams.modulus.nlimbs h : Uint w).wrappingMul q).val = h * q.val := by
          unfold wrappingMul
          rw [v1, wrap_nlimbs, hpw]
          exact wrap_val_of_lt (by omega)
        have v3 : (((wrap pre.pParams.modulus.nlimbs h : Uint w).wrappingMul q).wrappingAdd m2).val
            = h * q.val + m2.val := by
          unfold wrappingAdd
          rw [v2]
          apply wrap_val_of_lt
          have : max ((wrap pre.pParams.modulus.nlimbs h : Uint w).wrappingMul q).nlimbs m2.nlimbs = k.d.nlimbs := by
            show max pre.pParams.modulus.nlimbs pre.qParams.modulus.nlimbs = _
            rw [hpw, hqw, max_self]
          rw [this]; exact hbig
        rw [v3]
        have key : h * q.val + m2.val ≡ c.val ^ k.d.val [MOD p.val * q.val] := by
          rw [← Nat.modEq_and_modEq_iff_modEq_mul ((Nat.coprime_primes hpp hqq).mpr hne)]
          constructor
          · rw [hdp] at hmp; exact hmp.trans hxp
          · refine hmq.trans ?_
            rw [hm2v]
            refine (Nat.mod_modEq _ _).trans ?_
            rw [hdq]; exact hxq
        rw [hprod] at key
        rw [← key]
        exact (Nat.mod_eq_of_lt (by rw [← hprod]; exact hlt)).symm
      · show k.pub.n.nlimbs ≤ max pre.pParams.modulus.nlimbs pre.qParams.modulus.nlimbs
        rw [hpw, hqw, max_self]; exact hk.width

theorem wf_rsa {k : PrivKey w} (hk : Spec.WordsWellFormed k) (m : Nat) :
    m ^ (k.d.val * k.pub.e.val) ≡ m [MOD k.pub.n.val] := by
  rw [← hk.numbers.prod]
  apply rsa_exp _ _ _ _ hk.numbers.prime hk.numbers.nodup ?_
  · intro p hp
    rw [hk.numbers.exp p hp]
    exact (one_mod_of (hk.numbers.exp p hp)).symm
  · intro p hp h2
    subst h2
    have := hk.numbers.exp 2 hp
    omega

theorem rsaDecrypt_ge {σ : Type} (R : RngImpl σ) (fuel : Nat) (rng : Option σ) (k : PrivKey w) (c : Uint w)
    (hc : k.pub.n.val ≤ c.val) : rsaDecrypt R fuel rng k c = .err .decryption := by
  unfold rsaDecrypt
  have : c.ge k.pub.n = true := by simp [ge, lt, hc]
  simp [this]

theorem rsaDecrypt_none {σ : Type} (hw : 0 < w) (R : RngImpl σ) (fuel : Nat) {k : PrivKey w}
    (hk : Spec.WordsWellFormed k) (c : Uint w) (hcw : c.nlimbs ≤ k.d.nlimbs) (hc : c.val < k.pub.n.val) :
    rsaDecrypt R fuel none k c = .ok (wrap k.pub.n.nlimbs (c.val ^ k.d.val % k.pub.n.val), none) := by
  have hl := nlimbs_pos _ k.pub.pos
  have hdl : 1 ≤ k.d.nlimbs := le_trans hl hk.width
  unfold rsaDecrypt
  have hge : c.ge k.pub.n = false := by simp [ge, lt, hc]
  simp only [hge, Bool.false_eq_true, if_false]
  obtain ⟨z, hz, hzv, hzl⟩ := Uint.widen_to hw hdl hcw
  rw [hz, Res.ok_bind]
  obtain ⟨m, hm, hv, hlm⟩ := rsaPrivateExp_eq hw hk z hzl (by rw [hzv]; exact hc)
  have hsh : m.shorten k.pub.nParams.prec = .ok (wrap k.pub.n.nlimbs m.val) := by
    have h1 := Uint.shorten_of_le (show k.pub.n.prec ≤ m.prec from prec_le hlm)
    rw [show limbsFor w k.pub.n.prec = k.pub.n.nlimbs from limbsFor_mul hw hl] at h1
    exact h1
  rw [hm, Res.ok_bind, hsh, Res.ok_bind, hv, hzv]

theorem rsaDecrypt_some {σ : Type} (hw : 0 < w) (R : RngImpl σ) (fuel : Nat) (s : σ) {k : PrivKey w}
    (hk : Spec.WordsWellFormed k) (c : Uint w) (hcw : c.nlimbs = k.pub.n.nlimbs) (hc : c.val < k.pub.n.val) :
    rsaDecrypt R fuel (some s) k c = (blindLoop R k.pub.n fuel s >>= fun x =>
      .ok (wrap k.pub.n.nlimbs (c.val ^ k.d.val % k.pub.n.val), some x.2)) := by
  have hn := k.pub.pos
  have hl := nlimbs_pos _ hn
  have hdl : 1 ≤ k.d.nlimbs := le_trans hl hk.width
  unfold rsaDecrypt
  have hge : c.ge k.pub.n = false := by simp [ge, lt, hc]
  simp only [hge, Bool.false_eq_true, if_false]
  rw [blind_eq hw R fuel s k.pub c hcw]
  rcases hloop : blindLoop R k.pub.n fuel s with ⟨⟨r, ir⟩, s'⟩ | e | p | _
  · obtain ⟨h1, h2, h3, h4⟩ := blindLoop_ok hw R k.pub.n hl _ _ _ _ _ hloop
    simp only [Res.ok_bind]
    set b : Uint w := wrap k.pub.n.nlimbs (c.val * (r.val ^ k.pub.e.val % k.pub.n.val) % k.pub.n.val) with hb
    have hbv : b.val = c.val * (r.val ^ k.pub.e.val % k.pub.n.val) % k.pub.n.val := Uint.wrap_mod_val _ hn _
    obtain ⟨z, hz, hzv, hzl⟩ := Uint.widen_to hw (x := b) hdl hk.width
    rw [hz, Res.ok_bind]
    obtain ⟨m, hm, hv, hlm⟩ := rsaPrivateExp_eq hw hk z hzl (by rw [hzv, hbv]; exact Nat.mod_lt _ hn)
    have hsh : m.shorten k.pub.nParams.prec = .ok (wrap k.pub.n.nlimbs m.val) := by
      have h1 := Uint.shorten_of_le (show k.pub.n.prec ≤ m.prec from prec_le hlm)
      rw [show limbsFor w k.pub.n.prec = k.pub.n.nlimbs from limbsFor_mul hw hl] at h1
      exact h1
    rw [hm, Res.ok_bind, hsh, Res.ok_bind, hv, hzv, hbv]
    have e0 : k.pub.nParams.modulus = k.pub.n := rfl
    have hpi : ir.prec = k.pub.n.prec := by unfold prec; rw [h2]
    have hpp : k.pub.nParams.prec = k.pub.n.prec := rfl
    unfold unblind
    rw [hpi, hpp, show (wrap k.pub.n.nlimbs ((c.val * (r.val ^ k.pub.e.val % k.pub.n.val) % k.pub.n.val) ^ k.d.val
        % k.pub.n.val) : Uint w).prec = k.pub.n.prec from rfl]
    simp only [ne_eq, not_true_eq_false, if_false]
    rw [mulModParams_eq _ _ k.pub.nParams (by rfl) h2, Res.ok_bind, e0, Uint.wrap_mod_val _ hn]
    rw [unblind_nat k.pub.n.val k.pub.e.val k.d.val c.val r.val ir.val ?_ h4]
    have h5 : (r.val ^ k.pub.e.val) ^ k.d.val ≡ r.val [MOD k.pub.n.val] := by
      rw [← pow_mul, mul_comm k.pub.e.val]; exact wf_rsa hk _
    rw [mul_pow]
    exact h5.mul_left _
  · rfl
  · rfl
  · rfl

theorem check_eq (hw : 0 < w) {k : PrivKey w} (hk : Spec.WordsWellFormed k) (c : Uint w)
    (hcw : c.nlimbs = k.pub.n.nlimbs) (hc : c.val < k.pub.n.val) :
    rsaEncrypt k.pub (wrap k.pub.n.nlimbs (c.val ^ k.d.val % k.pub.n.val)) = .ok c := by
  have hn := k.pub.pos
  rw [rsaEncrypt_eq hw _ _ (by rw [Uint.wrap_mod_val _ hn]; exact lt_trans (Nat.mod_lt _ hn) k.pub.n.isLt),
    Uint.wrap_mod_val _ hn]
  congr 1
  apply ext_val
  · exact hcw.symm
  · rw [Uint.wrap_mod_val _ hn, ← Nat.pow_mod, ← pow_mul, wf_rsa hk, Nat.mod_eq_of_lt hc]

/-- The checked operation of a well-formed key, when blinding succeeds. -/
theorem rsaDecryptAndCheck_ok {σ : Type} (hw : 0 < w) (R : RngImpl σ) (fuel : Nat) (rng : Option σ) {k : PrivKey w}
    (hk : Spec.WordsWellFormed k) (c : Uint w) (hcw : c.nlimbs = k.pub.n.nlimbs) (hc : c.val < k.pub.n.val)
    (hb : Spec.BlindingOk R k.pub.n.val fuel rng) :
    ∃ rng', rsaDecryptAndCheck R fuel k rng c = .ok (wrap k.pub.n.nlimbs (c.val ^ k.d.val % k.pub.n.val), rng') := by
  have hbeq : c.beq c = true := by simp [Uint.beq]
  unfold rsaDecryptAndCheck
  cases rng with
  | none =>
    rw [rsaDecrypt_none hw R fuel hk c (by rw [hcw]; exact hk.width) hc]
    simp only [Res.ok_bind, check_eq hw hk c hcw hc, hbeq]
    exact ⟨_, rfl⟩
  | some s =>
    obtain ⟨s', j, hd, hj⟩ := hb
    obtain ⟨r, ir, hl⟩ := (blindLoop_draws hw R k.pub.n k.pub.pos hd fuel hj).1 s' rfl
    rw [rsaDecrypt_some hw R fuel s hk c hcw hc, hl]
    simp only [Res.ok_bind, check_eq hw hk c hcw hc, hbeq]
    exact ⟨_, rfl⟩

/-- The checked operation of a well-formed key, whatever the generator does. -/
theorem rsaDecryptAndCheck_cases {σ : Type} (hw : 0 < w) (R : RngImpl σ) (fuel : Nat) (rng : Option σ) {k : PrivKey w}
    (hk : Spec.WordsWellFormed k) (c : Uint w) (hcw : c.nlimbs = k.pub.n.nlimbs) (hc : c.val < k.pub.n.val) :
    (∃ rng', rsaDecryptAndCheck R fuel k rng c =
        .ok (wrap k.pub.n.nlimbs (c.val ^ k.d.val % k.pub.n.val), rng')) ∨
      (rng.isSome ∧ rsaDecryptAndCheck R fuel k rng c = .err .rng) ∨
      (rng.isSome ∧ rsaDecryptAndCheck R fuel k rng c = .loop) := by
  cases rng with
  | none => exact Or.inl (rsaDecryptAndCheck_ok hw R fuel none hk c hcw hc trivial)
  | some s =>
    have hbeq : c.beq c = true := by simp [Uint.beq]
    rcases blindLoop_outcomes R k.pub.n fuel s with ⟨r, ir, s', h⟩ | h | h
    · left
      unfold rsaDecryptAndCheck
      rw [rsaDecrypt_some hw R fuel s hk c hcw hc, h]
      simp only [Res.ok_bind, check_eq hw hk c hcw hc, hbeq]
      exact ⟨_, rfl⟩
    · refine Or.inr (Or.inl ⟨rfl, ?_⟩)
      unfold rsaDecryptAndCheck
      rw [rsaDecrypt_some hw R fuel s hk c hcw hc, h]; rfl
    · refine Or.inr (Or.inr ⟨rfl, ?_⟩)
      unfold rsaDecryptAndCheck
      rw [rsaDecrypt_some hw R fuel s hk c hcw hc, h]; rfl

theorem rsaDecryptAndCheck_ge {σ : Type} (R : RngImpl σ) (fuel : Nat) (rng : Option σ) (k : PrivKey w) (c : Uint w)
    (hc : k.pub.n.val ≤ c.val) : rsaDecryptAndCheck R fuel k rng c = .err .decryption := by
  unfold rsaDecryptAndCheck
  rw [rsaDecrypt_ge R fuel rng k c hc]; rfl

theorem uintToZeroizingBePad_eq (x : Uint w) (k : Nat) :
    uintToZeroizingBePad x k = if x.val < 256 ^ k then .ok (beBytes k x.val) else .err .invalidPadLen :=
  uintToBePad_eq x k

theorem fromBeSlice_prec (hw : 0 < w) (k : PubKey w) (b : Bytes) :
    fromBeSlice w b k.nBitsPrecision =
      if b.length ≤ w * k.n.nlimbs then .ok (wrap k.n.nlimbs (beVal b)) else .err (.decode .inputSize) := by
  have hdc : divCeil k.nBitsPrecision 8 = w * k.n.nlimbs := by
    unfold divCeil PubKey.nBitsPrecision prec; rw [Nat.mul_assoc]; omega
  have hlf : limbsFor w k.nBitsPrecision = k.n.nlimbs := limbsFor_mul hw (nlimbs_pos _ k.pos)
  unfold fromBeSlice
  rw [hdc, hlf]
  by_cases h : b.length ≤ w * k.n.nlimbs
  · rw [if_pos h, if_neg (by omega)]
    dsimp only
    rw [if_neg]
    rw [Nat.not_lt, bits_le_iff]
    exact (wrap k.n.nlimbs (beVal b) : Uint w).isLt
  · rw [if_neg h, if_pos (by omega)]

theorem beVal_lt_words {k : PubKey w} {b : Bytes} (h : b.length ≤ w * k.n.nlimbs) :
    (wrap k.n.nlimbs (beVal b) : Uint w).val = beVal b := by
  apply wrap_val_of_lt
  have := beVal_lt b
  rw [pow256] at this
  refine this.trans_le (Nat.pow_le_pow_right (by norm_num) ?_)
  rw [Nat.mul_assoc]; omega

/-- The private operation from octets to octets, when blinding succeeds. -/
theorem privateBytes_ok {σ α : Type} (hw : 0 < w) (R : RngImpl σ) (fuel : Nat) (rng : Option σ) {k : PrivKey w}
    (hk : Spec.WordsWellFormed k) (hb : Spec.BlindingOk R k.pub.n.val fuel rng) (b : Bytes) (f : Bytes → Res α) :
    (do let c ← fromBeSlice w b k.pub.nBitsPrecision
        let (m, _) ← rsaDecryptAndCheck R fuel k rng c
        let em ← uintToZeroizingBePad m k.pub.size
        f em) =
      if b.length ≤ w * k.pub.n.nlimbs then
        if beVal b < k.pub.n.val then f (beBytes k.pub.size (beVal b ^ k.d.val % k.pub.n.val)) else .err .decryption
      else .err (.decode .inputSize) := by
  rw [fromBeSlice_prec hw]
  by_cases h : b.length ≤ w * k.pub.n.nlimbs
  · have hv := beVal_lt_words h
    rw [if_pos h, if_pos h, Res.ok_bind]
    by_cases hlt : beVal b < k.pub.n.val
    · obtain ⟨r, hr⟩ := rsaDecryptAndCheck_ok hw R fuel rng hk (wrap k.pub.n.nlimbs (beVal b)) rfl
        (by rw [hv]; exact hlt) hb
      have hm : beVal b ^ k.d.val % k.pub.n.val < k.pub.n.val := Nat.mod_lt _ k.pub.pos
      rw [hr, hv, if_pos hlt]
      simp only [Res.ok_bind]
      rw [uintToZeroizingBePad_eq, Uint.wrap_mod_val _ k.pub.pos, if_pos (hm.trans k.pub.lt_pow), Res.ok_bind]
    · rw [rsaDecryptAndCheck_ge R fuel rng k _ (by rw [hv]; omega), if_neg hlt]
      rfl
  · rw [if_neg h, if_neg h]
    rfl

theorem wrappingDec_val (hw : 0 < w) {x : Uint w} (h : 0 < x.val) : x.wrappingDec.val = x.val - 1 := by
  have h1 : 1 % 2 ^ (8 * w * x.nlimbs) = 1 := by
    apply Nat.mod_eq_of_lt
    apply Nat.one_lt_two_pow
    have := nlimbs_pos x h
    have : 0 < 8 * w * x.nlimbs := Nat.mul_pos (by omega) this
    omega
  have h2 := x.isLt
  show (x.val + 2 ^ (8 * w * x.nlimbs) - 1 % 2 ^ (8 * w * x.nlimbs)) % 2 ^ (8 * w * x.nlimbs) = _
  rw [h1, show x.val + 2 ^ (8 * w * x.nlimbs) - 1 = (x.val - 1) + 2 ^ (8 * w * x.nlimbs) by omega, Nat.add_mod_right,
    Nat.mod_eq_of_lt (by omega)]

theorem rem_val (x y : Uint w) (hy : 0 < y.val) : (x.rem y).val = x.val % y.val := Uint.wrap_mod_val y hy _

/-- What `precompute` computes for two odd coprime factors no wider than `d`. -/
theorem precomputeValues_exists (hw : 0 < w) {d p q : Uint w} {rest : List (Uint w)} (hd : 1 ≤ d.nlimbs)
    (hpl : p.nlimbs ≤ d.nlimbs) (hql : q.nlimbs ≤ d.nlimbs) (hpo : p.val % 2 = 1) (hqo : q.val % 2 = 1)
    (hp1 : 1 < p.val) (hq1 : 1 < q.val) (hco : Nat.Coprime q.val p.val) :
    ∃ pre, precomputeValues d (p :: q :: rest) = .ok pre ∧
      pre.dp.val = d.val % (p.val - 1) ∧ pre.dq.val = d.val % (q.val - 1) ∧
      pre.pParams.modulus.val = p.val ∧ pre.qParams.modulus.val = q.val ∧
      pre.qinv.res * q.val % p.val = 1 ∧ pre.qinv.params = pre.pParams ∧
      pre.pParams.modulus.nlimbs = d.nlimbs ∧ pre.qParams.modulus.nlimbs = d.nlimbs := by
  obtain ⟨p', hp', hpv, hpn⟩ := Uint.widen_to hw hd hpl
  obtain ⟨q', hq', hqv, hqn⟩ := Uint.widen_to hw hd hql
  have o1 : oddOrInvalid p' = .ok ⟨p', by rw [hpv]; exact hpo⟩ := by simp [oddOrInvalid, hpv, hpo]
  have o2 : oddOrInvalid q' = .ok ⟨q', by rw [hqv]; exact hqo⟩ := by simp [oddOrInvalid, hqv, hqo]
  have hx := wrappingDec_val hw (x := p') (by omega)
  have hy := wrappingDec_val hw (x := q') (by omega)
  have n1 : nonZeroOrInvalid p'.wrappingDec = .ok p'.wrappingDec := by
    unfold nonZeroOrInvalid; rw [if_neg (by rw [hx]; omega)]
  have n2 : nonZeroOrInvalid q'.wrappingDec = .ok q'.wrappingDec := by
    unfold nonZeroOrInvalid; rw [if_neg (by rw [hy]; omega)]
  have hcop : Nat.Coprime (q'.val % p'.val) p'.val := by
    rw [hpv, hqv]
    unfold Nat.Coprime at *
    rw [← Nat.gcd_rec, Nat.gcd_comm]; exact hco
  obtain ⟨iv, hiv⟩ := natInvMod_isSome (a := q'.val % p'.val) (m := p'.val) (by omega) hcop
  obtain ⟨-, -, -, hmul⟩ := natInvMod_some hiv
  have hmul' : iv * q.val % p.val = 1 := by
    rw [hqv, hpv, Nat.mod_mul_mod, Nat.mul_comm, Nat.mod_eq_of_lt hp1] at hmul
    exact hmul
  refine ⟨⟨d.rem p'.wrappingDec, d.rem q'.wrappingDec, ⟨⟨p', by rw [hpv]; exact hpo⟩, iv⟩, ⟨p', by rw [hpv]; exact hpo⟩,
    ⟨q', by rw [hqv]; exact hqo⟩⟩, ?_, ?_, ?_, hpv, hqv, hmul', rfl, hpn, hqn⟩
  · unfold precomputeValues
    simp only [primeAt, List.getElem?_cons_zero, List.getElem?_cons_succ, Res.ok_bind]
    rw [hp', Res.ok_bind, hq', Res.ok_bind, o1, Res.ok_bind, o2, Res.ok_bind, n1, Res.ok_bind, n2, Res.ok_bind,
      Monty.new_eq (by rw [hqn, hpn]), Res.ok_bind]
    simp only [Monty.invert, hiv, Option.map_some]
    rw [if_neg]
    have e1 : (d.rem p'.wrappingDec).prec = d.prec := by
      show 8 * w * p'.nlimbs = _; rw [hpn]; rfl
    have e2 : (d.rem q'.wrappingDec).prec = d.prec := by
      show 8 * w * q'.nlimbs = _; rw [hqn]; rfl
    have e3 : p'.prec = d.prec := by unfold prec; rw [hpn]
    have e4 : q'.prec = d.prec := by unfold prec; rw [hqn]
    unfold Params.prec
    simp [e1, e2, e3, e4]
  · show (d.rem p'.wrappingDec).val = _
    rw [rem_val _ _ (by rw [hx]; omega), hx, hpv]
  · show (d.rem q'.wrappingDec).val = _
    rw [rem_val _ _ (by rw [hy]; omega), hy, hqv]

theorem pkcs1v15Sign_shape (k : PubKey w) {t em : Bytes} (hem : Spec.emsaPkcs1v15 t (Spec.octetLen k.n.val) = some em) :
    em.length = Spec.octetLen k.n.val ∧ beVal em < k.n.val := by
  have hshape : em.length = Spec.octetLen k.n.val ∧ em.head? = some 0 := by
    unfold Spec.emsaPkcs1v15 at hem
    split at hem
    · obtain rfl := Option.some.inj hem
      refine ⟨?_, rfl⟩
      simp at *; omega
    · cases hem
  refine ⟨hshape.1, ?_⟩
  obtain ⟨rest, rfl⟩ : ∃ rest, em = 0 :: rest := by
    cases em with
    | nil => simp at hshape
    | cons a l => exact ⟨l, by have := hshape.2; simp at this; rw [this]⟩
  have h1 : beVal (0 :: rest) = beVal rest := by simp [beVal]
  have h2 := beVal_lt rest
  rw [h1]
  refine h2.trans_le ?_
  have hlen := hshape.1
  simp only [List.length_cons] at hlen
  rw [pow256]
  have h3 : 8 * rest.length < k.n.val.size := by
    unfold Spec.octetLen at hlen
    omega
  exact Nat.lt_size.mp h3

theorem pkcs1v15Sign_eq {σ : Type} (hw : 0 < w) (R : RngImpl σ) (fuel : Nat) (rng : Option σ) {k : PrivKey w}
    (hk : Spec.WordsWellFormed k) (pfx hashed : Bytes) (hb : Spec.BlindingOk R k.pub.n.val fuel rng) :
    pkcs1v15Sign R fuel rng k pfx hashed =
      match Spec.emsaPkcs1v15 (pfx ++ hashed) k.pub.size with
      | some em => .ok (beBytes k.pub.size (beVal em ^ k.d.val % k.pub.n.val))
      | none => .err .messageTooLong := by
  unfold pkcs1v15Sign
  rw [pkcs1v15SignPad_eq]
  cases hem : Spec.emsaPkcs1v15 (pfx ++ hashed) k.pub.size with
  | none => rfl
  | some em =>
    obtain ⟨hlen, hlt⟩ := pkcs1v15Sign_shape k.pub (k.pub.size_eq ▸ hem)
    have := privateBytes_ok hw R fuel rng hk hb em Res.ok
    rw [if_pos (by rw [hlen, ← k.pub.size_eq]; exact k.pub.size_le), if_pos hlt] at this
    simp only [Res.ok_bind]
    rw [← this]
    cases fromBeSlice w em k.pub.nBitsPrecision with
    | ok c =>
      simp only [Res.ok_bind]
      cases rsaDecryptAndCheck R fuel k rng c with
      | ok x =>
        simp only [Res.ok_bind]
        cases uintToZeroizingBePad x.1 k.pub.size <;> rfl
      | _ => rfl
    | _ => rfl

theorem signPssWithSalt_eq {σ : Type} (hw : 0 < w) (R : RngImpl σ) (fuel : Nat) (rng : Option σ) {k : PrivKey w}
    (hk : Spec.WordsWellFormed k) (hashed salt : Bytes) (D : HashFn) (hpos : 0 < D.outLen)
    (hp : k.pub.n.val.size < 2 ^ 32) (hh : hashed.length = D.outLen) (hadd : D.outLen + salt.length + 2 < 2 ^ 64)
    (hb : Spec.BlindingOk R k.pub.n.val fuel rng) :
    signPssWithSalt R fuel rng k hashed salt (DigestState.new D) =
      match Spec.emsaPss D.hash D.mgf D.outLen hashed salt (k.pub.n.val.size - 1) with
      | some em => .ok (beBytes k.pub.size (beVal em ^ k.d.val % k.pub.n.val))
      | none => .err .internal := by
  have hbp : 0 < k.pub.n.val.size := Nat.size_pos.mpr k.pub.pos
  unfold signPssWithSalt
  rw [bits_eq_size, subU_of_le (by omega), Res.ok_bind, emsaPssEncode_eq hashed _ salt D hpos hh hadd (by omega)]
  cases hem : Spec.emsaPss D.hash D.mgf D.outLen hashed salt (k.pub.n.val.size - 1) with
  | none => rfl
  | some em =>
    have hlt : beVal em < k.pub.n.val :=
      lt_of_lt_of_le (emsaPss_lt hpos hem) (Nat.lt_size.mp (by omega))
    have hle : em.length ≤ w * k.pub.n.nlimbs := by
      refine le_trans ?_ k.pub.size_le
      rw [(emsaPss_length hpos hem).1, k.pub.size_eq]
      unfold Spec.octetLen; omega
    have := privateBytes_ok hw R fuel rng hk hb em Res.ok
    rw [if_pos hle, if_pos hlt] at this
    simp only [Res.ok_bind]
    rw [← this]
    cases fromBeSlice w em k.pub.nBitsPrecision with
    | ok c =>
      simp only [Res.ok_bind]
      cases rsaDecryptAndCheck R fuel k rng c with
      | ok x =>
        simp only [Res.ok_bind]
        cases uintToZeroizingBePad x.1 k.pub.size <;> rfl
      | _ => rfl
    | _ => rfl

end words
end RSA
