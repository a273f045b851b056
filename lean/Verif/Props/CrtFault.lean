import Verif.Spec.CrtFault
import Verif.Props.RawPrivate
import Mathlib.GroupTheory.SpecificGroups.Cyclic
import Mathlib.RingTheory.IntegralDomain
import Mathlib.Data.Nat.Periodic
import Mathlib.Data.Set.Card

/-
C100: what a fault in the cached CRT values does to the private operation.
-/
namespace RSA
open BoxedUint Spec

/-! ### What is computed -/

/-- The number computed from the cached values. -/
def crtNat (p q a b u c : Nat) : Nat := u * ((c ^ a % p + p - c ^ b % q % p) % p) % p * q + c ^ b % q

theorem crtNat_int (p q a b u c : Nat) (hp : 0 < p) : (crtNat p q a b u c : Int) = crtWith p q a b u c := by
  have h := garner_h p (c ^ a) (c ^ b % q) u hp
  unfold crtNat crtWith
  dsimp only
  push_cast at h ⊢
  rw [h]
  ring

theorem crtNat_lt {p q : Nat} (hp : 0 < p) (hq : 0 < q) (a b u c : Nat) : crtNat p q a b u c < p * q := by
  unfold crtNat
  have h1 := Nat.mod_lt (u * ((c ^ a % p + p - c ^ b % q % p) % p)) hp
  have h2 := Nat.mod_lt (c ^ b) hq
  calc _ < u * ((c ^ a % p + p - c ^ b % q % p) % p) % p * q + q := by omega
    _ = (u * ((c ^ a % p + p - c ^ b % q % p) % p) % p + 1) * q := by ring
    _ ≤ p * q := Nat.mul_le_mul_right _ h1

/-- Modulo `q` only `b` matters. -/
theorem crtNat_q (p q a b u c : Nat) : crtNat p q a b u c ≡ c ^ b [MOD q] := by
  unfold crtNat Nat.ModEq
  rw [Nat.add_mod, Nat.mul_mod_left, zero_add, Nat.mod_mod, Nat.mod_mod]

/-- Modulo `p` only `a` matters if the coefficient is right. -/
theorem crtNat_p {p q u : Nat} (hp : 0 < p) (hu : u * q % p = 1 % p) (a b c : Nat) :
    crtNat p q a b u c ≡ c ^ a [MOD p] := by
  have hb : c ^ b % q % p ≤ c ^ a % p + p := le_trans (Nat.mod_lt _ hp).le (Nat.le_add_left _ _)
  unfold crtNat
  rw [← Int.natCast_modEq_iff]
  push_cast [Nat.cast_sub hb]
  have hu' : (u : Int) * q ≡ 1 [ZMOD p] := by
    have : u * q ≡ 1 [MOD p] := hu
    have := (Int.natCast_modEq_iff).mpr this
    push_cast at this
    exact this
  set x : Int := (c : Int) ^ a
  set y : Int := (c : Int) ^ b % q
  have h1 : (u : Int) * ((x % p + p - y % p) % p) % p * q ≡ (u * q) * (x - y) [ZMOD p] := by
    have h2 : (u : Int) * ((x % p + p - y % p) % p) % p ≡ u * (x - y) [ZMOD p] := by
      refine (Int.mod_modEq _ _).trans (Int.ModEq.mul_left _ ?_)
      refine (Int.mod_modEq _ _).trans ?_
      refine Int.ModEq.sub ?_ (Int.mod_modEq _ _)
      simp [Int.ModEq]
    calc _ ≡ u * (x - y) * q [ZMOD p] := h2.mul_right _
      _ = (u * q) * (x - y) := by ring
  calc _ ≡ (u * q) * (x - y) + y [ZMOD p] := h1.add_right _
    _ ≡ 1 * (x - y) + y [ZMOD p] := (hu'.mul_right _).add_right _
    _ = x := by ring

section
variable {k f : PrivateKey} {p q : BoxedUint} {a b u : Nat}

theorem faulted_exp (hk : WellFormed k) (hf : Faulted k f p q a b u) (c : BoxedUint) (hc : c.nlimbs = f.d.nlimbs) :
    ∃ m, rsaPrivateExp f c = .ok m ∧ m.nlimbs = f.d.nlimbs ∧ m.val = crtNat p.val q.val a b u c.val := by
  obtain ⟨hpub, hd, hpr0, hpr, pre, hpre, rfl, rfl, rfl, hqp, hpm, hpw, hqm, hqw⟩ := hf
  rw [← hd] at hpw hqw
  have hpM : pre.pParams.mod = p.val := hpm
  have hqM : pre.qParams.mod = q.val := hqm
  have hp0 : 0 < p.val := by
    have := pre.pParams.modulus.odd
    rw [hpm] at this; omega
  have hq0 : 0 < q.val := by
    have := pre.qParams.modulus.odd
    rw [hqm] at this; omega
  have hcp : c.prec = pre.pParams.prec := by unfold MontyParams.prec prec; rw [hpw, hc]
  have hcq : c.prec = pre.qParams.prec := by unfold MontyParams.prec prec; rw [hqw, hc]
  have hlen : ¬ f.primes.length > 2 := by rw [hpr]; simp
  set m2 : BoxedUint := wrap pre.qParams.modulus.toBoxedUint.nlimbs (c.val ^ pre.dq.val % q.val) with hm2
  have hm2v : m2.val = c.val ^ pre.dq.val % q.val := by
    have := mod_val pre.qParams (c.val ^ pre.dq.val)
    rw [hqM] at this; exact this
  have hm2p : m2.prec = pre.pParams.prec := by
    show 64 * pre.qParams.modulus.toBoxedUint.nlimbs = 64 * pre.pParams.modulus.toBoxedUint.nlimbs
    rw [hqw, hpw]
  set h := pre.qinv.res * ((c.val ^ pre.dp.val % p.val + p.val - m2.val % p.val) % p.val) % p.val with hh
  have hrun : rsaPrivateExp f c = .ok (((wrap pre.pParams.modulus.toBoxedUint.nlimbs h).wrappingMul q).wrappingAdd m2) := by
    unfold rsaPrivateExp
    simp only [hpre, hlen, decide_false]
    rw [hpr]
    simp only [primeAt, List.getElem?_cons_zero, List.getElem?_cons_succ, Res.ok_bind]
    rw [MontyForm.new_eq hcp, MontyForm.new_eq hcq]
    simp only [Res.ok_bind, MontyForm.pow, MontyForm.powMod_eq, ← Nat.pow_mod, hpM, hqM, MontyForm.retrieve]
    rw [← hm2, MontyForm.new_eq hm2p, Res.ok_bind, MontyForm.sub_eq (by rfl), Res.ok_bind, MontyForm.mul_eq hqp,
      Res.ok_bind]
    simp only [hqp, hpM, Nat.mod_mod]
    rfl
  refine ⟨_, hrun, ?_, ?_⟩
  · show max pre.pParams.modulus.toBoxedUint.nlimbs pre.qParams.modulus.toBoxedUint.nlimbs = _
    rw [hpw, hqw, max_self]
  · have hv : (((wrap pre.pParams.modulus.toBoxedUint.nlimbs h).wrappingMul q).wrappingAdd m2).val
        = (h * q.val + m2.val) % 2 ^ (64 * f.d.nlimbs) := by
      show ((h % 2 ^ (64 * pre.pParams.modulus.toBoxedUint.nlimbs) * q.val) %
        2 ^ (64 * pre.pParams.modulus.toBoxedUint.nlimbs) + m2.val) %
        2 ^ (64 * max pre.pParams.modulus.toBoxedUint.nlimbs pre.qParams.modulus.toBoxedUint.nlimbs) = _
      rw [hpw, hqw, max_self]
      simp [Nat.add_mod, Nat.mul_mod]
    have hx : h * q.val + m2.val = crtNat p.val q.val pre.dp.val pre.dq.val pre.qinv.res c.val := by
      rw [hh, hm2v]; rfl
    rw [hv, hx]
    apply Nat.mod_eq_of_lt
    have h1 := crtNat_lt hp0 hq0 pre.dp.val pre.dq.val pre.qinv.res c.val
    have h2 : p.val * q.val = k.pub.n.val := by
      rw [← hk.numbers.prod, hpr0]; simp
    have h3 : k.pub.n.val < 2 ^ (64 * k.pub.n.nlimbs) := k.pub.n.isLt
    have h4 : 2 ^ (64 * k.pub.n.nlimbs) ≤ 2 ^ (64 * f.d.nlimbs) :=
      Nat.pow_le_pow_right (by norm_num) (by have := hk.width; omega)
    omega

theorem faulted_prod (hk : WellFormed k) (hf : Faulted k f p q a b u) : p.val * q.val = k.pub.n.val := by
  rw [← hk.numbers.prod, hf.primes]; simp

theorem faulted_primes (hk : WellFormed k) (hf : Faulted k f p q a b u) :
    p.val.Prime ∧ q.val.Prime ∧ p.val ≠ q.val := by
  have h1 := hk.numbers.prime
  have h2 := hk.numbers.nodup
  rw [hf.primes] at h1 h2
  refine ⟨h1 _ (by simp), h1 _ (by simp), ?_⟩
  simpa using h2

theorem faulted_lt (hk : WellFormed k) (hf : Faulted k f p q a b u) (c : Nat) :
    crtNat p.val q.val a b u c < k.pub.n.val := by
  obtain ⟨h1, h2, -⟩ := faulted_primes hk hf
  rw [← faulted_prod hk hf]
  exact crtNat_lt h1.pos h2.pos _ _ _ _

theorem faulted_none {σ : Type} (R : RngImpl σ) (fuel : Nat) (hk : WellFormed k) (hf : Faulted k f p q a b u)
    (c : BoxedUint) (hw : c.nlimbs ≤ k.d.nlimbs) (hc : c.val < k.pub.n.val) :
    rsaDecrypt R fuel none f c = .ok (wrap k.pub.n.nlimbs (crtNat p.val q.val a b u c.val), none) := by
  have hco : k.pub.Coherent := hk.coherent
  have hl := coherent_nlimbs_pos hco
  have hdl : 1 ≤ f.d.nlimbs := by have := hk.width; have := hf.width; omega
  unfold rsaDecrypt
  have hge : c.ge f.pub.n = false := by rw [hf.pub]; simp [ge, lt, hc]
  simp only [hge, Bool.false_eq_true, if_false]
  have hwp : c.prec ≤ f.d.prec := by unfold prec; rw [hf.width]; omega
  rw [widen_of_le hwp, Res.ok_bind]
  obtain ⟨m, hm, hlm, hv⟩ := faulted_exp hk hf (wrap (limbsFor f.d.prec) c.val) (limbsFor_prec _ hdl)
  rw [hm, Res.ok_bind, hf.pub, coherent_prec hco,
    shorten_of_le (by unfold prec; rw [hlm, hf.width]; have := hk.width; omega), Res.ok_bind]
  rw [limbsFor_prec _ hl, hv, widen_val hwp]

theorem faulted_some {σ : Type} (R : RngImpl σ) (fuel : Nat) (s : σ) (hk : WellFormed k) (hf : Faulted k f p q a b u)
    (c : BoxedUint) (hw : c.nlimbs = k.pub.n.nlimbs) (hc : c.val < k.pub.n.val) :
    rsaDecrypt R fuel (some s) f c = (blindLoop R k.pub.n fuel s >>= fun x => .ok (wrap k.pub.n.nlimbs
      (crtNat p.val q.val a b u (c.val * x.1.1.val ^ k.pub.e.val % k.pub.n.val) * x.1.2.val % k.pub.n.val),
        some x.2)) := by
  have hco : k.pub.Coherent := hk.coherent
  have hn := coherent_pos hco
  have hl := coherent_nlimbs_pos hco
  have hdl : 1 ≤ f.d.nlimbs := by have := hk.width; have := hf.width; omega
  unfold rsaDecrypt
  have hge : c.ge f.pub.n = false := by rw [hf.pub]; simp [ge, lt, hc]
  simp only [hge, Bool.false_eq_true, if_false]
  rw [hf.pub, blind_eq R fuel s k.pub hco c (by unfold prec; rw [hw])]
  rcases hloop : blindLoop R k.pub.n fuel s with ⟨⟨r, ir⟩, s'⟩ | e | p | _
  · obtain ⟨h1, h2, h3, h4⟩ := blindLoop_ok R k.pub.n hl _ _ _ _ _ hloop
    simp only [Res.ok_bind]
    set x := wrap k.pub.n.nlimbs (c.val * (r.val ^ k.pub.e.val % k.pub.n.val) % k.pub.n.val) with hb
    have hbv : x.val = c.val * r.val ^ k.pub.e.val % k.pub.n.val := by
      rw [hb, wrap_mod_val _ hn, Nat.mul_mod_mod]
    have hwp : x.prec ≤ f.d.prec := by
      show 64 * k.pub.n.nlimbs ≤ 64 * f.d.nlimbs
      have := hk.width; have := hf.width; omega
    rw [widen_of_le hwp, Res.ok_bind]
    obtain ⟨m, hm, hlm, hv⟩ := faulted_exp hk hf (wrap (limbsFor f.d.prec) x.val) (limbsFor_prec _ hdl)
    rw [hm, Res.ok_bind, coherent_prec hco,
      shorten_of_le (by unfold prec; rw [hlm, hf.width]; have := hk.width; omega), Res.ok_bind]
    rw [limbsFor_prec _ hl, hv, widen_val hwp, hbv]
    set y := crtNat p.val q.val a b u (c.val * r.val ^ k.pub.e.val % k.pub.n.val) with hy
    have hylt : y < k.pub.n.val := faulted_lt hk hf _
    have hpm : (wrap k.pub.n.nlimbs y).prec = k.pub.n.prec := rfl
    have hpi : ir.prec = k.pub.n.prec := by unfold prec; rw [h2]
    unfold unblind
    rw [hpm, hpi, coherent_prec hco]
    simp only [ne_eq, not_true_eq_false, if_false]
    rw [mulModParams_eq _ _ _ (by rw [coherent_prec hco]; rfl) (by rw [coherent_prec hco]; exact hpi), Res.ok_bind]
    rw [coherent_nlimbs hco, coherent_mod hco, wrap_lt_val hylt]
  · rfl
  · rfl
  · rfl

/-! ### The factor that is given away -/

theorem gcd_of_half {x c e p q : Nat} (hp : p.Prime) (h1 : x ^ e ≡ c [MOD q]) (h2 : ¬ x ^ e ≡ c [MOD p]) :
    Int.gcd ((x : Int) ^ e - c) (p * q : Nat) = q := by
  have hq' : (q : Int) ∣ (x : Int) ^ e - c := by
    have := (Nat.modEq_iff_dvd.mp h1.symm)
    push_cast at this; exact this
  have hp' : ¬ (p : Int) ∣ (x : Int) ^ e - c := fun h => h2 (Nat.modEq_iff_dvd.mpr (by push_cast; exact h)).symm
  set z : Int := (x : Int) ^ e - c
  have hco : Nat.Coprime p z.natAbs := by
    rw [Nat.Prime.coprime_iff_not_dvd hp]
    exact fun h => hp' (Int.natCast_dvd.mpr h)
  show Nat.gcd z.natAbs (p * q) = q
  rw [Nat.Coprime.gcd_mul_left_cancel_right _ hco]
  exact Nat.gcd_eq_right (Int.natCast_dvd.mp hq')

theorem right_of_halves (hk : WellFormed k) (hf : Faulted k f p q a b u) {x c : Nat} (hx : x < k.pub.n.val)
    (hp : x ^ k.pub.e.val ≡ c [MOD p.val]) (hq : x ^ k.pub.e.val ≡ c [MOD q.val]) :
    x = c ^ k.d.val % k.pub.n.val := by
  obtain ⟨h1, h2, h3⟩ := faulted_primes hk hf
  have hn : x ^ k.pub.e.val ≡ c [MOD k.pub.n.val] := by
    rw [← faulted_prod hk hf]
    exact (Nat.modEq_and_modEq_iff_modEq_mul ((Nat.coprime_primes h1 h2).mpr h3)).mp ⟨hp, hq⟩
  apply wf_inj hk hx (Nat.mod_lt _ (coherent_pos hk.coherent))
  rw [← Nat.pow_mod, ← pow_mul]
  exact Eq.trans hn (wf_rsa hk c).symm

theorem right_pow (hk : WellFormed k) (c : Nat) : (c ^ k.d.val % k.pub.n.val) ^ k.pub.e.val ≡ c [MOD k.pub.n.val] := by
  refine ((Nat.mod_modEq _ _).pow _).trans ?_
  rw [← pow_mul]; exact wf_rsa hk c

/-- A single prime: an exponent that undoes `e` modulo `q - 1` does so modulo `q`. -/
theorem undo_prime {q b e : Nat} (hq : q.Prime) (h2 : q ≠ 2) (hb : b * e % (q - 1) = 1) (c : Nat) :
    (c ^ b) ^ e ≡ c [MOD q] := by
  have h := rsa_exp [q] b e c (by simpa using hq) (by simp) (by simpa using h2) (by
    intro p hp
    obtain rfl : p = q := by simpa using hp
    rw [hb]; exact (one_mod_of hb).symm)
  rw [← pow_mul]
  simpa using h

theorem odd_factor (hk : WellFormed k) (hf : Faulted k f p q a b u) : p.val ≠ 2 ∧ q.val ≠ 2 := by
  have h := hk.numbers.exp
  rw [hf.primes] at h
  constructor <;> intro h2
  · have := h p.val (by simp); rw [h2] at this; omega
  · have := h q.val (by simp); rw [h2] at this; omega


/-- A value below `n` that is right modulo `q` is right, or gives `q` away. -/
theorem right_or_q (hk : WellFormed k) (hf : Faulted k f p q a b u) {x c : Nat} (hx : x < k.pub.n.val)
    (hq : x ^ k.pub.e.val ≡ c [MOD q.val]) :
    x = c ^ k.d.val % k.pub.n.val ∨ Int.gcd ((x : Int) ^ k.pub.e.val - c) k.pub.n.val = q.val := by
  by_cases hp : x ^ k.pub.e.val ≡ c [MOD p.val]
  · exact Or.inl (right_of_halves hk hf hx hp hq)
  · right
    rw [← faulted_prod hk hf]
    exact gcd_of_half (faulted_primes hk hf).1 hq hp

/-- A value below `n` that is right modulo `p` is right, or gives `p` away. -/
theorem right_or_p (hk : WellFormed k) (hf : Faulted k f p q a b u) {x c : Nat} (hx : x < k.pub.n.val)
    (hp : x ^ k.pub.e.val ≡ c [MOD p.val]) :
    x = c ^ k.d.val % k.pub.n.val ∨ Int.gcd ((x : Int) ^ k.pub.e.val - c) k.pub.n.val = p.val := by
  by_cases hq : x ^ k.pub.e.val ≡ c [MOD q.val]
  · exact Or.inl (right_of_halves hk hf hx hp hq)
  · right
    rw [← faulted_prod hk hf, mul_comm]
    exact gcd_of_half (faulted_primes hk hf).2.1 hp hq

/-- Unblinding keeps what is right modulo a factor of `n`. -/
theorem unblind_half {n m e c r ir y : Nat} (hm : m ∣ n) (hr : r * ir % n = 1 % n)
    (hy : y ^ e ≡ c * r ^ e % n [MOD m]) : (y * ir % n) ^ e ≡ c [MOD m] := by
  have h1 : (y * ir % n) ^ e ≡ (y * ir) ^ e [MOD m] := ((Nat.mod_modEq (y * ir) n).of_dvd hm).pow _
  have h2 : c * r ^ e % n ≡ c * r ^ e [MOD m] := (Nat.mod_modEq (c * r ^ e) n).of_dvd hm
  have h3 : r * ir ≡ 1 [MOD m] := Nat.ModEq.of_dvd hm hr
  calc (y * ir % n) ^ e ≡ (y * ir) ^ e [MOD m] := h1
    _ = y ^ e * ir ^ e := mul_pow _ _ _
    _ ≡ c * r ^ e * ir ^ e [MOD m] := (hy.trans h2).mul_right _
    _ = c * (r * ir) ^ e := by rw [mul_pow]; ring
    _ ≡ c * 1 ^ e [MOD m] := (h3.pow e).mul_left _
    _ = c := by simp

/-- Every result of the unchecked operation with the faulted key, blinded or not: it is below `n`, and right modulo the
factors whose cached values are right. -/
theorem faulted_result {σ : Type} (R : RngImpl σ) (fuel : Nat) (rng : Option σ) (hk : WellFormed k)
    (hf : Faulted k f p q a b u) (c : BoxedUint) (hw : c.nlimbs = k.pub.n.nlimbs) (hc : c.val < k.pub.n.val)
    (x : BoxedUint) (rng' : Option σ) (h : rsaDecrypt R fuel rng f c = .ok (x, rng')) :
    x.nlimbs = k.pub.n.nlimbs ∧ x.val < k.pub.n.val ∧
    (b * k.pub.e.val % (q.val - 1) = 1 → x.val ^ k.pub.e.val ≡ c.val [MOD q.val]) ∧
    (a * k.pub.e.val % (p.val - 1) = 1 → u * q.val % p.val = 1 → x.val ^ k.pub.e.val ≡ c.val [MOD p.val]) := by
  have hco : k.pub.Coherent := hk.coherent
  have hn := coherent_pos hco
  have hl := coherent_nlimbs_pos hco
  have hprod := faulted_prod hk hf
  obtain ⟨hp, hq, -⟩ := faulted_primes hk hf
  obtain ⟨hp2, hq2⟩ := odd_factor hk hf
  have hb : ∀ z, b * k.pub.e.val % (q.val - 1) = 1 → (crtNat p.val q.val a b u z) ^ k.pub.e.val ≡ z [MOD q.val] :=
    fun z hb => ((crtNat_q _ _ _ _ _ _).pow _).trans (undo_prime hq hq2 hb z)
  have ha : ∀ z, a * k.pub.e.val % (p.val - 1) = 1 → u * q.val % p.val = 1 →
      (crtNat p.val q.val a b u z) ^ k.pub.e.val ≡ z [MOD p.val] :=
    fun z ha hu => ((crtNat_p hp.pos (by rw [hu, Nat.mod_eq_of_lt hp.one_lt]) _ _ _).pow _).trans
      (undo_prime hp hp2 ha z)
  cases rng with
  | none =>
    rw [faulted_none R fuel hk hf c (by rw [hw]; exact hk.width) hc] at h
    obtain ⟨rfl, -⟩ : wrap k.pub.n.nlimbs (crtNat p.val q.val a b u c.val) = x ∧ none = rng' := by simpa using h
    have hlt := faulted_lt hk hf c.val
    rw [wrap_lt_val hlt]
    exact ⟨rfl, hlt, hb _, ha _⟩
  | some s =>
    rw [faulted_some R fuel s hk hf c hw hc, Res.bind_eq_ok] at h
    obtain ⟨⟨⟨r, ir⟩, s'⟩, hloop, h⟩ := h
    obtain ⟨h1, h2, h3, h4⟩ := blindLoop_ok R k.pub.n hl _ _ _ _ _ hloop
    simp only [Res.ok.injEq, Prod.mk.injEq] at h
    obtain ⟨rfl, -⟩ := h
    rw [wrap_mod_val _ hn]
    refine ⟨rfl, Nat.mod_lt _ hn, fun hb' => ?_, fun ha' hu => ?_⟩
    · exact unblind_half (by rw [← hprod]; exact Dvd.intro_left _ rfl) h4 (hb _ hb')
    · exact unblind_half (by rw [← hprod]; exact Dvd.intro _ rfl) h4 (ha _ ha' hu)

/-! ### C100 -/

/-- C100: what the unchecked, unblinded operation computes from cached values that have been replaced by any numbers: the
sum of RFC 8017, 5.1.2 (2.b) with those numbers, which is always below `n`. -/
theorem C100_value {σ : Type} (R : RngImpl σ) (fuel : Nat) (hk : WellFormed k) (hf : Faulted k f p q a b u)
    (c : BoxedUint) (hw : c.nlimbs = k.pub.n.nlimbs) (hc : c.val < k.pub.n.val) :
    ∃ x, rsaDecrypt R fuel none f c = .ok (x, none) ∧ x.prec = k.pub.n.prec ∧ x.val < k.pub.n.val ∧
      (x.val : Int) = crtWith p.val q.val a b u c.val := by
  refine ⟨_, faulted_none R fuel hk hf c (by rw [hw]; exact hk.width) hc, rfl, ?_, ?_⟩
  · rw [wrap_lt_val (faulted_lt hk hf _)]; exact faulted_lt hk hf _
  · rw [wrap_lt_val (faulted_lt hk hf _)]; exact crtNat_int _ _ _ _ _ _ (faulted_primes hk hf).1.pos

/-- C100: with a right `dQ` and any `dP` and `qInv`, a result of the unchecked operation, blinded or not, is right or its
public power and the ciphertext give `q` away. -/
theorem C100_gives_q {σ : Type} (R : RngImpl σ) (fuel : Nat) (rng : Option σ) (hk : WellFormed k)
    (hf : Faulted k f p q a b u) (hb : b * k.pub.e.val % (q.val - 1) = 1)
    (c : BoxedUint) (hw : c.nlimbs = k.pub.n.nlimbs) (hc : c.val < k.pub.n.val)
    (x : BoxedUint) (rng' : Option σ) (h : rsaDecrypt R fuel rng f c = .ok (x, rng')) :
    x.val = c.val ^ k.d.val % k.pub.n.val ∨
      Int.gcd ((x.val : Int) ^ k.pub.e.val - c.val) k.pub.n.val = q.val := by
  obtain ⟨-, h1, h2, -⟩ := faulted_result R fuel rng hk hf c hw hc x rng' h
  exact right_or_q hk hf h1 (h2 hb)

/-- C100: with a right `dP` and a right `qInv` and any `dQ`, a result of the unchecked operation, blinded or not, is right
or its public power and the ciphertext give `p` away. -/
theorem C100_gives_p {σ : Type} (R : RngImpl σ) (fuel : Nat) (rng : Option σ) (hk : WellFormed k)
    (hf : Faulted k f p q a b u) (ha : a * k.pub.e.val % (p.val - 1) = 1) (hu : u * q.val % p.val = 1)
    (c : BoxedUint) (hw : c.nlimbs = k.pub.n.nlimbs) (hc : c.val < k.pub.n.val)
    (x : BoxedUint) (rng' : Option σ) (h : rsaDecrypt R fuel rng f c = .ok (x, rng')) :
    x.val = c.val ^ k.d.val % k.pub.n.val ∨
      Int.gcd ((x.val : Int) ^ k.pub.e.val - c.val) k.pub.n.val = p.val := by
  obtain ⟨-, h1, -, h2⟩ := faulted_result R fuel rng hk hf c hw hc x rng' h
  exact right_or_p hk hf h1 (h2 ha hu)

/-- What the check makes of a result below `n`. -/
theorem check_step {σ : Type} {k : PublicKey} (hco : k.Coherent) (c : BoxedUint) {v : Nat} (hv : v < k.n.val)
    (rng : Option σ) :
    (rsaEncrypt k (wrap k.n.nlimbs v) >>= fun check =>
      if !(c.beq check) then (.err .internal : Res (BoxedUint × Option σ)) else .ok (wrap k.n.nlimbs v, rng))
    = if v ^ k.e.val % k.n.val = c.val then .ok (wrap k.n.nlimbs v, rng) else .err .internal := by
  have hn := coherent_pos hco
  have h1 : (wrap k.n.nlimbs v).val = v := wrap_lt_val hv
  rw [rsaEncrypt_lt k hco _ (by rw [h1]; exact lt_trans hv k.n.isLt), Res.ok_bind, h1]
  have h2 : (wrap k.n.nlimbs (v ^ k.e.val % k.n.val)).val = v ^ k.e.val % k.n.val := wrap_mod_val _ hn _
  by_cases h : v ^ k.e.val % k.n.val = c.val
  · have : c.beq (wrap k.n.nlimbs (v ^ k.e.val % k.n.val)) = true := by
      unfold BoxedUint.beq; rw [h2, h]; simp
    rw [this, if_pos h]; rfl
  · have : c.beq (wrap k.n.nlimbs (v ^ k.e.val % k.n.val)) = false := by
      unfold BoxedUint.beq; rw [h2]; simpa using fun h' : c.val = _ => h h'.symm
    rw [this, if_neg h]; rfl

/-- C100: none of it leaves the checked operation. Whatever the three cached values and the private exponent have been
replaced by, the result is the one of the sound key, the same generator state included, or the internal error. -/
theorem C100_checked {σ : Type} (R : RngImpl σ) (fuel : Nat) (rng : Option σ) (hk : WellFormed k)
    (hf : Faulted k f p q a b u) (c : BoxedUint) (hw : c.nlimbs = k.pub.n.nlimbs) :
    rsaDecryptAndCheck R fuel f rng c = rsaDecryptAndCheck R fuel k rng c ∨
      rsaDecryptAndCheck R fuel f rng c = .err .internal := by
  have hco : k.pub.Coherent := hk.coherent
  have hn := coherent_pos hco
  have hl := coherent_nlimbs_pos hco
  by_cases hc : c.val < k.pub.n.val
  swap
  · left
    unfold rsaDecryptAndCheck
    rw [rsaDecrypt_ge R fuel rng k c (by omega), rsaDecrypt_ge R fuel rng f c (by rw [hf.pub]; omega)]
    rfl
  have key : ∀ (v : Nat) (r : Option σ), v < k.pub.n.val →
      let F := fun w : Nat => (rsaEncrypt k.pub (wrap k.pub.n.nlimbs w) >>= fun check =>
        if !(c.beq check) then (.err .internal : Res (BoxedUint × Option σ)) else .ok (wrap k.pub.n.nlimbs w, r))
      F v = F (c.val ^ k.d.val % k.pub.n.val) ∨ F v = .err .internal := by
    intro v r hv F
    by_cases h : v ^ k.pub.e.val % k.pub.n.val = c.val
    · left
      have : v = c.val ^ k.d.val % k.pub.n.val := by
        apply wf_inj hk hv (Nat.mod_lt _ hn)
        rw [h, right_pow hk c.val, Nat.mod_eq_of_lt hc]
      rw [this]
    · right
      show (rsaEncrypt k.pub (wrap k.pub.n.nlimbs v) >>= _) = _
      rw [check_step hco c hv r, if_neg h]
  unfold rsaDecryptAndCheck
  cases rng with
  | none =>
    rw [faulted_none R fuel hk hf c (by rw [hw]; exact hk.width) hc,
      rsaDecrypt_none R fuel hk c (by rw [hw]; exact hk.width) hc, hf.pub]
    simp only [Res.ok_bind]
    exact key _ none (faulted_lt hk hf _)
  | some s =>
    rw [faulted_some R fuel s hk hf c hw hc, rsaDecrypt_some R fuel s hk c hw hc, hf.pub]
    rcases blindLoop R k.pub.n fuel s with ⟨⟨r, ir⟩, s'⟩ | e | p | _
    · simp only [Res.ok_bind]
      exact key _ (some s') (Nat.mod_lt _ hn)
    · exact Or.inl rfl
    · exact Or.inl rfl
    · exact Or.inl rfl

theorem checked_bind {σ α : Type} (R : RngImpl σ) (fuel : Nat) (rng : Option σ) (hk : WellFormed k)
    (hf : Faulted k f p q a b u) (em : Bytes) (F : BoxedUint × Option σ → Res α) :
    let G := fun key : PrivateKey => (fromBeSlice em k.pub.nBitsPrecision >>= fun c =>
      rsaDecryptAndCheck R fuel key rng c >>= F)
    G f = G k ∨ G f = .err .internal := by
  intro G
  have hl := coherent_nlimbs_pos (k := k.pub) hk.coherent
  show (fromBeSlice em k.pub.nBitsPrecision >>= fun c => rsaDecryptAndCheck R fuel f rng c >>= F)
    = (fromBeSlice em k.pub.nBitsPrecision >>= fun c => rsaDecryptAndCheck R fuel k rng c >>= F)
    ∨ (fromBeSlice em k.pub.nBitsPrecision >>= fun c => rsaDecryptAndCheck R fuel f rng c >>= F) = .err .internal
  rcases hs : fromBeSlice em k.pub.nBitsPrecision with c | e | p | _
  · obtain ⟨-, -, rfl⟩ := fromBeSlice_eq_ok_iff.mp hs
    simp only [Res.ok_bind]
    rcases C100_checked R fuel rng hk hf (wrap (limbsFor k.pub.nBitsPrecision) (beVal em))
      (limbsFor_prec _ hl) with h | h
    · rw [h]; exact Or.inl rfl
    · rw [h]; exact Or.inr rfl
  · exact Or.inl rfl
  · exact Or.inl rfl
  · exact Or.inl rfl

/-- C100: a fault never shows in a PKCS#1 v1.5 signature or decryption: the outcome is that of the sound key or the
internal error. -/
theorem C100_pkcs1v15 {σ : Type} (R : RngImpl σ) (fuel : Nat) (rng : Option σ) (hk : WellFormed k)
    (hf : Faulted k f p q a b u) :
    (∀ pfx hashed, pkcs1v15.sign R fuel rng f pfx hashed = pkcs1v15.sign R fuel rng k pfx hashed ∨
      pkcs1v15.sign R fuel rng f pfx hashed = .err .internal) ∧
    (∀ ct, pkcs1v15.decrypt R fuel rng f ct = pkcs1v15.decrypt R fuel rng k ct ∨
      pkcs1v15.decrypt R fuel rng f ct = .err .internal) := by
  constructor
  · intro pfx hashed
    unfold pkcs1v15.sign
    rw [hf.pub]
    rcases pkcs1v15SignPad pfx hashed k.pub.size with em | e | p | _
    · exact checked_bind R fuel rng hk hf em _
    all_goals exact Or.inl rfl
  · intro ct
    unfold pkcs1v15.decrypt
    rw [hf.pub]
    rcases checkPublic k.pub with em | e | p | _
    · exact checked_bind R fuel rng hk hf ct _
    all_goals exact Or.inl rfl

/-- C100: nor in a PSS signature, with the hash chosen at run time or by type. -/
theorem C100_pss {σ : Type} (R : RngImpl σ) (fuel : Nat) (rng : Option σ) (hk : WellFormed k)
    (hf : Faulted k f p q a b u) (hashed salt : Bytes) :
    (∀ d, pss.signPssWithSalt R fuel rng f hashed salt d = pss.signPssWithSalt R fuel rng k hashed salt d ∨
      pss.signPssWithSalt R fuel rng f hashed salt d = .err .internal) ∧
    (∀ D, pss.signPssWithSaltDigest R fuel D rng f hashed salt = pss.signPssWithSaltDigest R fuel D rng k hashed salt ∨
      pss.signPssWithSaltDigest R fuel D rng f hashed salt = .err .internal) := by
  constructor
  · intro d
    unfold pss.signPssWithSalt
    rw [hf.pub]
    rcases subU k.pub.n.bits 1 with eb | e | p | _
    · simp only [Res.ok_bind]
      rcases emsaPssEncode hashed eb salt d with em | e | p | _
      · exact checked_bind R fuel rng hk hf em _
      all_goals exact Or.inl rfl
    all_goals exact Or.inl rfl
  · intro D
    unfold pss.signPssWithSaltDigest
    rw [hf.pub]
    rcases subU k.pub.n.bits 1 with eb | e | p | _
    · simp only [Res.ok_bind]
      rcases emsaPssEncodeDigest hashed eb salt D with em | e | p | _
      · exact checked_bind R fuel rng hk hf em _
      all_goals exact Or.inl rfl
    all_goals exact Or.inl rfl

/-- C100: nor in an OAEP decryption, with the hashes chosen at run time or by type. -/
theorem C100_oaep {σ : Type} (R : RngImpl σ) (fuel : Nat) (rng : Option σ) (hk : WellFormed k)
    (hf : Faulted k f p q a b u) (ct : Bytes) (label : Option Bytes) :
    (∀ d md, oaep.decrypt R fuel rng f ct d md label = oaep.decrypt R fuel rng k ct d md label ∨
      oaep.decrypt R fuel rng f ct d md label = .err .internal) ∧
    (∀ D MGD, oaep.decryptDigest R fuel D MGD rng f ct label = oaep.decryptDigest R fuel D MGD rng k ct label ∨
      oaep.decryptDigest R fuel D MGD rng f ct label = .err .internal) := by
  constructor
  · intro d md
    unfold oaep.decrypt
    rw [hf.pub]
    split
    · exact Or.inl rfl
    · exact checked_bind R fuel rng hk hf ct _
  · intro D MGD
    unfold oaep.decryptDigest
    rw [hf.pub]
    rcases checkPublic k.pub with em | e | p | _
    · simp only [Res.ok_bind]
      split
      · exact Or.inl rfl
      · exact checked_bind R fuel rng hk hf ct _
    all_goals exact Or.inl rfl

/-! ### How often -/

theorem card_fixed {p m : Nat} (hp : p.Prime) :
    Set.ncard {c : Nat | c < p ∧ c ^ (m + 1) ≡ c [MOD p]} = 1 + (p - 1).gcd m := by
  have : Fact p.Prime := ⟨hp⟩
  have h1 : {c : Nat | c < p ∧ c ^ (m + 1) ≡ c [MOD p]} = ZMod.val '' {x : ZMod p | x ^ (m + 1) = x} := by
    ext c
    constructor
    · rintro ⟨hc, h⟩
      refine ⟨(c : ZMod p), ?_, ZMod.val_cast_of_lt hc⟩
      have := (ZMod.natCast_eq_natCast_iff _ _ _).mpr h
      push_cast at this
      exact this
    · rintro ⟨x, hx, rfl⟩
      refine ⟨ZMod.val_lt x, (ZMod.natCast_eq_natCast_iff _ _ _).mp ?_⟩
      push_cast [ZMod.natCast_zmod_val]
      exact hx
  have h2 : {x : ZMod p | x ^ (m + 1) = x} =
      insert 0 (Units.val '' ((powMonoidHom m : (ZMod p)ˣ →* (ZMod p)ˣ).ker : Set (ZMod p)ˣ)) := by
    ext x
    constructor
    · intro hx
      by_cases h0 : x = 0
      · exact Or.inl h0
      · right
        refine ⟨Units.mk0 x h0, ?_, rfl⟩
        show (Units.mk0 x h0) ^ m = 1
        ext
        have hx' : x ^ m * x = 1 * x := by rw [← pow_succ, one_mul]; exact hx
        simpa using mul_right_cancel₀ h0 hx'
    · rintro (rfl | ⟨v, hv, rfl⟩)
      · show (0 : ZMod p) ^ (m + 1) = 0
        simp
      · have hv' : v ^ m = 1 := hv
        show (v : ZMod p) ^ (m + 1) = v
        rw [pow_succ, ← Units.val_pow_eq_pow_val, hv']; simp
  rw [h1, Set.ncard_image_of_injective _ (ZMod.val_injective p), h2,
    Set.ncard_insert_of_notMem (by rintro ⟨v, -, hv⟩; exact v.ne_zero hv),
    Set.ncard_image_of_injective _ Units.val_injective]
  have h3 := IsCyclic.card_powMonoidHom_ker (G := (ZMod p)ˣ) m
  rw [Nat.card_eq_fintype_card (α := (ZMod p)ˣ), ZMod.card_units] at h3
  have h4 : Set.ncard ((powMonoidHom m : (ZMod p)ˣ →* (ZMod p)ˣ).ker : Set (ZMod p)ˣ) = (p - 1).gcd m := h3
  omega

theorem card_periodic (P : Nat → Prop) [DecidablePred P] {p : Nat} (hP : Function.Periodic P p) (q : Nat) :
    ((Finset.range (p * q)).filter P).card = q * ((Finset.range p).filter P).card := by
  have hc : ∀ n, ((Finset.Ico n (n + p)).filter P).card = ((Finset.range p).filter P).card := by
    intro n
    rw [Nat.filter_Ico_card_eq_of_periodic n p P hP, Nat.count_eq_card_filter_range]
  induction q with
  | zero => simp
  | succ q ih =>
    have : Finset.range (p * (q + 1)) = Finset.range (p * q) ∪ Finset.Ico (p * q) (p * q + p) := by
      ext x; simp only [Finset.mem_range, Finset.mem_union, Finset.mem_Ico]
      have : p * (q + 1) = p * q + p := by ring
      omega
    rw [this, Finset.filter_union, Finset.card_union_of_disjoint, ih, hc]
    · ring
    · rw [Finset.disjoint_left]
      intro x hx hy
      simp only [Finset.mem_filter, Finset.mem_range, Finset.mem_Ico] at hx hy
      omega

theorem ncard_filter (P : Nat → Prop) [DecidablePred P] (n : Nat) :
    Set.ncard {c | c < n ∧ P c} = ((Finset.range n).filter P).card := by
  rw [← Set.ncard_coe_finset]
  congr 1
  ext c; simp

/-- C100: how often a fault in `dP` alone goes unnoticed. With any exponent `a` other than 0 in place of `dP`, exactly
`q * (1 + gcd(p - 1, a * e - 1))` of the `n` ciphertexts are still decrypted rightly without the check; all the others
give `q` away. -/
theorem C100_how_often {σ : Type} (R : RngImpl σ) (fuel : Nat) (hk : WellFormed k) (hf : Faulted k f p q a b u)
    (hb : b * k.pub.e.val % (q.val - 1) = 1) (hu : u * q.val % p.val = 1) (ha : 1 ≤ a) :
    Set.ncard {c : Nat | c < k.pub.n.val ∧ ∃ x, rsaDecrypt R fuel none f (wrap k.pub.n.nlimbs c) = .ok (x, none) ∧
      x.val = c ^ k.d.val % k.pub.n.val} = q.val * (1 + (p.val - 1).gcd (a * k.pub.e.val - 1)) := by
  obtain ⟨hp, hq, hne⟩ := faulted_primes hk hf
  obtain ⟨hp2, hq2⟩ := odd_factor hk hf
  have he : 1 ≤ k.pub.e.val := by
    rcases Nat.eq_zero_or_pos k.pub.e.val with h | h
    · rw [h] at hb; simp at hb
    · exact h
  have hae : a * k.pub.e.val - 1 + 1 = a * k.pub.e.val := Nat.sub_add_cancel (Nat.mul_le_mul ha he)
  have hset : {c : Nat | c < k.pub.n.val ∧ ∃ x, rsaDecrypt R fuel none f (wrap k.pub.n.nlimbs c) = .ok (x, none) ∧
      x.val = c ^ k.d.val % k.pub.n.val} =
      {c : Nat | c < p.val * q.val ∧ c ^ (a * k.pub.e.val - 1 + 1) ≡ c [MOD p.val]} := by
    ext c
    rw [faulted_prod hk hf, hae]
    refine and_congr_right fun hc => ?_
    have hcv : (wrap k.pub.n.nlimbs c).val = c := wrap_lt_val hc
    have hrun := faulted_none R fuel hk hf (wrap k.pub.n.nlimbs c) hk.width (by rw [hcv]; exact hc)
    rw [hcv] at hrun
    have hlt := faulted_lt hk hf c
    have hP : crtNat p.val q.val a b u c ^ k.pub.e.val ≡ c ^ (a * k.pub.e.val) [MOD p.val] := by
      rw [pow_mul]
      exact (crtNat_p hp.pos (by rw [hu, Nat.mod_eq_of_lt hp.one_lt]) _ _ _).pow _
    constructor
    · rintro ⟨x, hx, hxv⟩
      rw [hrun] at hx
      obtain rfl : wrap k.pub.n.nlimbs (crtNat p.val q.val a b u c) = x := by simpa using hx
      rw [wrap_lt_val hlt] at hxv
      have h1 : crtNat p.val q.val a b u c ^ k.pub.e.val ≡ c [MOD p.val] := by
        rw [hxv]
        exact (right_pow hk c).of_dvd (by rw [← faulted_prod hk hf]; exact Dvd.intro _ rfl)
      exact hP.symm.trans h1
    · intro h
      refine ⟨_, hrun, ?_⟩
      rw [wrap_lt_val hlt]
      exact right_of_halves hk hf hlt (hP.trans h) (((crtNat_q _ _ _ _ _ _).pow _).trans (undo_prime hq hq2 hb c))
  rw [hset]
  classical
  rw [ncard_filter, card_periodic _ _ q.val, ← ncard_filter, card_fixed hp]
  intro c
  have : c + p.val ≡ c [MOD p.val] := by simp [Nat.ModEq]
  exact propext ⟨fun h => ((this.pow _).symm.trans h).trans this, fun h => ((this.pow _).trans h).trans this.symm⟩

/-- C100: if the exponent in place of `dP` is a wrong one, at most half of the residues modulo `p`, and one more, are
still decrypted rightly: no fault in `dP` stays hidden for more than one ciphertext in two. -/
theorem C100_at_most_half {σ : Type} (R : RngImpl σ) (fuel : Nat) (hk : WellFormed k) (hf : Faulted k f p q a b u)
    (hb : b * k.pub.e.val % (q.val - 1) = 1) (hu : u * q.val % p.val = 1) (ha : 1 ≤ a)
    (hwrong : a * k.pub.e.val % (p.val - 1) ≠ 1 % (p.val - 1)) :
    2 * Set.ncard {c : Nat | c < k.pub.n.val ∧ ∃ x, rsaDecrypt R fuel none f (wrap k.pub.n.nlimbs c) = .ok (x, none) ∧
      x.val = c ^ k.d.val % k.pub.n.val} ≤ q.val * (p.val + 1) := by
  rw [C100_how_often R fuel hk hf hb hu ha]
  obtain ⟨hp, hq, hne⟩ := faulted_primes hk hf
  have he : 1 ≤ k.pub.e.val := by
    rcases Nat.eq_zero_or_pos k.pub.e.val with h | h
    · rw [h] at hb; simp at hb
    · exact h
  have hae : 1 ≤ a * k.pub.e.val := Nat.mul_le_mul ha he
  have hp1 : 0 < p.val - 1 := by have := hp.two_le; omega
  have hnd : ¬ (p.val - 1) ∣ a * k.pub.e.val - 1 := fun h =>
    hwrong ((Nat.modEq_iff_dvd' hae).mpr h).symm
  obtain ⟨t, ht⟩ := Nat.gcd_dvd_left (p.val - 1) (a * k.pub.e.val - 1)
  have ht2 : 2 ≤ t := by
    rcases t with _ | _ | t
    · omega
    · exfalso; apply hnd
      have : (p.val - 1).gcd (a * k.pub.e.val - 1) = p.val - 1 := by omega
      rw [← this]; exact Nat.gcd_dvd_right _ _
    · omega
  have h2 : 2 * (p.val - 1).gcd (a * k.pub.e.val - 1) ≤ p.val - 1 := by
    conv_rhs => rw [ht]
    rw [mul_comm]; exact Nat.mul_le_mul_left _ ht2
  calc 2 * (q.val * (1 + (p.val - 1).gcd (a * k.pub.e.val - 1)))
      = q.val * (2 + 2 * (p.val - 1).gcd (a * k.pub.e.val - 1)) := by ring
    _ ≤ q.val * (p.val + 1) := Nat.mul_le_mul_left _ (by omega)

end

/-! ### Examples -/

/-- The key of `C04` with a corrupted `dP` is such a key: the exponents and the coefficient it holds are these. -/
theorem Ex.faultyKey_faulted : Faulted Ex.key Ex.faultyKey (wrap 2 (2 ^ 89 - 1)) (wrap 2 (2 ^ 127 - 1))
    463625422192654777564758142 113429186379523348228037317453566814889 618818885466241885456556029 :=
  ⟨rfl, rfl, rfl, rfl, _, rfl, by decide +kernel, by decide +kernel, rfl, rfl, by decide +kernel, rfl,
    by decide +kernel, rfl⟩

/-- A key whose `dQ` was corrupted, and its private exponent with it. -/
def Ex.faultyKey2 : PrivateKey :=
  { Ex.key with d := wrap 4 1, precomputed := some { Ex.pre with dq := wrap 4 5 } }

theorem Ex.faultyKey2_faulted : Faulted Ex.key Ex.faultyKey2 (wrap 2 (2 ^ 89 - 1)) (wrap 2 (2 ^ 127 - 1))
    463625422192654777564758143 5 618818885466241885456556029 :=
  ⟨rfl, rfl, rfl, rfl, _, rfl, by decide +kernel, by decide +kernel, rfl, rfl, by decide +kernel, rfl,
    by decide +kernel, rfl⟩

example := C100_value Ex.countingRng 0 Ex.key_wf Ex.faultyKey_faulted (wrap 4 12345) rfl (by decide +kernel)
example := C100_gives_q Ex.countingRng 0 none Ex.key_wf Ex.faultyKey_faulted (by decide +kernel) (wrap 4 12345) rfl
  (by decide +kernel) (wrap 4 94546603396470743885784421649955933171044574117924934119751819700) none (by decide +kernel)
example := C100_gives_p Ex.countingRng 0 none Ex.key_wf Ex.faultyKey2_faulted (by decide +kernel) (by decide +kernel)
  (wrap 4 12345) rfl (by decide +kernel)
example := C100_checked Ex.countingRng 1 (some 5) Ex.key_wf Ex.faultyKey_faulted (wrap 4 12345) rfl
example := C100_pkcs1v15 Ex.countingRng 1 (some 5) Ex.key_wf Ex.faultyKey2_faulted
example := C100_pss Ex.countingRng 1 none Ex.key_wf Ex.faultyKey_faulted [1] [2]
example := C100_oaep Ex.countingRng 1 none Ex.key_wf Ex.faultyKey_faulted [1] none

/-- The wrong result does give the factor away: it is not the right one, so the greatest common divisor is `q`. -/
example (x : BoxedUint) (h : rsaDecrypt Ex.countingRng 0 none Ex.faultyKey (wrap 4 12345) = .ok (x, none)) :
    Int.gcd ((x.val : Int) ^ Ex.key.pub.e.val - (wrap 4 12345).val) Ex.key.pub.n.val = (wrap 2 (2 ^ 127 - 1)).val := by
  refine (C100_gives_q Ex.countingRng 0 none Ex.key_wf Ex.faultyKey_faulted (by decide +kernel) (wrap 4 12345) rfl
    (by decide +kernel) x none h).resolve_left fun hx => ?_
  have hf : rsaDecryptAndCheck Ex.countingRng 0 Ex.faultyKey none (wrap 4 12345) = .err .internal := by decide +kernel
  unfold rsaDecryptAndCheck at hf
  rw [h, Res.ok_bind] at hf
  have hr := rsaDecrypt_none Ex.countingRng 0 Ex.key_wf (wrap 4 12345) (by decide) (by decide +kernel)
  have hw := (faulted_result Ex.countingRng 0 none Ex.key_wf Ex.faultyKey_faulted (wrap 4 12345) rfl (by decide +kernel)
    x none h).1
  have hxe : x = wrap Ex.key.pub.n.nlimbs x.val := by
    rw [← hw, BoxedUint.wrap_self]
  rw [hxe, hx, Ex.faultyKey_faulted.pub] at hf
  have hs : rsaDecryptAndCheck Ex.countingRng 0 Ex.key none (wrap 4 12345) ≠ .err .internal := by decide +kernel
  apply hs
  unfold rsaDecryptAndCheck
  rw [hr, Res.ok_bind]
  exact hf

/-- Of the `n` ciphertexts, 2 times `q` are still decrypted rightly by the first of the two keys. -/
example := C100_how_often Ex.countingRng 0 Ex.key_wf Ex.faultyKey_faulted (by decide +kernel) (by decide +kernel)
  (by norm_num)
example : (2 ^ 89 - 1 - 1 : Nat).gcd (463625422192654777564758142 * 65537 - 1) = 1 := by decide +kernel
example := C100_at_most_half Ex.countingRng 0 Ex.key_wf Ex.faultyKey_faulted (by decide +kernel) (by decide +kernel)
  (by norm_num) (by decide +kernel)

/-- A fault that goes unnoticed for some ciphertexts: 1 is its own root whatever the exponents. -/
example : ∃ x, rsaDecrypt Ex.countingRng 0 none Ex.faultyKey (wrap 4 1) = .ok (x, none) ∧ x.val = 1 :=
  ⟨wrap 4 1, by decide +kernel, by decide +kernel⟩

end RSA
