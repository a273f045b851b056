import Verif.Proof.Generate
import Verif.Props.ExampleKeys
import Mathlib.Tactic.NormNum.Prime

/-
Key generation (C31, C32, C54). The prime search is external: its results are arbitrary except where a hypothesis says
otherwise.
-/
namespace RSA
open BoxedUint

/-- A prime search for the examples: `2^89 - 1` when asked for 108 bits, `2^127 - 1` when asked for 127, otherwise 3. -/
def Ex.mersenne : PrimeGen Unit :=
  ⟨fun s b => (if b = 108 then wrap 2 (2 ^ 89 - 1) else if b = 127 then wrap 2 (2 ^ 127 - 1) else wrap 1 3, s)⟩

theorem Ex.mersenne_prime : Spec.PrimeSearch Ex.mersenne := by
  intro s b _
  simp only [Ex.mersenne]
  split
  · exact Ex.prime89
  · split
    · exact Ex.prime127
    · show Nat.Prime 3; norm_num

set_option maxRecDepth 100000 in
theorem Ex.prime32a : Nat.Prime (2 ^ 32 - 5) := by norm_num

set_option maxRecDepth 100000 in
theorem Ex.prime32b : Nat.Prime (2 ^ 32 - 17) := by norm_num

/-- A prime search with a state: for 32 bits it gives `2^32 - 5` twice, then alternates with `2^32 - 17`. -/
def Ex.alternating : PrimeGen Nat :=
  ⟨fun s _ => (if s ≤ 1 ∨ s % 2 = 0 then wrap 1 (2 ^ 32 - 5) else wrap 1 (2 ^ 32 - 17), s + 1)⟩

theorem Ex.alternating_prime : Spec.PrimeSearch Ex.alternating := by
  intro s b _
  simp only [Ex.alternating]
  split
  · exact Ex.prime32a
  · exact Ex.prime32b

theorem Ex.alternating_top : Spec.TopHalves Ex.alternating 64 := by
  have h : Spec.TopBits Ex.alternating 32 := by
    constructor <;> intro s <;> simp only [Ex.alternating] <;> split <;> decide
  exact ⟨h, h⟩

/-- C31, the generating function: what it returns has the requested number of pairwise distinct primes, a modulus which
is their product and has exactly the requested bit length, the requested exponent, and a private exponent inverse to it
modulo the product of all `p - 1` and below it; every private key built from it is well-formed. -/
theorem C31_components {σ : Type} (G : PrimeGen σ) (hG : Spec.PrimeSearch G) (fuel : Nat) (s s' : σ)
    (nprimes bitSize : Nat) (exp : BoxedUint) (c : Components)
    (h : generateMultiPrimeKeyWithExp G fuel s nprimes bitSize exp = .ok (c, s')) :
    2 ≤ nprimes ∧ c.primes.length = nprimes ∧ (∀ p ∈ c.primes, p.val.Prime) ∧ (c.primes.map BoxedUint.val).Nodup ∧
    c.n.toBoxedUint.val = (c.primes.map BoxedUint.val).prod ∧ c.n.toBoxedUint.val.size = bitSize ∧ c.e = exp ∧
    c.d.val < (c.primes.map (fun p => p.val - 1)).prod ∧
    exp.val * c.d.val ≡ 1 [MOD (c.primes.map (fun p => p.val - 1)).prod] ∧
    ∀ k, PrivateKey.fromComponents c.n c.e c.d c.primes = .ok k → Spec.WellFormed k := by
  unfold generateMultiPrimeKeyWithExp at h
  by_cases h2 : nprimes < 2
  · rw [if_pos h2] at h; cases h
  rw [if_neg h2] at h
  split at h
  · cases h
  obtain ⟨hl, hall, hnd, hn, hb, he, hexp⟩ := generateLoop_ok _ _ _ _ h
  have hprime : ∀ p ∈ c.primes, p.val.Prime := by
    intro p hp
    obtain ⟨t, b, hb, rfl⟩ := hall p hp
    exact hG t b hb
  obtain ⟨hnv, hnl⟩ := computeModulus_ok hn
  obtain ⟨hd1, hd2, hd3⟩ := (euler_spec (by omega) (fun p hp => (hprime p hp).pos)).1 c.d he
  refine ⟨by omega, hl, hprime, hnd, hnv, by rw [← bits_eq_size]; exact hb, hexp, hd1, hd2, ?_⟩
  intro k hk
  have hne : c.primes ≠ [] := by
    intro h0; rw [h0] at hl; simp at hl; omega
  exact PrivateKey.fromComponents_wf hk hprime hnd hne hnv.symm (by rw [hnl]; exact hd3)

/-- C31: every key returned by `RsaPrivateKey::new_with_exp` is well-formed, has a modulus of exactly the requested bit
length with two distinct prime factors, and the requested public exponent. -/
theorem C31_generated_key {σ : Type} (G : PrimeGen σ) (hG : Spec.PrimeSearch G) (fuel : Nat) (s s' : σ) (bitSize : Nat)
    (exp : BoxedUint) (k : PrivateKey) (h : PrivateKey.newWithExp G fuel s bitSize exp = .ok (k, s')) :
    Spec.WellFormed k ∧ k.pub.n.val.size = bitSize ∧ k.primes.length = 2 ∧ k.pub.e = exp := by
  unfold PrivateKey.newWithExp at h
  rw [Res.bind_eq_ok] at h
  obtain ⟨⟨c, s1⟩, hc, h⟩ := h
  simp only at h
  rw [Res.bind_eq_ok] at h
  obtain ⟨k', hk, h⟩ := h
  obtain ⟨rfl, rfl⟩ := Prod.mk.inj (Res.ok.inj h)
  obtain ⟨_, hl, _, _, _, hsz, he, _, _, hwf⟩ := C31_components G hG _ _ _ _ _ _ _ hc
  have hne : c.primes ≠ [] := by
    intro h0; rw [h0] at hl; simp at hl
  obtain ⟨hn, he', _, _, hps, _⟩ := PrivateKey.fromComponents_ok hne hk
  exact ⟨hwf _ hk, by rw [hn]; exact hsz, by rw [hps]; exact hl, by rw [he', he]⟩

/-- A run on a prime search meeting the hypothesis. -/
example : Spec.PrimeSearch Ex.mersenne ∧
    (match PrivateKey.newWithExp Ex.mersenne 1 () 216 (wrap 1 65537) with
      | .ok (k, _) => k.primes = Ex.key.primes ∧ k.pub = Ex.key.pub
      | _ => False) := by
  refine ⟨Ex.mersenne_prime, ?_⟩
  have : (match PrivateKey.newWithExp Ex.mersenne 1 () 216 (wrap 1 65537) with
      | .ok (k, _) => decide (k.primes = Ex.key.primes ∧ k.pub = Ex.key.pub)
      | _ => false) = true := by decide +kernel
  cases h : PrivateKey.newWithExp Ex.mersenne 1 () 216 (wrap 1 65537) with
  | ok x => rw [h] at this; exact of_decide_eq_true this
  | err _ => rw [h] at this; cases this
  | panic _ => rw [h] at this; cases this
  | loop => rw [h] at this; cases this

/-- C32 (partial): the only errors of key generation are the two size checks, made before any prime is drawn; an
unusable exponent is not among the reasons for an error, which is what is missing. -/
theorem C32_errors_partial {σ : Type} (G : PrimeGen σ) (fuel : Nat) (s : σ) (nprimes bitSize : Nat) (exp : BoxedUint)
    (er : Error) :
    generateMultiPrimeKeyWithExp G fuel s nprimes bitSize exp = .err er ↔
      (nprimes < 2 ∧ er = .nprimesTooSmall) ∨
      (2 ≤ nprimes ∧ bitSize < 64 ∧ tooFewPrimes nprimes bitSize = true ∧ er = .tooFewPrimes) := by
  unfold generateMultiPrimeKeyWithExp
  by_cases h2 : nprimes < 2
  · rw [if_pos h2]
    constructor
    · intro h; exact Or.inl ⟨h2, (Res.err.inj h).symm⟩
    · rintro (⟨_, rfl⟩ | ⟨h, _⟩)
      · rfl
      · omega
  · rw [if_neg h2]
    by_cases h3 : (decide (bitSize < 64) && tooFewPrimes nprimes bitSize) = true
    · rw [if_pos h3]
      simp only [Bool.and_eq_true, decide_eq_true_eq] at h3
      constructor
      · intro h; exact Or.inr ⟨by omega, h3.1, h3.2, (Res.err.inj h).symm⟩
      · rintro (⟨h, _⟩ | ⟨_, _, _, rfl⟩)
        · omega
        · rfl
    · rw [if_neg h3]
      constructor
      · intro h; exact absurd h (generateLoop_not_err _ _ _)
      · rintro (⟨h, _⟩ | ⟨_, h4, h5, _⟩)
        · omega
        · rw [h5, decide_eq_true h4] at h3; exact absurd rfl h3

example : (match generateMultiPrimeKeyWithExp Ex.mersenne 1 () 2 11 (wrap 1 3) with
    | .err .tooFewPrimes => true | _ => false) = true := by decide +kernel

/-- C32 refuted, in general: with an even exponent generation never returns a key, for any number of primes and any
search giving odd numbers above 1. -/
theorem C32_even_exponent_no_key {σ : Type} (G : PrimeGen σ)
    (hG : ∀ s b, 2 ≤ b → 1 < (G.gen s b).1.val ∧ (G.gen s b).1.val % 2 = 1) (fuel : Nat) (s s' : σ)
    (nprimes bitSize : Nat) (exp : BoxedUint) (he : exp.val % 2 = 0) (c : Components) :
    generateMultiPrimeKeyWithExp G fuel s nprimes bitSize exp ≠ .ok (c, s') := by
  intro h
  unfold generateMultiPrimeKeyWithExp at h
  by_cases h2 : nprimes < 2
  · rw [if_pos h2] at h; cases h
  rw [if_neg h2] at h
  split at h
  · cases h
  obtain ⟨hl, hall, -, -, -, hd, -⟩ := generateLoop_ok _ _ _ _ h
  obtain ⟨p, ps, hps⟩ : ∃ p ps, c.primes = p :: ps := by
    cases hc : c.primes with
    | nil => rw [hc] at hl; simp at hl; omega
    | cons p ps => exact ⟨p, ps, rfl⟩
  have hx : ∀ x ∈ c.primes, 1 < x.val ∧ x.val % 2 = 1 := by
    intro x hx
    obtain ⟨t, b, hb, rfl⟩ := hall x hx
    exact hG t b hb
  obtain ⟨_, hmod, _⟩ := (euler_spec (by omega) (fun x h => by have := (hx x h).1; omega)).1 _ hd
  have hp := hx p (by rw [hps]; simp)
  have h2T : 2 ∣ (c.primes.map (fun p => p.val - 1)).prod := by
    rw [hps, List.map_cons, List.prod_cons]
    exact Dvd.dvd.mul_right (by omega) _
  have := Nat.ModEq.of_dvd h2T hmod
  unfold Nat.ModEq at this
  rw [Nat.mul_mod, he] at this
  simp at this

example : (∀ s b, 2 ≤ b → 1 < (Ex.mersenne.gen s b).1.val ∧ (Ex.mersenne.gen s b).1.val % 2 = 1) ∧
    (match generateMultiPrimeKeyWithExp Ex.mersenne 20 () 2 216 (wrap 1 65536) with | .loop => true | _ => false) =
      true := by
  refine ⟨?_, by decide +kernel⟩
  intro s b _
  simp only [Ex.mersenne]
  split
  · decide
  · split <;> decide

/-- C32 refuted: `RsaPrivateKey::new_with_exp` with an even exponent never returns, not even with an error: it exhausts
every amount of fuel (turns of the loop), for every search setting the two top bits and every size from 12 bits. -/
theorem C32_even_exponent_runs_forever {σ : Type} (G : PrimeGen σ) (bitSize : Nat) (hG : Spec.TopHalves G bitSize)
    (h12 : 12 ≤ bitSize) (h32 : bitSize < 2 ^ 32) (exp : BoxedUint) (he : exp.val % 2 = 0)
    (hw : exp.prec ≤ max 128 bitSize) (fuel : Nat) (s : σ) :
    PrivateKey.newWithExp G fuel s bitSize exp = .loop := by
  have hfew : bitSize < 64 → tooFewPrimes 2 bitSize = false := by
    have : ∀ b, b < 64 → 12 ≤ b → tooFewPrimes 2 b = false := by decide
    intro h; exact this _ h h12
  have hloop : ∀ fuel s, generateLoop G 2 bitSize exp fuel s = .loop := by
    intro fuel
    induction fuel with
    | zero => intro s; rfl
    | succ fuel ih =>
      intro s
      have hp3 := hG.1.top s
      have hpo := hG.1.odd s
      have := Nat.le_mul_of_pos_right 3 (show 0 < 2 ^ (bitSize / 2 - 2) by positivity)
      rw [(generateLoop_two hG exp (by omega) h32 hw fuel s).1 (Or.inr ?_)]
      · exact ih _
      · intro hco
        have h2e : 2 ∣ exp.val := by omega
        have := Nat.eq_one_of_dvd_coprimes hco h2e (Dvd.dvd.mul_right (by omega) _)
        omega
  unfold PrivateKey.newWithExp generateMultiPrimeKeyWithExp
  rw [if_neg (by omega)]
  by_cases h64 : bitSize < 64
  · rw [hfew h64]
    simp only [Bool.and_false, Bool.false_eq_true, if_false]
    rw [hloop]; rfl
  · rw [decide_eq_false h64]
    simp only [Bool.false_and, Bool.false_eq_true, if_false]
    rw [hloop]; rfl

example : Spec.TopHalves Ex.alternating 64 ∧ PrivateKey.newWithExp Ex.alternating 50 0 64 (wrap 1 65536) = .loop :=
  ⟨Ex.alternating_top, C32_even_exponent_runs_forever _ 64 Ex.alternating_top (by omega) (by omega) _ (by decide)
    (by decide) _ _⟩

/-- C54: two-prime generation with a search setting the two top bits uses the first pair of draws that are distinct and
fit the exponent — a wrong modulus size is never a reason to retry — and, with an acceptable exponent and size, returns
a well-formed key with just these primes. -/
theorem C54_first_usable_pair {σ : Type} (G : PrimeGen σ) (hP : Spec.PrimeSearch G) (bitSize : Nat)
    (hG : Spec.TopHalves G bitSize) (h12 : 12 ≤ bitSize) (hmax : bitSize ≤ 4096) (exp : BoxedUint)
    (he2 : 2 ≤ exp.val) (hemax : exp.val ≤ 2 ^ 33 - 1) (hen : exp.val < 2 ^ (bitSize - 1))
    (hw : exp.prec ≤ max 128 bitSize) (s s' : σ) (p q : BoxedUint) (j : Nat)
    (hdraws : Spec.PairDraws G exp.val (bitSize / 2) (bitSize - bitSize / 2) s p q s' j) (fuel : Nat) (hf : j ≤ fuel) :
    ∃ k, PrivateKey.newWithExp G fuel s bitSize exp = .ok (k, s') ∧ k.primes = [p, q] ∧ k.pub.n.val = p.val * q.val ∧
      k.pub.e = exp ∧ k.pub.n.val.size = bitSize ∧ Spec.WellFormed k := by
  have hfew : bitSize < 64 → tooFewPrimes 2 bitSize = false := by
    have : ∀ b, b < 64 → 12 ≤ b → tooFewPrimes 2 b = false := by decide
    intro h; exact this _ h h12
  have hloop : ∀ fuel, j ≤ fuel → ∃ n d t, computeModulus [p, q] = .ok n ∧
      computePrivateExponentEulerTotient [p, q] exp = .ok d ∧ n.toBoxedUint.bits = bitSize ∧
      p = (G.gen t (bitSize / 2)).1 ∧ q = (G.gen (G.gen t (bitSize / 2)).2 (bitSize - bitSize / 2)).1 ∧
      generateLoop G 2 bitSize exp fuel s = .ok (⟨n, exp, d, [p, q]⟩, s') := by
    clear hf fuel
    induction hdraws with
    | good t hne hco =>
      intro fuel hf
      obtain ⟨fuel, rfl⟩ : ∃ f, fuel = f + 1 := ⟨fuel - 1, by omega⟩
      obtain ⟨n, d, hn, hd, hb, hl⟩ := (generateLoop_two hG exp (by omega) (by omega) hw fuel t).2 hne hco
      exact ⟨n, d, t, hn, hd, hb, rfl, rfl, hl⟩
    | again t p q s' j hbad next ih =>
      intro fuel hf
      obtain ⟨fuel, rfl⟩ : ∃ f, fuel = f + 1 := ⟨fuel - 1, by omega⟩
      rw [(generateLoop_two hG exp (by omega) (by omega) hw fuel t).1 hbad]
      exact ih fuel (by omega)
  obtain ⟨n, d, t, hn, hd, hb, hp, hq, hl⟩ := hloop fuel hf
  have hpp : p.val.Prime := by rw [hp]; exact hP _ _ (by omega)
  have hqp : q.val.Prime := by rw [hq]; exact hP _ _ (by omega)
  have hpo : p.val % 2 = 1 := by rw [hp]; exact hG.1.odd _
  have hqo : q.val % 2 = 1 := by rw [hq]; exact hG.2.odd _
  have hpl : p.nlimbs = (bitSize / 2 + 63) / 64 := by rw [hp]; exact hG.1.limbs _
  have hql : q.nlimbs = (bitSize - bitSize / 2 + 63) / 64 := by rw [hq]; exact hG.2.limbs _
  have hpge : 3 ≤ p.val := by have := hpp.two_le; omega
  have hqge : 3 ≤ q.val := by have := hqp.two_le; omega
  obtain ⟨hnv, hnl⟩ := computeModulus_ok hn
  have hnv' : n.toBoxedUint.val = p.val * q.val := by rw [hnv]; simp
  have hnl' : n.toBoxedUint.nlimbs = p.nlimbs + q.nlimbs := by rw [hnl]; simp
  have hpos : ∀ x ∈ [p, q], 0 < x.val := by
    intro x hx
    rcases List.mem_cons.mp hx with rfl | hx
    · exact hpp.pos
    · obtain rfl : x = q := by simpa using hx
      exact hqp.pos
  obtain ⟨hd1, hd2, hd3⟩ := (euler_spec (ps := [p, q]) (e := exp) (by simp) hpos).1 d hd
  have hT : ([p, q].map (fun x => x.val - 1)).prod = (p.val - 1) * (q.val - 1) := by simp
  rw [hT] at hd1 hd2
  have hdl : p.nlimbs + q.nlimbs ≤ d.nlimbs := by simpa using hd3
  have hk : ∃ k, PrivateKey.fromComponents n exp d [p, q] = .ok k := by
    apply PrivateKey.fromComponents_ok_of_validate (by omega) (by omega) (by omega)
    refine (PrivateKey.validate_ok_iff _ n.nlimbs_pos).mpr ⟨(checkPublic_ok _).mpr ?_, ?_, ?_⟩
    · have heo : exp.val % 2 = 1 := by
        by_contra hc
        have h2T : 2 ∣ (p.val - 1) * (q.val - 1) := Dvd.dvd.mul_right (by omega) _
        have := Nat.ModEq.of_dvd h2T hd2
        unfold Nat.ModEq at this
        rw [Nat.mul_mod, show exp.val % 2 = 0 by omega] at this
        simp at this
      have hlow : 2 ^ (bitSize - 1) ≤ n.toBoxedUint.val := by
        apply (lt_bits_iff _ _).mp
        rw [hb]; omega
      refine ⟨?_, lt_of_lt_of_le hen hlow, n.odd, heo, he2, hemax⟩
      show 64 * n.toBoxedUint.nlimbs ≤ 4096
      rw [hnl', hpl, hql]; omega
    · show ([p, q].map BoxedUint.val).prod % 2 ^ n.toBoxedUint.prec = n.toBoxedUint.val
      rw [← hnv]
      exact Nat.mod_eq_of_lt n.toBoxedUint.isLt
    · have hlf : 64 * limbsFor (2 * d.prec) = 2 * d.prec := by unfold limbsFor prec; omega
      have hx : ∀ x : BoxedUint, 3 ≤ x.val → x.nlimbs ≤ d.nlimbs → (x.val - 1) ∣ (p.val - 1) * (q.val - 1) →
          x.prec ≤ 64 * limbsFor (2 * d.prec) ∧ 1 < x.val ∧ d.val * exp.val % (x.val - 1) = 1 := by
        intro x hx hxl hdv
        refine ⟨by rw [hlf]; unfold prec; omega, by omega, ?_⟩
        rw [mul_comm]
        exact mod_eq_one_of_modEq hd2 hdv (by omega)
      intro x hx'
      rcases List.mem_cons.mp hx' with rfl | hx'
      · exact hx _ hpge (by omega) (Nat.dvd_mul_right _ _)
      · obtain rfl : x = q := by simpa using hx'
        exact hx _ hqge (by omega) (Nat.dvd_mul_left _ _)
  obtain ⟨k, hk⟩ := hk
  have hrun : PrivateKey.newWithExp G fuel s bitSize exp = .ok (k, s') := by
    unfold PrivateKey.newWithExp generateMultiPrimeKeyWithExp
    rw [if_neg (by omega)]
    by_cases h64 : bitSize < 64
    · rw [hfew h64]
      simp only [Bool.and_false, Bool.false_eq_true, if_false]
      rw [hl, Res.ok_bind, hk]; rfl
    · rw [decide_eq_false h64]
      simp only [Bool.false_and, Bool.false_eq_true, if_false]
      rw [hl, Res.ok_bind, hk]; rfl
  obtain ⟨hwf, hsz, _, hke⟩ := C31_generated_key G hP _ _ _ _ _ _ hrun
  obtain ⟨hkn, _, _, _, hps, _⟩ := PrivateKey.fromComponents_ok (by simp) hk
  exact ⟨k, hrun, hps, by rw [hkn, hnv'], hke, hsz, hwf⟩

/-- The first pair drawn is twice the same prime, the second pair is usable. -/
example : ∃ k, PrivateKey.newWithExp Ex.alternating 2 0 64 (wrap 1 65537) = .ok (k, 4) ∧
    k.primes = [wrap 1 (2 ^ 32 - 5), wrap 1 (2 ^ 32 - 17)] := by
  obtain ⟨k, h1, h2, _⟩ := C54_first_usable_pair Ex.alternating Ex.alternating_prime 64 Ex.alternating_top (by omega)
    (by omega) (wrap 1 65537) (by decide) (by decide) (by decide) (by decide) 0 4 (wrap 1 (2 ^ 32 - 5))
    (wrap 1 (2 ^ 32 - 17)) 2 (.again 0 _ _ _ 1 (Or.inl (by decide)) (.good 2 (by decide) (by decide +kernel))) 2 le_rfl
  exact ⟨k, h1, h2⟩

/-- C54: a request for more than 4096 bits runs the whole search and then refuses its own result. -/
theorem C54_too_large {σ : Type} (G : PrimeGen σ) (bitSize : Nat) (hmax : 4096 < bitSize) (fuel : Nat) (s s' : σ)
    (exp : BoxedUint) (k : PrivateKey) : PrivateKey.newWithExp G fuel s bitSize exp ≠ .ok (k, s') := by
  intro h
  unfold PrivateKey.newWithExp generateMultiPrimeKeyWithExp at h
  rw [if_neg (by omega), decide_eq_false (by omega)] at h
  simp only [Bool.false_and, Bool.false_eq_true, if_false] at h
  rw [Res.bind_eq_ok] at h
  obtain ⟨⟨c, s1⟩, hc, h⟩ := h
  simp only at h
  rw [Res.bind_eq_ok] at h
  obtain ⟨k', hk, h⟩ := h
  obtain ⟨hl, _, _, _, hb, _, _⟩ := generateLoop_ok _ _ _ _ hc
  have hne : c.primes ≠ [] := by
    intro h0; rw [h0] at hl; simp at hl
  obtain ⟨hkn, _, _, _, _, _, hv, _⟩ := PrivateKey.fromComponents_ok hne hk
  obtain ⟨hpub, _⟩ := (PrivateKey.validate_ok_iff k' (by rw [hkn]; exact c.n.nlimbs_pos)).mp hv
  have h1 := ((checkPublic_ok _).mp hpub).1
  rw [hkn] at h1
  have h2 := bits_le_prec c.n.toBoxedUint
  omega

example : (match PrivateKey.newWithExp (⟨fun s b => (wrap ((b + 63) / 64) (2 ^ b - 1 - 2 * (s % 2)), s + 1)⟩ : PrimeGen Nat)
    3 0 4098 (wrap 1 65537) with | .ok _ => false | _ => true) = true := by
  have h := C54_too_large (⟨fun s b => (wrap ((b + 63) / 64) (2 ^ b - 1 - 2 * (s % 2)), s + 1)⟩ : PrimeGen Nat) 4098
    (by omega) 3 0
  split
  · next x hx => exact absurd hx (h _ _ _)
  · rfl

example := C31_components Ex.mersenne Ex.mersenne_prime 1 () () 2 216 (wrap 1 65537)

end RSA
