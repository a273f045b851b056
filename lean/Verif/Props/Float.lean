import Mathlib.Analysis.Complex.ExponentialBounds
import Verif.Model.Float
import Verif.Spec.Float
import Verif.Props.Generate

/-
The floating-point size check of key generation (C73).
-/
namespace RSA
open BoxedUint

theorem Spec.RoundsF64.bounds {rnd : ℚ → ℚ} (h : Spec.RoundsF64 rnd) {x : ℚ} (hl : 1 / 100 ≤ x) (hu : x ≤ 2 ^ 100) :
    x * (1 - 1 / 2 ^ 53) ≤ rnd x ∧ rnd x ≤ x * (1 + 1 / 2 ^ 53) := by
  have hp : 0 < x := by linarith
  have habs := abs_of_pos hp
  have := h x (Or.inr (by
    rw [habs]
    constructor
    · have := one_div_le_one_div_of_le (by norm_num) (pow_le_pow_right₀ (by norm_num : (1 : ℚ) ≤ 2) (by norm_num : 7 ≤ 1022))
      refine le_trans this (le_trans ?_ hl)
      norm_num
    · exact le_trans hu (pow_le_pow_right₀ (by norm_num) (by norm_num))))
  rw [habs, abs_le] at this
  constructor <;> linarith [this.1, this.2]

/-- The IEEE rounding is one. -/
theorem f64.round_rounds : Spec.RoundsF64 f64.round := by
  intro x _
  by_cases h0 : x = 0
  · subst h0
    simp [f64.round, f64.roundEven]
  have hx : 0 < |x| := abs_pos.mpr h0
  unfold f64.round
  generalize hu : (2 : ℚ) ^ (Int.log 2 |x| - 52) = u
  have hup : 0 < u := by rw [← hu]; positivity
  have hle : u * 2 ^ 52 ≤ |x| := by
    have := Int.zpow_log_le_self (b := 2) (by norm_num) hx
    rw [← hu, ← zpow_natCast, ← zpow_add₀ (by norm_num)]
    refine le_trans (le_of_eq ?_) this
    congr 1; push_cast; ring
  have hr : |(f64.roundEven (x / u) : ℚ) - x / u| ≤ 1 / 2 := by
    unfold f64.roundEven
    have h1 := Int.floor_le (x / u)
    have h2 := Int.lt_floor_add_one (x / u)
    simp only
    rw [abs_le]
    split_ifs <;> push_cast <;> constructor <;> linarith
  have : (f64.roundEven (x / u) : ℚ) * u - x = (f64.roundEven (x / u) - x / u) * u := by field_simp
  simp only
  rw [this, abs_mul, abs_of_pos hup]
  have := mul_le_mul_of_nonneg_right hr hup.le
  linarith

/-- The decision is never close: the two sides of the comparison differ by more than one part in a thousand. -/
theorem tooFewPrimes_margin : ∀ q, q < 32 → ∀ n, n < 32 → 2 ≤ q ∧ 2 ≤ n ∧ n * q < 64 →
    (2 ^ q * 2 ^ 53 < 8 * n * (q * 6243314768165359 - 2 ^ 53) ∧
      1001 * (2 ^ q * 2 ^ 53) < 1000 * (8 * n * (q * 6243314768165359 - 2 ^ 53))) ∨
    (¬ 2 ^ q * 2 ^ 53 < 8 * n * (q * 6243314768165359 - 2 ^ 53) ∧
      1000 * (8 * n * (q * 6243314768165359 - 2 ^ 53)) < 999 * (2 ^ q * 2 ^ 53)) := by
  decide +kernel

theorem f64.small {rnd : ℚ → ℚ} (h : Spec.RoundsF64 rnd) (nprimes bitSize : Nat) (hn : 2 ≤ nprimes)
    (hn64 : nprimes < 2 ^ 64) (hq : bitSize / nprimes < 2) : f64.tooFewPrimes rnd nprimes bitSize = true := by
  have hN : (2 : ℚ) ≤ nprimes := by exact_mod_cast hn
  have hN64 : (nprimes : ℚ) ≤ 2 ^ 100 := by
    have : (nprimes : ℚ) < 2 ^ 64 := by exact_mod_cast hn64
    linarith [show (2 : ℚ) ^ 64 ≤ 2 ^ 100 by norm_num]
  have hr := (h.bounds (x := nprimes) (by linarith) hN64).1
  have hneg : ∀ {x : ℚ}, x < 0 → |x| ≤ 2 ^ 100 → 1 / 100 ≤ |x| → rnd x ≤ x * (1 - 1 / 2 ^ 53) ∧ x * (1 + 1 / 2 ^ 53) ≤ rnd x := by
    intro x hx h1 h2
    have := h x (Or.inr ⟨by
      have := one_div_le_one_div_of_le (by norm_num) (pow_le_pow_right₀ (by norm_num : (1 : ℚ) ≤ 2) (by norm_num : 7 ≤ 1022))
      refine le_trans this (le_trans ?_ h2)
      norm_num, le_trans h1 (pow_le_pow_right₀ (by norm_num) (by norm_num))⟩)
    rw [abs_of_neg hx, abs_le] at this
    constructor <;> linarith [this.1, this.2]
  unfold f64.tooFewPrimes
  simp only [decide_eq_true_eq]
  generalize hqq : bitSize / nprimes = q at hq
  have hpos : ∀ c l : ℚ, -1.1 ≤ c → c ≤ -0.2 → 0.9 ≤ l → l ≤ 2.1 → rnd (rnd (rnd (l / c) / 4) / 2) < rnd nprimes := by
    intro c l h1 h2 h3 h4
    have hc : c < 0 := by linarith
    have hl : l / c ≤ -0.8 := by rw [div_le_iff_of_neg hc]; linarith
    have hl' : -11 ≤ l / c := by rw [le_div_iff_of_neg hc]; linarith
    have e1 := hneg (x := l / c) (by linarith) (by rw [abs_of_neg (by linarith)]; linarith) (by rw [abs_of_neg (by linarith)]; linarith)
    generalize rnd (l / c) = p1 at *
    have e2 := hneg (x := p1 / 4) (by linarith) (by rw [abs_of_neg (by linarith)]; linarith) (by rw [abs_of_neg (by linarith)]; linarith)
    generalize rnd (p1 / 4) = p2 at *
    have e3 := hneg (x := p2 / 2) (by linarith) (by rw [abs_of_neg (by linarith)]; linarith) (by rw [abs_of_neg (by linarith)]; linarith)
    linarith
  have hzero : rnd 0 = 0 := by
    have := h 0 (Or.inl rfl)
    simpa using this
  interval_cases q
  · apply hpos
    · norm_num [hzero]
      have := hneg (x := -1) (by norm_num) (by norm_num) (by norm_num)
      linarith
    · norm_num [hzero]
      have := hneg (x := -1) (by norm_num) (by norm_num) (by norm_num)
      linarith
    · have := h.bounds (x := 1) (by norm_num) (by norm_num)
      norm_num at this ⊢; linarith
    · have := h.bounds (x := 1) (by norm_num) (by norm_num)
      norm_num at this ⊢; linarith
  · have h1 := h.bounds (x := 1) (by norm_num) (by norm_num)
    have h2 := h.bounds (x := 2) (by norm_num) (by norm_num)
    norm_num only [Nat.cast_one, pow_one, Nat.cast_ofNat]
    generalize rnd 1 = a at *
    have hL : f64.ln2 = 6243314768165359 / 2 ^ 53 := rfl
    have h3 := h.bounds (x := a * f64.ln2) (by rw [hL]; linarith) (by rw [hL]; linarith)
    generalize rnd (a * f64.ln2) = b at *
    rw [hL] at h3
    have h4 := hneg (x := b - 1) (by linarith) (by rw [abs_of_neg (by linarith)]; linarith) (by rw [abs_of_neg (by linarith)]; linarith)
    apply hpos <;> linarith

/-- C73: the rounding of the floating-point operations never changes the decision. -/
theorem C73_rounding_irrelevant (rnd : ℚ → ℚ) (h : Spec.RoundsF64 rnd) (nprimes bitSize : Nat) (hn : 2 ≤ nprimes)
    (hn64 : nprimes < 2 ^ 64) (hb : bitSize < 64) : f64.tooFewPrimes rnd nprimes bitSize = tooFewPrimes nprimes bitSize := by
  by_cases hq : bitSize / nprimes < 2
  · rw [f64.small h _ _ hn hn64 hq]
    unfold tooFewPrimes
    rw [if_pos hq]
  have hnq : nprimes * (bitSize / nprimes) < 64 := lt_of_le_of_lt (Nat.mul_div_le _ _) hb
  unfold f64.tooFewPrimes tooFewPrimes
  simp only
  rw [if_neg hq]
  generalize bitSize / nprimes = q at *
  have hq2 : 2 ≤ q := by omega
  have hq32 : q < 32 := by nlinarith
  have hn32 : nprimes < 32 := by nlinarith
  have hm := tooFewPrimes_margin q hq32 nprimes hn32 ⟨hq2, hn, hnq⟩
  have hQ2 : (2 : ℚ) ≤ q := by exact_mod_cast hq2
  have hQ32 : (q : ℚ) < 32 := by exact_mod_cast hq32
  have hN2 : (2 : ℚ) ≤ nprimes := by exact_mod_cast hn
  have hN32 : (nprimes : ℚ) < 32 := by exact_mod_cast hn32
  have hsub : ((q * 6243314768165359 - 2 ^ 53 : Nat) : ℚ) = 2 ^ 53 * (q * f64.ln2 - 1) := by
    rw [Nat.cast_sub (by omega)]
    unfold f64.ln2
    push_cast
    ring
  have hL : f64.ln2 = 6243314768165359 / 2 ^ 53 := rfl
  have h1 := h.bounds (x := q) (by linarith) (by linarith)
  have hlim2 : (4 : ℚ) ≤ 2 ^ q := le_trans (by norm_num) (pow_le_pow_right₀ (by norm_num : (1 : ℚ) ≤ 2) hq2)
  have hlim32 : (2 : ℚ) ^ q ≤ 2 ^ 32 := pow_le_pow_right₀ (by norm_num) (by omega)
  have hl := h.bounds (x := 2 ^ q) (by linarith) (by linarith)
  have hN := h.bounds (x := nprimes) (by linarith) (by linarith)
  push_cast
  generalize rnd (q : ℚ) = a at *
  have h2 := h.bounds (x := a * f64.ln2) (by rw [hL]; linarith) (by rw [hL]; linarith)
  generalize rnd (a * f64.ln2) = b at *
  generalize ht : (q : ℚ) * f64.ln2 - 1 = t at *
  have ht' := ht
  rw [hL] at ht' h2
  have htp : 1 / 3 ≤ t := by linarith
  have htu : t ≤ 32 := by linarith
  have hb1 : t * (1 - 9 / 2 ^ 53) ≤ b - 1 ∧ b - 1 ≤ t * (1 + 9 / 2 ^ 53) := by
    constructor <;> linarith [h1.1, h1.2, h2.1, h2.2]
  have h3 := h.bounds (x := b - 1) (by linarith) (by linarith)
  generalize rnd (b - 1) = c at *
  have hc : t * (1 - 11 / 2 ^ 53) ≤ c ∧ c ≤ t * (1 + 11 / 2 ^ 53) := by
    constructor <;> linarith [h3.1, h3.2, hb1.1, hb1.2]
  have hcp : 0 < c := by linarith
  generalize rnd (2 ^ q) = l at *
  -- the exact quotient
  obtain ⟨S, hS⟩ : ∃ S, S = (2 : ℚ) ^ q / t := ⟨_, rfl⟩
  have hSt : S * t = 2 ^ q := by rw [hS]; field_simp
  have hSp : 0 < S := by rw [hS]; positivity
  have hSl : 1 / 8 ≤ S := by rw [hS, le_div_iff₀ (by linarith)]; linarith
  have hSu : S ≤ 2 ^ 40 := by rw [hS, div_le_iff₀ (by linarith)]; linarith
  have hd : S * (1 - 13 / 2 ^ 53) ≤ l / c ∧ l / c ≤ S * (1 + 13 / 2 ^ 53) := by
    constructor
    · rw [le_div_iff₀ hcp]
      have := mul_le_mul_of_nonneg_left hc.2 hSp.le
      have e : S * (t * (1 + 11 / 2 ^ 53)) = 2 ^ q * (1 + 11 / 2 ^ 53) := by rw [← mul_assoc, hSt]
      rw [e] at this
      linarith [hl.1]
    · rw [div_le_iff₀ hcp]
      have := mul_le_mul_of_nonneg_left hc.1 hSp.le
      have e : S * (t * (1 - 11 / 2 ^ 53)) = 2 ^ q * (1 - 11 / 2 ^ 53) := by rw [← mul_assoc, hSt]
      rw [e] at this
      linarith [hl.2]
  have h4 := h.bounds (x := l / c) (by linarith) (by linarith)
  generalize rnd (l / c) = p1 at *
  have h5 := h.bounds (x := p1 / 4) (by linarith) (by linarith)
  generalize rnd (p1 / 4) = p2 at *
  have h6 := h.bounds (x := p2 / 2) (by linarith) (by linarith)
  generalize rnd (p2 / 2) = p3 at *
  generalize rnd (nprimes : ℚ) = N at *
  rcases hm with ⟨hlt, hm⟩ | ⟨hnlt, hm⟩
  · have hm' : (1001 * (2 ^ q * 2 ^ 53) : ℚ) < 1000 * (8 * nprimes * (2 ^ 53 * t)) := by
      rw [← hsub]; exact_mod_cast hm
    have hdiv : 1001 * S < 8000 * nprimes := by
      have : 1001 * S * t < 8000 * nprimes * t := by
        rw [show 1001 * S * t = 1001 * (S * t) by ring, hSt]; linarith
      exact lt_of_mul_lt_mul_right this (by linarith)
    refine Eq.trans (decide_eq_true ?_) (decide_eq_true hlt).symm
    linarith
  · have hm' : (1000 * (8 * nprimes * (2 ^ 53 * t)) : ℚ) < 999 * (2 ^ q * 2 ^ 53) := by
      rw [← hsub]; exact_mod_cast hm
    have hdiv : 8000 * nprimes < 999 * S := by
      have : 8000 * nprimes * t < 999 * S * t := by
        rw [show 999 * S * t = 999 * (S * t) by ring, hSt]; linarith
      exact lt_of_mul_lt_mul_right this (by linarith)
    refine Eq.trans (decide_eq_false ?_) (decide_eq_false hnlt).symm
    linarith

example : f64.tooFewPrimes f64.round 5 39 = true ∧ f64.tooFewPrimes f64.round 5 40 = false := by
  rw [C73_rounding_irrelevant _ f64.round_rounds _ _ (by norm_num) (by norm_num) (by norm_num),
    C73_rounding_irrelevant _ f64.round_rounds _ _ (by norm_num) (by norm_num) (by norm_num)]
  decide +kernel

/-- C73: nor does replacing the constant by the real logarithm. -/
theorem C73_real_formula (nprimes bitSize : Nat) (hn : 2 ≤ nprimes) (hb : bitSize < 64) :
    tooFewPrimes nprimes bitSize = true ↔
      (2 : ℝ) ^ (bitSize / nprimes) / (((bitSize / nprimes : Nat) : ℝ) * Real.log 2 - 1) / 4 / 2 < nprimes := by
  have hg := Real.log_two_gt_d9
  have hu := Real.log_two_lt_d9
  have hN2 : (2 : ℝ) ≤ nprimes := by exact_mod_cast hn
  unfold tooFewPrimes
  simp only
  by_cases hq : bitSize / nprimes < 2
  · rw [if_pos hq]
    generalize bitSize / nprimes = q at *
    have : (2 : ℝ) ^ q / ((q : ℝ) * Real.log 2 - 1) < 0 := by
      apply div_neg_of_pos_of_neg (by positivity)
      have : (q : ℝ) ≤ 1 := by exact_mod_cast Nat.le_of_lt_succ hq
      nlinarith
    constructor
    · intro _; linarith
    · intro _; rfl
  rw [if_neg hq]
  have hnq : nprimes * (bitSize / nprimes) < 64 := lt_of_le_of_lt (Nat.mul_div_le _ _) hb
  generalize bitSize / nprimes = q at *
  have hq2 : 2 ≤ q := by omega
  have hq32 : q < 32 := by nlinarith
  have hn32 : nprimes < 32 := by nlinarith
  have hQ2 : (2 : ℝ) ≤ q := by exact_mod_cast hq2
  have hm := tooFewPrimes_margin q hq32 nprimes hn32 ⟨hq2, hn, hnq⟩
  obtain ⟨u, hu'⟩ : ∃ u, u = (q : ℝ) * Real.log 2 - 1 := ⟨_, rfl⟩
  have htp : 0 < (q : ℝ) * Real.log 2 - 1 := by nlinarith
  rw [div_div, div_div, div_lt_iff₀ (by positivity)]
  have hsub : ((q * 6243314768165359 - 2 ^ 53 : Nat) : ℝ) = q * 6243314768165359 - 2 ^ 53 := by
    rw [Nat.cast_sub (by omega)]
    push_cast
    ring
  have hlow : (q : ℝ) * 0.6931471803 ≤ q * Real.log 2 := mul_le_mul_of_nonneg_left hg.le (by linarith)
  have hhigh : (q : ℝ) * Real.log 2 ≤ q * 0.6931471808 := mul_le_mul_of_nonneg_left hu.le (by linarith)
  rw [decide_eq_true_eq]
  rcases hm with ⟨hlt, hm⟩ | ⟨hnlt, hm⟩
  · have hm' : (1001 * (2 ^ q * 2 ^ 53) : ℝ) < 1000 * (8 * nprimes * (q * 6243314768165359 - 2 ^ 53)) := by
      rw [← hsub]; exact_mod_cast hm
    refine iff_of_true hlt ?_
    have h1 : (q : ℝ) * 6243314768165359 - 2 ^ 53 ≤ 2 ^ 53 * (1.0001 * (q * Real.log 2 - 1)) := by linarith
    have h2 := mul_le_mul_of_nonneg_left h1 (show (0 : ℝ) ≤ 8 * nprimes by linarith)
    have h3 : (0 : ℝ) < 2 ^ q := by positivity
    linarith
  · have hm' : (1000 * (8 * nprimes * (q * 6243314768165359 - 2 ^ 53)) : ℝ) < 999 * (2 ^ q * 2 ^ 53) := by
      rw [← hsub]; exact_mod_cast hm
    refine iff_of_false hnlt ?_
    rw [not_lt]
    have h1 : 2 ^ 53 * (0.9999 * (q * Real.log 2 - 1)) ≤ (q : ℝ) * 6243314768165359 - 2 ^ 53 := by linarith
    have h2 := mul_le_mul_of_nonneg_left h1 (show (0 : ℝ) ≤ 8 * nprimes by linarith)
    have h3 : (0 : ℝ) < 2 ^ q := by positivity
    linarith

/-- C73: which requests the check refuses: a modulus below 64 bits needs at least 6 bits per prime for two primes, 7
for three and four, 8 for five to seven, and eight or more primes are refused outright. -/
theorem C73_refused {σ : Type} (G : PrimeGen σ) (fuel : Nat) (s : σ) (nprimes bitSize : Nat) (exp : BoxedUint)
    (hn : 2 ≤ nprimes) :
    generateMultiPrimeKeyWithExp G fuel s nprimes bitSize exp = .err .tooFewPrimes ↔
      bitSize < 64 ∧ ¬ (nprimes = 2 ∧ 12 ≤ bitSize ∨ nprimes = 3 ∧ 21 ≤ bitSize ∨ nprimes = 4 ∧ 28 ≤ bitSize ∨
        5 ≤ nprimes ∧ 8 * nprimes ≤ bitSize) := by
  have hkey : ∀ b, b < 64 → ∀ n, n < 33 → n < 2 ∨ (tooFewPrimes n b = true ↔
      ¬ (n = 2 ∧ 12 ≤ b ∨ n = 3 ∧ 21 ≤ b ∨ n = 4 ∧ 28 ≤ b ∨ 5 ≤ n ∧ 8 * n ≤ b)) := by decide +kernel
  rw [C32_errors_partial]
  constructor
  · rintro (⟨_, h⟩ | ⟨_, hb, ht, _⟩)
    · cases h
    · refine ⟨hb, ?_⟩
      by_cases h33 : nprimes < 33
      · exact ((hkey _ hb _ h33).resolve_left (by omega)).mp ht
      · omega
  · rintro ⟨hb, h⟩
    refine Or.inr ⟨hn, hb, ?_, rfl⟩
    by_cases h33 : nprimes < 33
    · exact ((hkey _ hb _ h33).resolve_left (by omega)).mpr h
    · unfold tooFewPrimes
      have : bitSize / nprimes < 2 := Nat.div_lt_of_lt_mul (by omega)
      simp only
      rw [if_pos this]

/-- A turn draws numbers of `b` and `b + 1` bits only and never fails. -/
theorem generatePrimes_even {σ : Type} {G : PrimeGen σ} {b : Nat} (hb : 2 ≤ b) (h32 : b + 1 < 2 ^ 32)
    (h0 : Spec.TopBits G b) (h1 : Spec.TopBits G (b + 1)) : ∀ (left todo : Nat) (s : σ), left * b ≤ todo →
      todo ≤ left * (b + 1) → ∃ ps s', generatePrimes G left todo s = .ok (ps, s') ∧ ps.length = left ∧
        ∀ p ∈ ps, ∃ t, p = (G.gen t b).1 ∨ p = (G.gen t (b + 1)).1 := by
  have hbits : ∀ t c, Spec.TopBits G c → 2 ≤ c → (G.gen t c).1.bits = c := by
    intro t c hG hc
    apply le_antisymm
    · exact (bits_le_iff _ _).mpr (hG.lt t)
    · have h1 := hG.top t
      have : 2 ^ (c - 1) ≤ (G.gen t c).1.val := by
        have h2 : (2 : Nat) ^ (c - 1) = 2 * 2 ^ (c - 2) := by rw [← pow_succ']; congr 1; omega
        omega
      have := (lt_bits_iff _ _).mpr this
      omega
  intro left
  induction left with
  | zero => intro todo s _ _; exact ⟨[], s, rfl, rfl, by simp⟩
  | succ left ih =>
    intro todo s hl hu
    have hq : todo / (left + 1) = b ∧ todo < (left + 1) * (b + 1) ∨
        todo / (left + 1) = b + 1 ∧ todo = (left + 1) * (b + 1) := by
      rcases Nat.lt_or_ge todo ((left + 1) * (b + 1)) with h | h
      · left
        refine ⟨Nat.div_eq_of_lt_le ?_ ?_, h⟩
        · rw [Nat.mul_comm]; exact hl
        · rw [Nat.mul_comm]; exact h
      · right
        have : todo = (left + 1) * (b + 1) := le_antisymm hu h
        exact ⟨by rw [this, Nat.mul_div_cancel_left _ (Nat.succ_pos _)], this⟩
    obtain ⟨c, hc, hTop, hc2, hcs⟩ : ∃ c, todo / (left + 1) = c ∧ Spec.TopBits G c ∧ 2 ≤ c ∧
        (c = b ∧ todo < (left + 1) * (b + 1) ∨ c = b + 1 ∧ todo = (left + 1) * (b + 1)) := by
      rcases hq with ⟨h, h'⟩ | ⟨h, h'⟩
      · exact ⟨b, h, h0, hb, Or.inl ⟨rfl, h'⟩⟩
      · exact ⟨b + 1, h, h1, by omega, Or.inr ⟨rfl, h'⟩⟩
    have hmod : todo / (left + 1) % 2 ^ 32 = c := by rw [hc]; exact Nat.mod_eq_of_lt (by omega)
    have hg : generatePrimeWithRng G s c = .ok (G.gen s c) := by
      unfold generatePrimeWithRng; rw [if_neg (by omega)]
    have hcle : c ≤ todo := by rw [← hc]; exact Nat.div_le_self _ _
    have hs : subU todo (G.gen s c).1.bits = .ok (todo - c) := by
      rw [hbits s c hTop hc2]; unfold subU; rw [if_pos hcle]
    have e1 : (left + 1) * b = left * b + b := by ring
    have e2 : (left + 1) * (b + 1) = left * (b + 1) + (b + 1) := by ring
    have e3 : left * (b + 1) = left * b + left := by ring
    obtain ⟨ps, s', hps, hlen, hall⟩ := ih (todo - c) (G.gen s c).2 (by omega) (by omega)
    refine ⟨(G.gen s c).1 :: ps, s', ?_, by simp [hlen], ?_⟩
    · have hstep : generatePrimes G (left + 1) todo s =
        (generatePrimeWithRng G s (todo / (left + 1) % 2 ^ 32) >>= fun x => subU todo x.1.bits >>= fun todo' =>
          generatePrimes G left todo' x.2 >>= fun y => .ok (x.1 :: y.1, y.2)) := rfl
      rw [hstep, hmod, hg, Res.ok_bind, hs, Res.ok_bind, hps, Res.ok_bind]
    · intro p hp
      rcases List.mem_cons.mp hp with rfl | hp
      · rcases hcs with ⟨rfl, _⟩ | ⟨rfl, _⟩
        · exact ⟨s, Or.inl rfl⟩
        · exact ⟨s, Or.inr rfl⟩
      · exact hall p hp

/-- C73: from 64 bits on nothing is checked. When there are fewer primes of the two lengths in use than primes asked
for, generation runs forever without an error. -/
theorem C73_unchecked_runs_forever {σ : Type} (G : PrimeGen σ) (hP : Spec.PrimeSearch G) (nprimes bitSize b : Nat)
    (h64 : 64 ≤ bitSize) (hn : 2 ≤ nprimes)
    (hb : b = (if 7 ≤ nprimes then bitSize + (nprimes - 2) / 5 else bitSize) / nprimes) (hb2 : 2 ≤ b)
    (h32 : b + 1 < 2 ^ 32) (h0 : Spec.TopBits G b) (h1 : Spec.TopBits G (b + 1))
    (hfew : (Spec.topPrimes b).card + (Spec.topPrimes (b + 1)).card < nprimes) (exp : BoxedUint) (fuel : Nat) (s : σ) :
    generateMultiPrimeKeyWithExp G fuel s nprimes bitSize exp = .loop := by
  unfold generateMultiPrimeKeyWithExp
  rw [if_neg (by omega), if_neg (by simp; omega)]
  induction fuel generalizing s with
  | zero => rfl
  | succ fuel ih =>
    unfold generateLoop
    simp only
    generalize htodo : (if 7 ≤ nprimes then bitSize + (nprimes - 2) / 5 else bitSize) = todo at hb
    obtain ⟨ps, s', hps, hlen, hall⟩ := generatePrimes_even hb2 h32 h0 h1 nprimes todo s
      (by rw [hb]; exact Nat.mul_div_le _ _)
      (by rw [hb]; exact (Nat.lt_mul_div_succ _ (by omega)).le)
    rw [hps, Res.ok_bind]
    have hdup : PrivateKey.hasDuplicate [] ps = true := by
      by_contra hnd
      rw [Bool.not_eq_true] at hnd
      have hnodup := ((PrivateKey.hasDuplicate_iff _ _).mp hnd).1
      have hsub : (ps.map BoxedUint.val).toFinset ⊆ Spec.topPrimes b ∪ Spec.topPrimes (b + 1) := by
        intro x hx
        rw [List.mem_toFinset, List.mem_map] at hx
        obtain ⟨p, hp, rfl⟩ := hx
        obtain ⟨t, rfl | rfl⟩ := hall p hp
        · exact Finset.mem_union_left _ (Finset.mem_filter.mpr ⟨Finset.mem_range.mpr (h0.lt t), hP t b hb2, h0.top t⟩)
        · exact Finset.mem_union_right _
            (Finset.mem_filter.mpr ⟨Finset.mem_range.mpr (h1.lt t), hP t (b + 1) (by omega), h1.top t⟩)
      have hc := Finset.card_le_card hsub
      rw [List.toFinset_card_of_nodup hnodup, List.length_map, hlen] at hc
      have := Finset.card_union_le (Spec.topPrimes b) (Spec.topPrimes (b + 1))
      omega
    simp only
    rw [if_pos hdup]
    exact ih s'

/-- A search that knows one prime of each length in use. -/
def Ex.tiny : PrimeGen Unit := ⟨fun _ b => (if b = 4 then wrap 1 13 else if b = 3 then wrap 1 7 else wrap 1 3, ())⟩

example (fuel : Nat) (e : BoxedUint) : generateMultiPrimeKeyWithExp Ex.tiny fuel () 20 64 e = .loop := by
  refine C73_unchecked_runs_forever Ex.tiny ?_ 20 64 3 (by norm_num) (by norm_num) (by norm_num) (by norm_num) (by norm_num)
    ⟨?_, ?_, ?_, ?_⟩ ⟨?_, ?_, ?_, ?_⟩ (by decide +kernel) e fuel ()
  · intro s b _
    unfold Ex.tiny
    simp only
    split_ifs
    · show Nat.Prime 13; norm_num
    · show Nat.Prime 7; norm_num
    · show Nat.Prime 3; norm_num
  all_goals intro s; cases s; decide +kernel

/-- C73: with fewer than two bits per prime it panics instead. -/
theorem C73_unchecked_panics {σ : Type} (G : PrimeGen σ) (nprimes bitSize : Nat) (h64 : 64 ≤ bitSize)
    (hn : 7 ≤ nprimes) (hb : (bitSize + (nprimes - 2) / 5) / nprimes < 2) (exp : BoxedUint) (fuel : Nat) (s : σ) :
    (generateMultiPrimeKeyWithExp G (fuel + 1) s nprimes bitSize exp).Panics := by
  unfold generateMultiPrimeKeyWithExp
  rw [if_neg (by omega), if_neg (by simp; omega)]
  unfold generateLoop
  simp only
  rw [if_pos (show nprimes ≥ 7 from hn)]
  obtain ⟨left, rfl⟩ : ∃ left, nprimes = left + 1 := ⟨nprimes - 1, by omega⟩
  have hstep : generatePrimes G (left + 1) (bitSize + (left + 1 - 2) / 5) s = .panic .unwrap := by
    unfold generatePrimes
    simp only
    rw [Nat.mod_eq_of_lt (lt_trans hb (by norm_num))]
    unfold generatePrimeWithRng
    rw [if_pos hb]
    rfl
  rw [hstep]
  exact trivial

example {σ : Type} (G : PrimeGen σ) (s : σ) : (generateMultiPrimeKeyWithExp G 1 s 64 64 (wrap 1 3)).Panics :=
  C73_unchecked_panics G 64 64 (by norm_num) (by norm_num) (by norm_num) _ 0 s

example := C73_refused Ex.mersenne 5 () 3 20 (wrap 1 65537) (by decide)

end RSA
