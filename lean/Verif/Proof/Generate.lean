import Verif.Proof.FromPrimes
import Verif.Spec.Generate

namespace RSA
open BoxedUint

theorem subU_ok {a b c : Nat} (h : subU a b = .ok c) : b ≤ a ∧ c = a - b := by
  unfold subU at h
  split at h
  · next hle => exact ⟨hle, (Res.ok.inj h).symm⟩
  · cases h

theorem generatePrimeWithRng_ok {σ : Type} {G : PrimeGen σ} {s s' : σ} {b : Nat} {p : BoxedUint}
    (h : generatePrimeWithRng G s b = .ok (p, s')) : 2 ≤ b ∧ p = (G.gen s b).1 ∧ s' = (G.gen s b).2 := by
  unfold generatePrimeWithRng at h
  split at h
  · cases h
  · have := Res.ok.inj h
    exact ⟨by omega, by rw [this], by rw [this]⟩

/-- All numbers of a turn come from the prime search. -/
theorem generatePrimes_ok {σ : Type} {G : PrimeGen σ} : ∀ (left todo : Nat) (s s' : σ) (ps : List BoxedUint),
    generatePrimes G left todo s = .ok (ps, s') →
      ps.length = left ∧ ∀ p ∈ ps, ∃ t b, 2 ≤ b ∧ p = (G.gen t b).1 := by
  intro left
  induction left with
  | zero =>
    intro todo s s' ps h
    obtain ⟨rfl, rfl⟩ := Prod.mk.inj (Res.ok.inj h)
    simp
  | succ left ih =>
    intro todo s s' ps h
    unfold generatePrimes at h
    rw [Res.bind_eq_ok] at h
    obtain ⟨⟨p, s1⟩, h1, h⟩ := h
    simp only at h
    rw [Res.bind_eq_ok] at h
    obtain ⟨t1, _, h⟩ := h
    rw [Res.bind_eq_ok] at h
    obtain ⟨⟨rest, s2⟩, h2, h⟩ := h
    obtain ⟨rfl, rfl⟩ := Prod.mk.inj (Res.ok.inj h)
    obtain ⟨hl, hall⟩ := ih _ _ _ _ h2
    obtain ⟨hb, hp, _⟩ := generatePrimeWithRng_ok h1
    refine ⟨by simp [hl], ?_⟩
    intro x hx
    rcases List.mem_cons.mp hx with rfl | hx
    · exact ⟨_, _, hb, hp⟩
    · exact hall x hx

/-- What the loop returns. -/
theorem generateLoop_ok {σ : Type} {G : PrimeGen σ} {nprimes bitSize : Nat} {exp : BoxedUint} :
    ∀ (fuel : Nat) (s s' : σ) (c : Components), generateLoop G nprimes bitSize exp fuel s = .ok (c, s') →
      c.primes.length = nprimes ∧ (∀ p ∈ c.primes, ∃ t b, 2 ≤ b ∧ p = (G.gen t b).1) ∧
      (c.primes.map BoxedUint.val).Nodup ∧ computeModulus c.primes = .ok c.n ∧ c.n.toBoxedUint.bits = bitSize ∧
      computePrivateExponentEulerTotient c.primes exp = .ok c.d ∧ c.e = exp := by
  intro fuel
  induction fuel with
  | zero => intro s s' c h; cases h
  | succ fuel ih =>
    intro s s' c h
    unfold generateLoop at h
    simp only at h
    rw [Res.bind_eq_ok] at h
    obtain ⟨⟨ps, s1⟩, h1, h⟩ := h
    simp only at h
    cases hd : PrivateKey.hasDuplicate [] ps with
    | true => rw [if_pos hd] at h; exact ih _ _ _ h
    | false =>
      rw [if_neg (by rw [hd]; simp)] at h
      rw [Res.bind_eq_ok] at h
      obtain ⟨n, hn, h⟩ := h
      by_cases hb : n.toBoxedUint.bits ≠ bitSize
      · rw [if_pos hb] at h; exact ih _ _ _ h
      · rw [if_neg hb] at h
        rw [not_not] at hb
        obtain ⟨hl, hall⟩ := generatePrimes_ok _ _ _ _ _ h1
        cases he : computePrivateExponentEulerTotient ps exp with
        | ok d =>
          rw [he] at h
          obtain ⟨rfl, rfl⟩ := Prod.mk.inj (Res.ok.inj h)
          exact ⟨hl, hall, ((PrivateKey.hasDuplicate_iff _ _).mp hd).1, hn, hb, he, rfl⟩
        | err e => rw [he] at h; exact ih _ _ _ h
        | panic k => rw [he] at h; cases h
        | loop => rw [he] at h; cases h

/-- One turn for two primes of a search that sets the top bits. -/
theorem generatePrimes_two {σ : Type} {G : PrimeGen σ} {bitSize : Nat} (hG : Spec.TopHalves G bitSize) (s : σ)
    (h4 : 4 ≤ bitSize) (h32 : bitSize < 2 ^ 32) :
    (G.gen s (bitSize / 2)).1.bits = bitSize / 2 ∧
    generatePrimes G 2 bitSize s =
      .ok ([(G.gen s (bitSize / 2)).1, (G.gen (G.gen s (bitSize / 2)).2 (bitSize - bitSize / 2)).1],
        (G.gen (G.gen s (bitSize / 2)).2 (bitSize - bitSize / 2)).2) ∧
    (G.gen (G.gen s (bitSize / 2)).2 (bitSize - bitSize / 2)).1.bits = bitSize - bitSize / 2 := by
  have hbits : ∀ t b, Spec.TopBits G b → 2 ≤ b → (G.gen t b).1.bits = b := by
    intro t b hG hb
    apply le_antisymm
    · exact (bits_le_iff _ _).mpr (hG.lt t)
    · have h1 := hG.top t
      have : 2 ^ (b - 1) ≤ (G.gen t b).1.val := by
        have h2 : (2 : Nat) ^ (b - 1) = 2 * 2 ^ (b - 2) := by rw [← pow_succ']; congr 1; omega
        omega
      have := (lt_bits_iff _ _).mpr this
      omega
  have hb1 := hbits s (bitSize / 2) hG.1 (by omega)
  have hb2 := hbits (G.gen s (bitSize / 2)).2 (bitSize - bitSize / 2) hG.2 (by omega)
  refine ⟨hb1, ?_, hb2⟩
  have hm1 : bitSize / (1 + 1) % 2 ^ 32 = bitSize / 2 := Nat.mod_eq_of_lt (by omega)
  have hm2 : (bitSize - bitSize / 2) / (0 + 1) % 2 ^ 32 = bitSize - bitSize / 2 := by
    rw [Nat.zero_add, Nat.div_one]; exact Nat.mod_eq_of_lt (by omega)
  have hg1 : generatePrimeWithRng G s (bitSize / 2) = .ok (G.gen s (bitSize / 2)) := by
    unfold generatePrimeWithRng; rw [if_neg (by omega)]
  have hg2 : generatePrimeWithRng G (G.gen s (bitSize / 2)).2 (bitSize - bitSize / 2) =
      .ok (G.gen (G.gen s (bitSize / 2)).2 (bitSize - bitSize / 2)) := by
    unfold generatePrimeWithRng; rw [if_neg (by omega)]
  have hs1 : subU bitSize (G.gen s (bitSize / 2)).1.bits = .ok (bitSize - bitSize / 2) := by
    rw [hb1]; unfold subU; rw [if_pos (by omega)]
  have hs2 : subU (bitSize - bitSize / 2) (G.gen (G.gen s (bitSize / 2)).2 (bitSize - bitSize / 2)).1.bits = .ok 0 := by
    rw [hb2]; unfold subU; rw [if_pos (by omega)]; congr 1; omega
  have hstep : ∀ (left todo : Nat) (t : σ), generatePrimes G (left + 1) todo t =
      (generatePrimeWithRng G t (todo / (left + 1) % 2 ^ 32) >>= fun x => subU todo x.1.bits >>= fun todo' =>
        generatePrimes G left todo' x.2 >>= fun y => .ok (x.1 :: y.1, y.2)) := fun _ _ _ => rfl
  rw [hstep, hm1, hg1, Res.ok_bind, hs1, Res.ok_bind, hstep, hm2, hg2, Res.ok_bind, hs2, Res.ok_bind]
  rfl

/-- The product of two numbers with the top two bits set has exactly the sum of the bit lengths. -/
theorem product_bits {p q b1 b2 : Nat} (h1 : 2 ≤ b1) (h2 : 2 ≤ b2) (hp : 3 * 2 ^ (b1 - 2) ≤ p) (hq : 3 * 2 ^ (b2 - 2) ≤ q)
    (hp' : p < 2 ^ b1) (hq' : q < 2 ^ b2) : 2 ^ (b1 + b2 - 1) ≤ p * q ∧ p * q < 2 ^ (b1 + b2) := by
  constructor
  · have h : 2 ^ (b1 + b2 - 1) = 8 * (2 ^ (b1 - 2) * 2 ^ (b2 - 2)) := by
      rw [← pow_add, show (8 : Nat) = 2 ^ 3 from rfl, ← pow_add]; congr 1; omega
    have h3 : 3 * 2 ^ (b1 - 2) * (3 * 2 ^ (b2 - 2)) ≤ p * q := Nat.mul_le_mul hp hq
    have h4 : 3 * 2 ^ (b1 - 2) * (3 * 2 ^ (b2 - 2)) = 9 * (2 ^ (b1 - 2) * 2 ^ (b2 - 2)) := by ring
    omega
  · rw [pow_add]; exact Nat.mul_lt_mul'' hp' hq'

/-- One turn of the loop for two primes: retry on equal primes or an exponent without inverse, otherwise return. -/
theorem generateLoop_two {σ : Type} {G : PrimeGen σ} {bitSize : Nat} (hG : Spec.TopHalves G bitSize) (exp : BoxedUint)
    (h4 : 4 ≤ bitSize) (h32 : bitSize < 2 ^ 32) (hexp : exp.prec ≤ max 128 bitSize) (fuel : Nat) (s : σ) :
    let p := (G.gen s (bitSize / 2)).1
    let q := (G.gen (G.gen s (bitSize / 2)).2 (bitSize - bitSize / 2)).1
    let s' := (G.gen (G.gen s (bitSize / 2)).2 (bitSize - bitSize / 2)).2
    ((p.val = q.val ∨ ¬ Nat.Coprime exp.val ((p.val - 1) * (q.val - 1))) →
      generateLoop G 2 bitSize exp (fuel + 1) s = generateLoop G 2 bitSize exp fuel s') ∧
    (p.val ≠ q.val → Nat.Coprime exp.val ((p.val - 1) * (q.val - 1)) →
      ∃ n d, computeModulus [p, q] = .ok n ∧ computePrivateExponentEulerTotient [p, q] exp = .ok d ∧
        n.toBoxedUint.bits = bitSize ∧ generateLoop G 2 bitSize exp (fuel + 1) s = .ok (⟨n, exp, d, [p, q]⟩, s')) := by
  intro p q s'
  obtain ⟨hb1, hgen, hb2⟩ := generatePrimes_two hG s h4 h32
  have hb1' : p.bits = bitSize / 2 := hb1
  have hb2' : q.bits = bitSize - bitSize / 2 := hb2
  have hpt : 3 * 2 ^ (bitSize / 2 - 2) ≤ p.val := hG.1.top _
  have hqt : 3 * 2 ^ (bitSize - bitSize / 2 - 2) ≤ q.val := hG.2.top _
  have hplt : p.val < 2 ^ (bitSize / 2) := hG.1.lt _
  have hqlt : q.val < 2 ^ (bitSize - bitSize / 2) := hG.2.lt _
  have hpo : p.val % 2 = 1 := hG.1.odd _
  have hqo : q.val % 2 = 1 := hG.2.odd _
  have hp3 : 3 ≤ p.val := le_trans (Nat.le_mul_of_pos_right 3 (by positivity)) hpt
  have hq3 : 3 ≤ q.val := le_trans (Nat.le_mul_of_pos_right 3 (by positivity)) hqt
  obtain ⟨n, hn⟩ := computeModulus_exists (ps := [p, q]) (by simp) (by simp [Nat.mul_mod, hpo, hqo])
  obtain ⟨hnv, hnl⟩ := computeModulus_ok hn
  have hnv' : n.toBoxedUint.val = p.val * q.val := by rw [hnv]; simp
  have hnb : n.toBoxedUint.bits = bitSize := by
    have := product_bits (by omega) (by omega) hpt hqt hplt hqlt
    rw [← hnv'] at this
    have hs : bitSize / 2 + (bitSize - bitSize / 2) = bitSize := by omega
    rw [hs] at this
    apply le_antisymm
    · exact (bits_le_iff _ _).mpr this.2
    · have := (lt_bits_iff _ _).mpr this.1; omega
  have hT : ([p, q].map (fun x => x.val - 1)).prod = (p.val - 1) * (q.val - 1) := by simp
  have hTpos : 0 < (p.val - 1) * (q.val - 1) := Nat.mul_pos (by omega) (by omega)
  have hlen : exp.prec ≤ 64 * ([p, q].map BoxedUint.nlimbs).sum := by
    have hp1 : p.nlimbs = _ := hG.1.limbs _
    have hq1 : q.nlimbs = _ := hG.2.limbs _
    simp only [List.map_cons, List.map_nil, List.sum_cons, List.sum_nil]
    omega
  have hspec := euler_spec (ps := [p, q]) (e := exp) (by simp) (by
    intro x hx
    rcases List.mem_cons.mp hx with rfl | hx
    · omega
    · obtain rfl : x = q := by simpa using hx
      omega)
  rw [hT] at hspec
  have hstep : generateLoop G 2 bitSize exp (fuel + 1) s =
      if PrivateKey.hasDuplicate [] [p, q] then generateLoop G 2 bitSize exp fuel s'
      else
        match computePrivateExponentEulerTotient [p, q] exp with
        | .ok d => .ok (⟨n, exp, d, [p, q]⟩, s')
        | .err _ => generateLoop G 2 bitSize exp fuel s'
        | .panic k => .panic k
        | .loop => .loop := by
    conv_lhs => unfold generateLoop
    have h7 : ¬ (2 ≥ 7) := by omega
    simp only [if_neg h7]
    rw [hgen, Res.ok_bind]
    show (if PrivateKey.hasDuplicate [] [p, q] then generateLoop G 2 bitSize exp fuel s' else _) = _
    congr 1
    show (computeModulus [p, q] >>= _) = _
    rw [hn, Res.ok_bind, if_neg (by rw [hnb]; simp)]
    rfl
  have hdup : PrivateKey.hasDuplicate [] [p, q] = decide (p.val = q.val) := by
    cases h : PrivateKey.hasDuplicate [] [p, q] with
    | false =>
      have := ((PrivateKey.hasDuplicate_iff _ _).mp h).1
      symm; rw [decide_eq_false_iff_not]
      intro he
      simp [he] at this
    | true =>
      symm; rw [decide_eq_true_eq]
      by_contra hne
      have : PrivateKey.hasDuplicate [] [p, q] = false :=
        (PrivateKey.hasDuplicate_iff _ _).mpr ⟨by simp [hne], by simp⟩
      rw [h] at this; cases this
  constructor
  · intro hbad
    rw [hstep, hdup]
    by_cases he : p.val = q.val
    · rw [decide_eq_true he]; rfl
    · rw [decide_eq_false he]
      simp only [Bool.false_eq_true, if_false]
      rw [hspec.2.2 hlen hTpos (hbad.resolve_left he)]
  · intro hne hco
    obtain ⟨d, hd⟩ := hspec.2.1 hlen hTpos hco
    refine ⟨n, d, hn, hd, hnb, ?_⟩
    rw [hstep, hdup, decide_eq_false hne]
    simp only [Bool.false_eq_true, if_false]
    rw [hd]

/-- The loop never reports an error. -/
theorem generatePrimes_not_err {σ : Type} {G : PrimeGen σ} : ∀ (left todo : Nat) (s : σ) (e : Error),
    generatePrimes G left todo s ≠ .err e := by
  intro left
  induction left with
  | zero => intro todo s e h; cases h
  | succ left ih =>
    intro todo s e h
    have hstep : generatePrimes G (left + 1) todo s =
      (generatePrimeWithRng G s (todo / (left + 1) % 2 ^ 32) >>= fun x => subU todo x.1.bits >>= fun todo' =>
        generatePrimes G left todo' x.2 >>= fun y => .ok (x.1 :: y.1, y.2)) := rfl
    rw [hstep] at h
    unfold generatePrimeWithRng at h
    split at h
    · cases h
    · rw [Res.ok_bind] at h
      unfold subU at h
      split at h
      · rw [Res.ok_bind] at h
        cases hr : generatePrimes G left (todo - (G.gen s (todo / (left + 1) % 2 ^ 32)).1.bits)
            (G.gen s (todo / (left + 1) % 2 ^ 32)).2 with
        | ok x => rw [hr] at h; cases h
        | err e' => exact ih _ _ _ hr
        | panic k => rw [hr] at h; cases h
        | loop => rw [hr] at h; cases h
      · cases h

theorem computeModulus_not_err (ps : List BoxedUint) (e : Error) : computeModulus ps ≠ .err e := by
  intro h
  by_cases ho : (ps.map BoxedUint.val).prod % 2 = 0
  · rw [computeModulus_even ho] at h; cases h
  · match ps, ho, h with
    | p :: ps, ho, h =>
      obtain ⟨n, hn⟩ := computeModulus_exists (ps := p :: ps) (by simp) (by omega)
      rw [hn] at h; cases h
    | [], _, h => cases h

theorem generateLoop_not_err {σ : Type} {G : PrimeGen σ} {nprimes bitSize : Nat} {exp : BoxedUint} :
    ∀ (fuel : Nat) (s : σ) (e : Error), generateLoop G nprimes bitSize exp fuel s ≠ .err e := by
  intro fuel
  induction fuel with
  | zero => intro s e h; cases h
  | succ fuel ih =>
    intro s e h
    unfold generateLoop at h
    simp only at h
    cases h1 : generatePrimes G nprimes (if nprimes ≥ 7 then bitSize + (nprimes - 2) / 5 else bitSize) s with
    | err e' => exact generatePrimes_not_err _ _ _ _ h1
    | panic k => rw [h1] at h; cases h
    | loop => rw [h1] at h; cases h
    | ok x =>
      rw [h1, Res.ok_bind] at h
      split at h
      · exact ih _ _ h
      · cases hn : computeModulus x.1 with
        | err e' => exact computeModulus_not_err _ _ hn
        | panic k => rw [hn] at h; cases h
        | loop => rw [hn] at h; cases h
        | ok n =>
          rw [hn, Res.ok_bind] at h
          split at h
          · exact ih _ _ h
          · split at h
            · cases h
            · exact ih _ _ h
            · cases h
            · cases h

end RSA
