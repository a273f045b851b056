import Verif.Spec.Draws
import Verif.Props.GenerateTotal
import Verif.Props.Rejection
import Mathlib.Data.Set.Finite.List

/-
C95: with which probability key generation gives which key.
-/
namespace RSA
open BoxedUint Spec

variable {Ω : Type} [Inhabited Ω]

theorem drawAll_seeds (g : Nat → Ω → BoxedUint) : ∀ (bs : List Nat) (β t : List Ω), β.length = bs.length →
    drawAll (seedTape g) bs (β ++ t) = (List.zipWith g bs β, t)
  | [], [], t, _ => rfl
  | b :: bs, x :: β, t, h => by
    have ih := drawAll_seeds g bs β t (by simpa using h)
    simp only [drawAll, seedTape, List.cons_append, List.headD_cons, List.tail_cons, List.zipWith_cons_cons]
    simp only [seedTape] at ih
    rw [ih]

theorem turn_seeds (g : Nat → Ω → BoxedUint) (np bitSize : Nat) (β t : List Ω) (h : β.length = np) :
    turn (seedTape g) np bitSize (β ++ t) = (found g np bitSize β, t) :=
  drawAll_seeds g _ β t (by simp [shares, h])

theorem found_limbs {g : Nat → Ω → BoxedUint} {np bitSize : Nat} {e : BoxedUint} (hs : Searched g np bitSize e) (β : List Ω)
    (h : β.length = np) : e.nlimbs ≤ totientLimbs (found g np bitSize β) := by
  have hsum : ∀ (bs : List Nat) (γ : List Ω), γ.length = bs.length →
      (∀ b ∈ bs, ∀ x, 1 ≤ (g b x).nlimbs) → bs.length ≤ ((List.zipWith g bs γ).map BoxedUint.nlimbs).sum := by
    intro bs
    induction bs with
    | nil => intro γ _ _; simp
    | cons b bs ih =>
      intro γ hl h1
      rcases γ with _ | ⟨x, γ⟩
      · simp at hl
      · have := ih γ (by simpa using hl) (fun b hb => h1 b (by simp [hb]))
        have := h1 b (by simp) x
        simp only [List.zipWith_cons_cons, List.map_cons, List.sum_cons, List.length_cons]
        omega
  have hlen : (shares np (totalBits np bitSize)).length = np := by simp [shares]
  have hb2 : ∀ b ∈ shares np (totalBits np bitSize), 2 ≤ b := by
    intro b hb
    obtain ⟨i, -, rfl⟩ := List.mem_map.mp hb
    rw [Nat.le_div_iff_mul_le (by have := hs.two; omega)]
    have := hs.room
    omega
  have := hsum (shares np (totalBits np bitSize)) β (by rw [hlen, h]) (fun b hb x => by
    have h1 := (hs.top b hb (hb2 b hb)).limbs [x]
    have h2 := hb2 b hb
    simp only [seedTape, List.headD_cons] at h1
    rw [h1]; omega)
  rw [hlen] at this
  unfold totientLimbs found
  have := hs.narrow
  omega

/-- One turn. -/
theorem generate_turn {g : Nat → Ω → BoxedUint} {np bitSize : Nat} {e : BoxedUint} (hs : Searched g np bitSize e)
    (fuel : Nat) (β t : List Ω) (h : β.length = np) :
    (¬ Usable bitSize e.val (found g np bitSize β) →
      generateMultiPrimeKeyWithExp (seedTape g) (fuel + 1) (β ++ t) np bitSize e =
        generateMultiPrimeKeyWithExp (seedTape g) fuel t np bitSize e) ∧
    (Usable bitSize e.val (found g np bitSize β) → ∃ c, IsComponents e (found g np bitSize β) c ∧
      generateMultiPrimeKeyWithExp (seedTape g) (fuel + 1) (β ++ t) np bitSize e = .ok (c, t)) := by
  have hiff := C83_components (seedTape g) np bitSize e hs.word hs.top
  have hturn := turn_seeds g np bitSize β t h
  have hlimbs := found_limbs hs β h
  have unpack : ∀ f s, Searches (seedTape g) np bitSize e f s (generateMultiPrimeKeyWithExp (seedTape g) f s np bitSize e) := by
    intro f s
    have := (hiff f s _).mp rfl
    generalize generateMultiPrimeKeyWithExp (seedTape g) f s np bitSize e = r at this
    cases this with
    | fewPrimes h => have := hs.two; omega
    | small _ h => exact absurd h hs.large
    | noTurn _ _ hf => subst hf; exact .searching s
    | noSieve _ _ _ hb => have := hs.room; omega
    | search _ _ _ _ hr => exact hr
  refine ⟨fun hu => ?_, fun hu => ?_⟩
  · refine (hiff _ _ _).mpr (.search hs.two hs.large hs.room _ ?_)
    refine .again fuel _ _ ?_ ?_
    · rw [hturn]
      by_cases hg : GoodProduct bitSize (found g np bitSize β)
      · exact Or.inr ⟨hlimbs, fun hc => hu ⟨hg, hc⟩⟩
      · exact Or.inl hg
    · rw [hturn]
      exact unpack fuel t
  · have := unpack (fuel + 1) (β ++ t)
    generalize generateMultiPrimeKeyWithExp (seedTape g) (fuel + 1) (β ++ t) np bitSize e = r at this
    cases this with
    | again _ _ _ hbad _ =>
      rw [hturn] at hbad
      rcases hbad with hbad | ⟨-, hbad⟩
      · exact absurd hu.1 hbad
      · exact absurd hu.2 hbad
    | wide _ _ _ hw =>
      rw [hturn] at hw
      simp only at hw
      omega
    | done _ _ c _ _ hc =>
      rw [hturn] at hc
      simp only [hturn]
      exact ⟨c, hc, rfl⟩

theorem generate_none {g : Nat → Ω → BoxedUint} {np bitSize : Nat} {e : BoxedUint} (hs : Searched g np bitSize e)
    (t : List Ω) : generateMultiPrimeKeyWithExp (seedTape g) 0 t np bitSize e = .loop :=
  (C83_components (seedTape g) np bitSize e hs.word hs.top 0 t _).mpr (.noTurn hs.two hs.large rfl)

theorem append_ncard {S T : Set (List Ω)} {n : Nat} (hS : ∀ β ∈ S, β.length = n) :
    ((fun p : List Ω × List Ω => p.1 ++ p.2) '' (S ×ˢ T)).ncard = S.ncard * T.ncard := by
  have hinj : Set.InjOn (fun p : List Ω × List Ω => p.1 ++ p.2) (S ×ˢ T) := by
    rintro ⟨a, b⟩ ⟨h1, -⟩ ⟨c, d⟩ ⟨h2, -⟩ h
    obtain ⟨rfl, rfl⟩ := List.append_inj h ((hS a h1).trans (hS c h2).symm)
    rfl
  rw [hinj.ncard_image, Set.ncard_prod]

theorem split_block {n m : Nat} (t : List Ω) (h : t.length = n * (m + 1)) :
    ∃ β u, t = β ++ u ∧ β.length = n ∧ u.length = n * m := by
  refine ⟨t.take n, t.drop n, (List.take_append_drop _ _).symm, ?_, ?_⟩
  · rw [List.length_take, h, Nat.mul_succ]; omega
  · rw [List.length_drop, h, Nat.mul_succ]; omega

/-- C95: with room for `N` turns, generation is still searching after exactly `badTurns ^ N` of the tapes. -/
theorem C95_searching {g : Nat → Ω → BoxedUint} {np bitSize : Nat} {e : BoxedUint} (hs : Searched g np bitSize e) (N : Nat) :
    {t : List Ω | t.length = np * N ∧ generateMultiPrimeKeyWithExp (seedTape g) N t np bitSize e = .loop}.ncard =
      (badTurns g np bitSize e.val).ncard ^ N := by
  induction N with
  | zero =>
    rw [pow_zero, Set.ncard_eq_one]
    refine ⟨[], ?_⟩
    ext t
    simp only [Nat.mul_zero, List.length_eq_zero_iff, Set.mem_ofPred_eq, Set.mem_singleton_iff]
    exact ⟨fun h => h.1, fun h => ⟨h, generate_none hs t⟩⟩
  | succ N ih =>
    rw [pow_succ, mul_comm (_ ^ N), ← ih, ← append_ncard (S := badTurns g np bitSize e.val) (n := np) (fun β h => h.1)]
    congr 1
    ext t
    simp only [Set.mem_ofPred_eq, Set.mem_image, Set.mem_prod, Prod.exists]
    constructor
    · rintro ⟨hl, h⟩
      obtain ⟨β, u, rfl, hb, hu⟩ := split_block t hl
      obtain ⟨h1, h2⟩ := generate_turn hs N β u hb
      by_cases hus : Usable bitSize e.val (found g np bitSize β)
      · obtain ⟨c, -, h3⟩ := h2 hus
        rw [h3] at h; cases h
      · exact ⟨β, u, ⟨⟨hb, hus⟩, hu, by rw [← h1 hus]; exact h⟩, rfl⟩
    · rintro ⟨β, u, ⟨⟨hb, hus⟩, hu, h⟩, rfl⟩
      refine ⟨by rw [List.length_append, hb, hu, Nat.mul_succ]; omega, ?_⟩
      rw [(generate_turn hs N β u hb).1 hus]; exact h

/-- C95: components with primes in `E` are found in turn `i + 1` from exactly `badTurns ^ i * turnsInto E` of the tapes of
that many turns. -/
theorem C95_found {g : Nat → Ω → BoxedUint} {np bitSize : Nat} {e : BoxedUint} (hs : Searched g np bitSize e)
    (E : Set (List BoxedUint)) (i : Nat) :
    {t : List Ω | t.length = np * (i + 1) ∧ ∃ c, IsComponents e c.primes c ∧ c.primes ∈ E ∧
      generateMultiPrimeKeyWithExp (seedTape g) (i + 1) t np bitSize e = .ok (c, [])}.ncard =
      (badTurns g np bitSize e.val).ncard ^ i * (turnsInto g np bitSize e.val E).ncard := by
  have hnp := hs.two
  induction i with
  | zero =>
    rw [pow_zero, one_mul]
    congr 1
    ext t
    simp only [Set.mem_ofPred_eq, turnsInto, goodTurns, Nat.zero_add, Nat.mul_one, and_assoc]
    refine and_congr_right fun hl => ?_
    obtain ⟨h1, h2⟩ := generate_turn hs 0 t [] hl
    rw [List.append_nil] at h1 h2
    constructor
    · rintro ⟨c, hc, hE, h⟩
      by_cases hus : Usable bitSize e.val (found g np bitSize t)
      · obtain ⟨c', hc', h3⟩ := h2 hus
        rw [h3] at h
        obtain ⟨rfl, -⟩ := Prod.mk.inj (Res.ok.inj h)
        rw [← hc'.primes]
        exact ⟨by rw [hc'.primes]; exact hus, hE⟩
      · rw [h1 hus, generate_none hs] at h; cases h
    · rintro ⟨hus, hE⟩
      obtain ⟨c, hc, h⟩ := h2 hus
      have hp := hc.primes
      exact ⟨c, by rw [hp]; exact hc, by rw [hp]; exact hE, h⟩
  | succ i ih =>
    rw [pow_succ, mul_comm (_ ^ i), mul_assoc, ← ih, ← append_ncard (S := badTurns g np bitSize e.val) (n := np) (fun β h => h.1)]
    congr 1
    ext t
    simp only [Set.mem_ofPred_eq, Set.mem_image, Set.mem_prod, Prod.exists]
    constructor
    · rintro ⟨hl, c, hc, hE, h⟩
      obtain ⟨β, u, rfl, hb, hu⟩ := split_block t hl
      obtain ⟨h1, h2⟩ := generate_turn hs (i + 1) β u hb
      by_cases hus : Usable bitSize e.val (found g np bitSize β)
      · obtain ⟨c', -, h3⟩ := h2 hus
        rw [h3] at h
        obtain ⟨-, rfl⟩ := Prod.mk.inj (Res.ok.inj h)
        have : 0 < np * (i + 1) := Nat.mul_pos (by omega) (by omega)
        rw [← hu] at this
        simp at this
      · exact ⟨β, u, ⟨⟨hb, hus⟩, hu, c, hc, hE, by rw [← h1 hus]; exact h⟩, rfl⟩
    · rintro ⟨β, u, ⟨⟨hb, hus⟩, hu, c, hc, hE, h⟩, rfl⟩
      refine ⟨by rw [List.length_append, hb, hu, Nat.mul_succ np (i + 1)]; omega, c, hc, hE, ?_⟩
      rw [(generate_turn hs (i + 1) β u hb).1 hus]; exact h

/-- C95: every turn is good or bad. -/
theorem C95_turns [Finite Ω] (g : Nat → Ω → BoxedUint) (np bitSize e : Nat) :
    (badTurns g np bitSize e).ncard + (goodTurns g np bitSize e).ncard = Nat.card Ω ^ np := by
  have hall : ∀ n, {β : List Ω | β.length = n}.ncard = Nat.card Ω ^ n := by
    intro n
    have := Fintype.ofFinite Ω
    rw [← Nat.card_coe_set_eq]
    have : Nat.card (List.Vector Ω n) = Nat.card Ω ^ n := by
      rw [Nat.card_eq_fintype_card, Nat.card_eq_fintype_card, card_vector]
    exact this
  have hf1 : (badTurns g np bitSize e).Finite := (List.finite_length_eq Ω np).subset fun β h => h.1
  have hf2 : (goodTurns g np bitSize e).Finite := (List.finite_length_eq Ω np).subset fun β h => h.1
  rw [← hall, ← Set.ncard_union_eq ?_ hf1 hf2]
  · congr 1
    ext β
    simp only [badTurns, goodTurns, Set.mem_union, Set.mem_ofPred_eq]
    tauto
  · rw [Set.disjoint_left]
    rintro β ⟨-, h1⟩ ⟨-, h2⟩
    exact h1 h2

theorem geometric_law {w u T h : Nat} (hT : w + u = T) (hu : 0 < u) :
    HasSum (fun i : Nat => ((w ^ i * h : Nat) : ℝ) / T ^ (i + 1)) (h / u) ∧
    HasSum (fun i : Nat => i * (((w ^ i * u : Nat) : ℝ) / T ^ (i + 1))) (w / u) := by
  have hsum : (T : ℝ) = w + u := by exact_mod_cast hT.symm
  have hup : (0 : ℝ) < u := by exact_mod_cast hu
  have hTp : (0 : ℝ) < T := by rw [hsum]; positivity
  have h0 : (0 : ℝ) ≤ w / T := by positivity
  have h1 : (w : ℝ) / T < 1 := by rw [div_lt_one hTp, hsum]; linarith
  have hterm : ∀ i x : Nat, ((w ^ i * x : Nat) : ℝ) / T ^ (i + 1) = x / T * ((w : ℝ) / T) ^ i := by
    intro i x
    push_cast
    rw [div_pow, pow_succ]
    field_simp
  simp only [hterm]
  have hr : (1 : ℝ) - w / T = u / T := by
    rw [eq_div_iff hTp.ne', sub_mul, div_mul_cancel₀ _ hTp.ne']; linarith
  constructor
  · refine hasSum_of_eq ((hasSum_geometric_of_lt_one h0 h1).mul_left ((h : ℝ) / T)) (fun _ => rfl) ?_
    rw [hr]
    field_simp
  · have hg := (hasSum_coe_mul_geometric_of_norm_lt_one (r := (w : ℝ) / T)
      (by rw [Real.norm_eq_abs, abs_of_nonneg h0]; exact h1)).mul_left ((u : ℝ) / T)
    refine hasSum_of_eq hg (fun i => by ring) ?_
    rw [hr]
    field_simp

/-- C95: the probability that the primes found lie in `E` is the share of `E` among the usable turns; in the mean
`badTurns / goodTurns` turns are repeated. -/
theorem C95_law [Finite Ω] {g : Nat → Ω → BoxedUint} {np bitSize : Nat} {e : BoxedUint} (hs : Searched g np bitSize e)
    (hgood : 0 < (goodTurns g np bitSize e.val).ncard) (E : Set (List BoxedUint)) :
    HasSum (fun i : Nat => ({t : List Ω | t.length = np * (i + 1) ∧ ∃ c, IsComponents e c.primes c ∧ c.primes ∈ E ∧
        generateMultiPrimeKeyWithExp (seedTape g) (i + 1) t np bitSize e = .ok (c, [])}.ncard : ℝ) /
        Nat.card Ω ^ (np * (i + 1)))
      ((turnsInto g np bitSize e.val E).ncard / (goodTurns g np bitSize e.val).ncard) ∧
    HasSum (fun i : Nat => i * (({t : List Ω | t.length = np * (i + 1) ∧ ∃ c, IsComponents e c.primes c ∧
        c.primes ∈ Set.univ ∧ generateMultiPrimeKeyWithExp (seedTape g) (i + 1) t np bitSize e = .ok (c, [])}.ncard : ℝ) /
        Nat.card Ω ^ (np * (i + 1))))
      ((badTurns g np bitSize e.val).ncard / (goodTurns g np bitSize e.val).ncard) := by
  have hT := C95_turns g np bitSize e.val
  have huniv : turnsInto g np bitSize e.val Set.univ = goodTurns g np bitSize e.val := by
    ext β; simp [turnsInto]
  simp only [C95_found hs, huniv, pow_mul]
  have := geometric_law (h := (turnsInto g np bitSize e.val E).ncard) hT hgood
  push_cast at this ⊢
  exact this

/-- C95: if some turn is usable, the proportion of tapes still searching tends to zero; if none is, the search never ends. -/
theorem C95_ends [Finite Ω] {g : Nat → Ω → BoxedUint} {np bitSize : Nat} {e : BoxedUint} (hs : Searched g np bitSize e) :
    (0 < (goodTurns g np bitSize e.val).ncard → Filter.Tendsto (fun N : Nat => ({t : List Ω | t.length = np * N ∧
      generateMultiPrimeKeyWithExp (seedTape g) N t np bitSize e = .loop}.ncard : ℝ) / Nat.card Ω ^ (np * N))
      Filter.atTop (nhds 0)) ∧
    (goodTurns g np bitSize e.val = ∅ → ∀ N (t : List Ω), t.length = np * N →
      generateMultiPrimeKeyWithExp (seedTape g) N t np bitSize e = .loop) := by
  have hT := C95_turns g np bitSize e.val
  constructor
  · intro hgood
    simp only [C95_searching hs, pow_mul]
    have : ∀ N, (((badTurns g np bitSize e.val).ncard ^ N : Nat) : ℝ) / ((Nat.card Ω : ℝ) ^ np) ^ N =
        ((badTurns g np bitSize e.val).ncard / ((Nat.card Ω ^ np : Nat) : ℝ)) ^ N := by
      intro N; rw [div_pow]; push_cast; rfl
    simp only [this]
    have hlt : (badTurns g np bitSize e.val).ncard < Nat.card Ω ^ np := by omega
    refine tendsto_pow_atTop_nhds_zero_of_lt_one (by positivity) ?_
    rw [div_lt_one (by have : 0 < Nat.card Ω ^ np := by omega
                       exact_mod_cast this)]
    exact_mod_cast hlt
  · intro hnone N
    induction N with
    | zero => intro t _; exact generate_none hs t
    | succ N ih =>
      intro t ht
      obtain ⟨β, u, rfl, hb, hu⟩ := split_block t ht
      rw [(generate_turn hs N β u hb).1 fun h => by
        have : β ∈ goodTurns g np bitSize e.val := ⟨hb, h⟩
        rw [hnone] at this; exact this]
      exact ih u hu

/-- C95: for given usable numbers the turns that find them are counted by the choices behind each. -/
theorem C95_hits (g : Nat → Ω → BoxedUint) (np bitSize e : Nat) (ps : List BoxedUint) (hl : ps.length = np)
    (hps : Usable bitSize e ps) : (turnsInto g np bitSize e {ps}).ncard =
      (List.zipWith (fun b p => {ω : Ω | g b ω = p}.ncard) (shares np (totalBits np bitSize)) ps).prod := by
  have key : ∀ (bs : List Nat) (qs : List BoxedUint), qs.length = bs.length →
      {β : List Ω | β.length = bs.length ∧ List.zipWith g bs β = qs}.ncard =
        (List.zipWith (fun b p => {ω : Ω | g b ω = p}.ncard) bs qs).prod := by
    intro bs
    induction bs with
    | nil =>
      intro qs hq
      obtain rfl : qs = [] := by simpa using hq
      have : {β : List Ω | β.length = ([] : List Nat).length ∧ List.zipWith g [] β = []} = {[]} := by
        ext β; simp
      rw [this]; simp
    | cons b bs ih =>
      intro qs hq
      rcases qs with _ | ⟨q, qs⟩
      · simp at hq
      have hset : {β : List Ω | β.length = (b :: bs).length ∧ List.zipWith g (b :: bs) β = q :: qs} =
          (fun p : Ω × List Ω => p.1 :: p.2) '' ({ω : Ω | g b ω = q} ×ˢ
            {β : List Ω | β.length = bs.length ∧ List.zipWith g bs β = qs}) := by
        ext β
        rcases β with _ | ⟨x, β⟩
        · simp
        · simp only [Set.mem_ofPred_eq, List.length_cons, Nat.add_right_cancel_iff, List.zipWith_cons_cons, List.cons.injEq,
            Set.mem_image, Set.mem_prod, Prod.exists]
          constructor
          · rintro ⟨h1, h2, h3⟩; exact ⟨x, β, ⟨h2, h1, h3⟩, rfl, rfl⟩
          · rintro ⟨x, β, ⟨h2, h1, h3⟩, rfl, rfl⟩; exact ⟨h1, h2, h3⟩
      have hinj : Function.Injective (fun p : Ω × List Ω => p.1 :: p.2) := by
        rintro ⟨a, b⟩ ⟨c, d⟩ h; simpa using h
      rw [hset, Set.ncard_image_of_injective _ hinj, Set.ncard_prod, ih qs (by simpa using hq)]
      simp
  have hlen : (shares np (totalBits np bitSize)).length = np := by simp [shares]
  rw [← key _ _ (by rw [hlen, hl]), hlen]
  congr 1
  ext β
  simp only [turnsInto, goodTurns, found, Set.mem_ofPred_eq, Set.mem_singleton_iff]
  constructor
  · rintro ⟨⟨h1, -⟩, h2⟩; exact ⟨h1, h2⟩
  · rintro ⟨h1, h2⟩; exact ⟨⟨h1, by rw [h2]; exact hps⟩, h2⟩

/-- C95: `RsaPrivateKey::new_with_exp` gives a key with primes in `E` after `i + 1` turns from exactly as many tapes, and
is still searching from exactly as many. -/
theorem C95_key {g : Nat → Ω → BoxedUint} {bitSize : Nat} {e : BoxedUint} (hs : Searched g 2 bitSize e)
    (hP : PrimeSearch (seedTape g)) (hmax : bitSize ≤ 4096) (he2 : 2 ≤ e.val) (hemax : e.val ≤ 2 ^ 33 - 1)
    (hen : e.val < 2 ^ (bitSize - 1)) (E : Set (List BoxedUint)) (i : Nat) :
    {t : List Ω | t.length = 2 * (i + 1) ∧ ∃ k, PrivateKey.newWithExp (seedTape g) (i + 1) t bitSize e = .ok (k, []) ∧
      WellFormed k ∧ k.pub.e = e ∧ k.primes ∈ E}.ncard =
      (badTurns g 2 bitSize e.val).ncard ^ i * (turnsInto g 2 bitSize e.val E).ncard ∧
    {t : List Ω | t.length = 2 * i ∧ PrivateKey.newWithExp (seedTape g) i t bitSize e = .loop}.ncard =
      (badTurns g 2 bitSize e.val).ncard ^ i := by
  have htb : totalBits 2 bitSize = bitSize := rfl
  have h12 : 12 ≤ bitSize := not_lt.mp hs.large
  have hpub : ∀ fuel t c u, Searches (seedTape g) 2 bitSize e fuel t (.ok (c, u)) →
      PublicOk c.n.toBoxedUint.prec c.n.toBoxedUint.val e.val := by
    intro fuel t c u h
    generalize hr : (Res.ok (c, u) : Res (Components × List Ω)) = r at h
    induction h with
    | searching => cases hr
    | again _ _ _ _ _ ih => exact ih hr
    | wide => cases hr
    | done _ s c' hg _ hc =>
      obtain ⟨rfl, -⟩ := Prod.mk.inj (Res.ok.inj hr)
      obtain ⟨p, q, hturn, hp, hq⟩ : ∃ p q, (turn (seedTape g) 2 bitSize s).1 = [p, q] ∧
          (p.val % 2 = 1 ∧ p.nlimbs = (bitSize / 2 + 63) / 64) ∧ q.nlimbs = ((bitSize + 1) / 2 + 63) / 64 := by
        have h1 := hs.top (bitSize / 2) (by simp [shares, htb, List.range_succ]) (by omega)
        have h2 := hs.top ((bitSize + 1) / 2) (by simp [shares, htb, List.range_succ]) (by omega)
        exact ⟨_, _, rfl, ⟨h1.odd s, h1.limbs s⟩, h2.limbs _⟩
      rw [hturn] at hg hc
      have hn := hc.n
      have hsize := hg.2
      rw [← hn] at hsize
      have hlow : 2 ^ (bitSize - 1) ≤ c.n.toBoxedUint.val := by
        rw [← Nat.lt_size, hsize]; omega
      have heo : e.val % 2 = 1 := by
        by_contra hcon
        have h2T : 2 ∣ totient [p, q] := by
          simp only [totient, List.map_cons, List.prod_cons]
          exact Dvd.dvd.mul_right (by omega) _
        have h1 := hc.d_inverse
        have h2 : 2 ∣ e.val * c.d.val := Dvd.dvd.mul_right (by omega) _
        have := (Nat.dvd_mod_iff h2T).mpr h2
        rw [h1] at this
        omega
      refine ⟨?_, lt_of_lt_of_le hen hlow, c.n.odd, heo, he2, hemax⟩
      have hl := hc.n_limbs
      simp only [List.map_cons, List.map_nil, List.sum_cons, List.sum_nil] at hl
      show 64 * c.n.toBoxedUint.nlimbs ≤ 4096
      rw [hl, hp.2, hq]; omega
  have hrel : ∀ fuel t r, Searches (seedTape g) 2 bitSize e fuel t r →
      generateMultiPrimeKeyWithExp (seedTape g) fuel t 2 bitSize e = r := fun fuel t r h =>
    (C83_components (seedTape g) 2 bitSize e hs.word hs.top fuel t r).mpr (.search le_rfl hs.large hs.room r h)
  have hcomp : ∀ fuel t c u, Searches (seedTape g) 2 bitSize e fuel t (.ok (c, u)) → IsComponents e c.primes c := by
    intro fuel t c u h
    generalize hr : (Res.ok (c, u) : Res (Components × List Ω)) = r at h
    induction h with
    | searching => cases hr
    | again _ _ _ _ _ ih => exact ih hr
    | wide => cases hr
    | done _ s c' _ _ hc =>
      obtain ⟨rfl, -⟩ := Prod.mk.inj (Res.ok.inj hr)
      rw [hc.primes]; exact hc
  constructor
  · rw [← C95_found hs E i]
    congr 1
    ext t
    simp only [Set.mem_ofPred_eq]
    refine and_congr_right fun _ => ?_
    obtain ⟨r, hr, hm⟩ := (C83_new_with_exp (seedTape g) hP bitSize e hs.word hs.top (i + 1) t).2 h12
    rw [hrel _ _ _ hr]
    rcases r with ⟨c, u⟩ | _ | _ | _
    · obtain ⟨k, hk, hwf, -, hke, -, hkp, -⟩ := hm.2 (hpub _ _ _ _ hr)
      rw [hk]
      constructor
      · rintro ⟨k', h, -, -, hE⟩
        obtain ⟨rfl, rfl⟩ := Prod.mk.inj (Res.ok.inj h)
        exact ⟨c, hcomp _ _ _ _ hr, by rw [← hkp]; exact hE, rfl⟩
      · rintro ⟨c', -, hE, h⟩
        obtain ⟨rfl, rfl⟩ := Prod.mk.inj (Res.ok.inj h)
        exact ⟨k, rfl, hwf, hke, by rw [hkp]; exact hE⟩
    · exact hm.elim
    · rw [hm]; simp
    · rw [hm]; simp
  · rw [← C95_searching hs i]
    congr 1
    ext t
    simp only [Set.mem_ofPred_eq]
    refine and_congr_right fun _ => ?_
    obtain ⟨r, hr, hm⟩ := (C83_new_with_exp (seedTape g) hP bitSize e hs.word hs.top i t).2 h12
    rw [hrel _ _ _ hr]
    rcases r with ⟨c, u⟩ | _ | _ | _
    · obtain ⟨k, hk, -⟩ := hm.2 (hpub _ _ _ _ hr)
      rw [hk]; simp
    · exact hm.elim
    · rw [hm]; simp
    · rw [hm]; simp

/-- C95: the probability that the key has primes in `E` is the share of `E` among the usable turns. -/
theorem C95_key_law [Finite Ω] {g : Nat → Ω → BoxedUint} {bitSize : Nat} {e : BoxedUint} (hs : Searched g 2 bitSize e)
    (hP : PrimeSearch (seedTape g)) (hmax : bitSize ≤ 4096) (he2 : 2 ≤ e.val) (hemax : e.val ≤ 2 ^ 33 - 1)
    (hen : e.val < 2 ^ (bitSize - 1)) (hgood : 0 < (goodTurns g 2 bitSize e.val).ncard) (E : Set (List BoxedUint)) :
    HasSum (fun i : Nat => ({t : List Ω | t.length = 2 * (i + 1) ∧ ∃ k,
        PrivateKey.newWithExp (seedTape g) (i + 1) t bitSize e = .ok (k, []) ∧ WellFormed k ∧ k.pub.e = e ∧
        k.primes ∈ E}.ncard : ℝ) / Nat.card Ω ^ (2 * (i + 1)))
      ((turnsInto g 2 bitSize e.val E).ncard / (goodTurns g 2 bitSize e.val).ncard) := by
  simp only [(C95_key hs hP hmax he2 hemax hen E _).1, pow_mul]
  have := (geometric_law (h := (turnsInto g 2 bitSize e.val E).ncard) (C95_turns g 2 bitSize e.val) hgood).1
  push_cast at this ⊢
  exact this

/-- C95: if different choices of the search find different numbers, all the keys that can be found are equally likely. -/
theorem C95_equally_likely [Finite Ω] {g : Nat → Ω → BoxedUint} {bitSize : Nat} {e : BoxedUint} (hs : Searched g 2 bitSize e)
    (hP : PrimeSearch (seedTape g)) (hmax : bitSize ≤ 4096) (he2 : 2 ≤ e.val) (hemax : e.val ≤ 2 ^ 33 - 1)
    (hen : e.val < 2 ^ (bitSize - 1)) (hinj : ∀ b ∈ shares 2 bitSize, Function.Injective (g b))
    (x y : Ω)
    (hu : Usable bitSize e.val [g (bitSize / 2) x, g ((bitSize + 1) / 2) y]) :
    HasSum (fun i : Nat => ({t : List Ω | t.length = 2 * (i + 1) ∧ ∃ k,
        PrivateKey.newWithExp (seedTape g) (i + 1) t bitSize e = .ok (k, []) ∧ WellFormed k ∧ k.pub.e = e ∧
        k.primes = [g (bitSize / 2) x, g ((bitSize + 1) / 2) y]}.ncard : ℝ) / Nat.card Ω ^ (2 * (i + 1)))
      (1 / (goodTurns g 2 bitSize e.val).ncard) := by
  have hone : (turnsInto g 2 bitSize e.val {[g (bitSize / 2) x, g ((bitSize + 1) / 2) y]}).ncard = 1 := by
    have hfib : ∀ b ∈ shares 2 bitSize, ∀ z, {ω : Ω | g b ω = g b z}.ncard = 1 := by
      intro b hb z
      rw [Set.ncard_eq_one]
      exact ⟨z, by ext ω; exact ⟨fun h => hinj b hb h, fun h => congrArg (g b) h⟩⟩
    have hfib1 := hfib (bitSize / 2) (by simp [shares, List.range_succ]) x
    have hfib2 := hfib ((bitSize + 1) / 2) (by simp [shares, List.range_succ]) y
    have hsh : shares 2 (totalBits 2 bitSize) = [bitSize / 2, (bitSize + 1) / 2] := rfl
    rw [C95_hits g 2 bitSize e.val _ rfl hu, hsh]
    simp only [List.zipWith_cons_cons, List.zipWith_nil_left, List.prod_cons, List.prod_nil]
    rw [hfib1, hfib2, mul_one, mul_one]
  have hgood : 0 < (goodTurns g 2 bitSize e.val).ncard := by
    refine (Set.ncard_pos ((List.finite_length_eq Ω 2).subset fun β h => h.1)).mpr ⟨[x, y], rfl, ?_⟩
    exact hu
  have := C95_key_law hs hP hmax he2 hemax hen hgood {[g (bitSize / 2) x, g ((bitSize + 1) / 2) y]}
  rw [hone] at this
  simpa using this

/-- A search that finds one of three six-bit primes. -/
def Ex.pool (_ : Nat) (ω : Fin 3) : BoxedUint := wrap 1 ([53, 59, 61].getD ω.val 0)

theorem Ex.pool_searched : Searched Ex.pool 2 12 (wrap 1 3) where
  two := le_rfl
  large := by simp [TooSmall]
  room := by decide
  word := by decide
  narrow := by decide
  top := by
    intro b hb _
    obtain rfl : b = 6 := by simpa [shares, totalBits, List.range_succ] using hb
    have h : ∀ ω : Fin 3, 48 ≤ (Ex.pool 6 ω).val ∧ (Ex.pool 6 ω).val < 64 ∧ (Ex.pool 6 ω).val % 2 = 1 ∧
        (Ex.pool 6 ω).nlimbs = 1 := by decide
    exact ⟨fun s => (h _).1, fun s => (h _).2.1, fun s => (h _).2.2.1, fun s => (h _).2.2.2⟩

theorem Ex.pool_prime : PrimeSearch (seedTape Ex.pool) := by
  have h : ∀ ω : Fin 3, (Ex.pool 0 ω).val.Prime := by decide +kernel
  exact fun s b _ => h _

instance (bitSize e : Nat) (ps : List BoxedUint) : Decidable (Usable bitSize e ps) := by
  unfold Usable GoodProduct; infer_instance

/-- Of the nine turns two are usable: 61 - 1 is a multiple of 3. -/
theorem Ex.pool_good : goodTurns Ex.pool 2 12 3 = {[0, 1], [1, 0]} := by
  ext β
  rcases β with _ | ⟨a, _ | ⟨b, _ | ⟨c, β⟩⟩⟩
  · simp [goodTurns]
  · simp [goodTurns]
  · have h : ∀ a b : Fin 3, Usable 12 3 (found Ex.pool 2 12 [a, b]) ↔ (a = 0 ∧ b = 1) ∨ (a = 1 ∧ b = 0) := by
      decide +kernel
    simp [goodTurns, h]
  · simp [goodTurns]

/-- Each of the two keys has probability one half. -/
example : HasSum (fun i : Nat => ({t : List (Fin 3) | t.length = 2 * (i + 1) ∧ ∃ k,
    PrivateKey.newWithExp (seedTape Ex.pool) (i + 1) t 12 (wrap 1 3) = .ok (k, []) ∧ WellFormed k ∧ k.pub.e = wrap 1 3 ∧
    k.primes = [wrap 1 59, wrap 1 53]}.ncard : ℝ) / Nat.card (Fin 3) ^ (2 * (i + 1))) (1 / 2) := by
  have h := C95_equally_likely Ex.pool_searched Ex.pool_prime (by decide) (by decide) (by decide) (by decide)
    (fun b _ => by have : Function.Injective (Ex.pool 0) := by decide +kernel
                   exact this) 1 0 (by decide +kernel)
  have h3 : (wrap 1 3).val = 3 := by decide
  rw [h3, Ex.pool_good, Set.ncard_pair (by simp)] at h
  exact_mod_cast h

/-- In the mean three and a half turns are repeated. -/
example : (badTurns Ex.pool 2 12 3).ncard = 7 := by
  have := C95_turns Ex.pool 2 12 3
  rw [Ex.pool_good, Set.ncard_pair (by simp)] at this
  simp only [Nat.card_eq_fintype_card, Fintype.card_fin] at this
  omega

/-- The run of one tape: a repeated turn, then the key. -/
example : (match PrivateKey.newWithExp (seedTape Ex.pool) 2 [2, 1, 0, 1] 12 (wrap 1 3) with
    | .ok (k, s) => decide (k.primes = [wrap 1 53, wrap 1 59] ∧ s = [])
    | _ => false) = true := by decide +kernel

/-- The primes of the pool, drawn again and again. -/
example := C95_searching Ex.pool_searched 4
example := C95_found Ex.pool_searched {ps | ps.length = 2} 4
example := C95_law Ex.pool_searched
  (by show 0 < (goodTurns Ex.pool 2 12 3).ncard; rw [Ex.pool_good, Set.ncard_pair (by simp)]; decide) {[wrap 1 59, wrap 1 53]}
example := (C95_ends Ex.pool_searched).1
  (by show 0 < (goodTurns Ex.pool 2 12 3).ncard; rw [Ex.pool_good, Set.ncard_pair (by simp)]; decide)
example := C95_hits Ex.pool 2 12 3 [wrap 1 53, wrap 1 59] rfl (by
  have h : found Ex.pool 2 12 [0, 1] = [wrap 1 53, wrap 1 59] := by decide +kernel
  rw [← h]
  exact (show ([0, 1] : List (Fin 3)) ∈ goodTurns Ex.pool 2 12 3 by rw [Ex.pool_good]; simp).2)
example := C95_key Ex.pool_searched Ex.pool_prime (by decide) (by decide) (by decide) (by decide) {ps | ps.length = 2} 4
example := C95_key_law Ex.pool_searched Ex.pool_prime (by decide) (by decide) (by decide) (by decide)
  (by show 0 < (goodTurns Ex.pool 2 12 3).ncard; rw [Ex.pool_good, Set.ncard_pair (by simp)]; decide) {ps | ps.length = 2}

end RSA
