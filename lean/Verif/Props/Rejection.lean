import Verif.Spec.Rejection
import Verif.Props.Uniform
import Verif.Props.SignatureOutcome
import Verif.Props.Session
import Mathlib.Analysis.SpecificLimits.Normed

/-
C94: the loops that draw again end with probability one, and how many draws they take.
-/
namespace RSA
open BoxedUint Spec

/-! ### Padding -/

theorem usable_cons (b : UInt8) (t : Bytes) : usable (b :: t) = usable t + if b = 0 then 0 else 1 := by
  unfold usable
  rw [List.countP_cons]
  by_cases h : b = 0 <;> simp [h]

/-- Redrawing one octet. -/
theorem reroll_usable : ∀ (f : Nat) (s : Bytes), s.length < f →
    (usable s = 0 → rerollByte octetTape f s = .err .rng) ∧
    (0 < usable s → ∃ b s', rerollByte octetTape f s = .ok (b, s') ∧ usable s = usable s' + 1 ∧ s'.length < s.length)
  | 0, s, h => by omega
  | f + 1, [], h => by
    rw [rerollByte, tape_fill_nil]
    exact ⟨fun _ => rfl, fun h => absurd h (by simp [usable])⟩
  | f + 1, c :: s, h => by
    rw [rerollByte, tape_fill_one, Res.ok_bind]
    simp only [idx, List.getElem?_cons_zero, Res.ok_bind]
    rw [usable_cons]
    by_cases hc : c = 0
    · simp only [hc, if_true, Nat.add_zero]
      obtain ⟨h1, h2⟩ := reroll_usable f s (by simpa using h)
      refine ⟨h1, fun hu => ?_⟩
      obtain ⟨b, s', h3, h4, h5⟩ := h2 hu
      exact ⟨b, s', h3, h4, by simp; omega⟩
    · simp only [hc, if_false]
      exact ⟨fun h => by omega, fun _ => ⟨c, s, rfl, rfl, by simp⟩⟩

theorem fixZeros_usable (f : Nat) : ∀ (d s : Bytes), s.length < f →
    (usable d + usable s < d.length → fixZeros octetTape f d s = .err .rng) ∧
    (d.length ≤ usable d + usable s → ∃ x s', fixZeros octetTape f d s = .ok (x, s') ∧
      usable d + usable s = d.length + usable s')
  | [], s, _ => ⟨fun h => by simp at h, fun _ => ⟨[], s, rfl, by simp [usable]⟩⟩
  | b :: d, s, hs => by
    rw [fixZeros, usable_cons, List.length_cons]
    by_cases hb : b = 0
    · simp only [hb, if_true, Nat.add_zero]
      obtain ⟨h1, h2⟩ := reroll_usable f s hs
      by_cases hu : usable s = 0
      · rw [h1 hu]
        have : usable d ≤ d.length := List.countP_le_length
        exact ⟨fun _ => rfl, fun h => by omega⟩
      · obtain ⟨c, s', h3, h4, h5⟩ := h2 (by omega)
        obtain ⟨i1, i2⟩ := fixZeros_usable f d s' (by omega)
        rw [h3, Res.ok_bind]
        refine ⟨fun h => ?_, fun h => ?_⟩
        · simp only; rw [i1 (by omega)]; rfl
        · obtain ⟨x, s2, h6, h7⟩ := i2 (by omega)
          simp only
          rw [h6]
          exact ⟨c :: x, s2, rfl, by omega⟩
    · simp only [hb, if_false]
      obtain ⟨i1, i2⟩ := fixZeros_usable f d s hs
      rw [Res.ok_bind]
      refine ⟨fun h => ?_, fun h => ?_⟩
      · simp only; rw [i1 (by omega)]; rfl
      · obtain ⟨x, s2, h6, h7⟩ := i2 (by omega)
        simp only
        rw [h6]
        exact ⟨b :: x, s2, rfl, by omega⟩

/-- C94: a padding string of `len` octets is made from a tape exactly if the tape holds `len` non-zero octets; otherwise the
generator runs dry. -/
theorem C94_padding (fuel len : Nat) (t : Bytes) (hf : t.length < fuel) :
    (len ≤ usable t → ∃ x rest, nonZeroRandomBytes octetTape fuel t len = .ok (x, rest) ∧
      usable t = len + usable rest) ∧
    (usable t < len → nonZeroRandomBytes octetTape fuel t len = .err .rng) := by
  unfold nonZeroRandomBytes RngImpl.tryFill
  have hle : usable t ≤ t.length := List.countP_le_length
  by_cases h : len ≤ t.length
  · have hsplit : usable (t.take len) + usable (t.drop len) = usable t := by
      unfold usable; rw [← List.countP_append, List.take_append_drop]
    have hlen : (t.take len).length = len := by rw [List.length_take]; omega
    obtain ⟨i1, i2⟩ := fixZeros_usable fuel (t.take len) (t.drop len) (by rw [List.length_drop]; omega)
    rw [hsplit, hlen] at i1 i2
    have hfill : octetTape.fill t len = (some (t.take len), t.drop len) := by simp [octetTape, h]
    simp only [hfill, Res.ok_bind]
    exact ⟨i2, i1⟩
  · have hfill : octetTape.fill t len = (none, t) := by simp [octetTape, h]
    simp only [hfill]
    exact ⟨fun h' => by omega, fun _ => rfl⟩

/-- Tapes with `i` usable octets. -/
theorem usable_ncard : ∀ N i : Nat, {t : Bytes | t.length = N ∧ usable t = i}.ncard = N.choose i * 255 ^ i
  | 0, 0 => by
    rw [Nat.choose_self, pow_zero, one_mul, Set.ncard_eq_one]
    refine ⟨[], ?_⟩
    ext t
    simp only [Set.mem_ofPred_eq, List.length_eq_zero_iff, Set.mem_singleton_iff]
    exact ⟨fun h => h.1, by rintro rfl; exact ⟨rfl, rfl⟩⟩
  | 0, i + 1 => by
    rw [Nat.choose_zero_succ, zero_mul]
    convert Set.ncard_empty Bytes
    ext t
    simp only [Set.mem_ofPred_eq, List.length_eq_zero_iff, Set.mem_empty_iff_false, iff_false]
    rintro ⟨rfl, h⟩; cases h
  | N + 1, i => by
    have hinj : Function.Injective (fun p : UInt8 × Bytes => p.1 :: p.2) := by
      rintro ⟨a, b⟩ ⟨c, d⟩ h; simpa using h
    have hfin : ∀ j, {t : Bytes | t.length = N ∧ usable t = j}.Finite :=
      fun j => (List.finite_length_eq UInt8 N).subset fun t ht => ht.1
    have hset : {t : Bytes | t.length = N + 1 ∧ usable t = i} =
        (fun p : UInt8 × Bytes => p.1 :: p.2) '' (({0} : Set UInt8) ×ˢ {t : Bytes | t.length = N ∧ usable t = i} ∪
          ({0}ᶜ : Set UInt8) ×ˢ {t : Bytes | t.length = N ∧ usable t + 1 = i}) := by
      ext t
      rcases t with _ | ⟨b, t⟩
      · simp
      · rw [Set.mem_image]
        simp only [Set.mem_ofPred_eq, usable_cons, List.length_cons, Set.mem_union, Set.mem_prod, Set.mem_singleton_iff,
          Set.mem_compl_iff, Prod.exists, List.cons.injEq]
        by_cases hb : b = 0
        · simp [hb]
        · simp [hb]
    have hdis : Disjoint (({0} : Set UInt8) ×ˢ {t : Bytes | t.length = N ∧ usable t = i})
        (({0}ᶜ : Set UInt8) ×ˢ {t : Bytes | t.length = N ∧ usable t + 1 = i}) := by
      rw [Set.disjoint_left]
      rintro ⟨a, b⟩ ⟨h1, -⟩ ⟨h2, -⟩
      exact h2 h1
    have hfin' : {t : Bytes | t.length = N ∧ usable t + 1 = i}.Finite :=
      (List.finite_length_eq UInt8 N).subset fun t ht => ht.1
    have hc : ({0}ᶜ : Set UInt8).ncard = 255 := by
      rw [Set.ncard_compl, Set.ncard_singleton, Nat.card_congr octetEquiv, Nat.card_eq_fintype_card, Fintype.card_fin]
    rw [hset, Set.ncard_image_of_injective _ hinj, Set.ncard_union_eq hdis ((Set.finite_singleton _).prod (hfin _))
      ((Set.toFinite _).prod hfin'), Set.ncard_prod, Set.ncard_prod, Set.ncard_singleton, hc, usable_ncard N i, one_mul]
    rcases i with _ | i
    · have : {t : Bytes | t.length = N ∧ usable t + 1 = 0} = ∅ := by ext t; simp
      rw [this, Set.ncard_empty]; simp
    · have : {t : Bytes | t.length = N ∧ usable t + 1 = i + 1} = {t : Bytes | t.length = N ∧ usable t = i} := by
        ext t; simp
      rw [this, usable_ncard N i, Nat.choose_succ_succ, pow_succ]
      ring

/-- C94: how many of the `256 ^ N` tapes of `N` octets do not suffice for a padding string of `len` octets. -/
theorem C94_padding_fails (fuel len N : Nat) (hf : N < fuel) :
    {t : Bytes | t.length = N ∧ nonZeroRandomBytes octetTape fuel t len = .err .rng}.ncard =
      ∑ i ∈ Finset.range len, N.choose i * 255 ^ i := by
  have hset : {t : Bytes | t.length = N ∧ nonZeroRandomBytes octetTape fuel t len = .err .rng} =
      {t : Bytes | t.length = N ∧ usable t < len} := by
    ext t
    simp only [Set.mem_ofPred_eq]
    refine and_congr_right fun ht => ?_
    obtain ⟨h1, h2⟩ := C94_padding fuel len t (by omega)
    refine ⟨fun h => ?_, h2⟩
    by_contra hu
    obtain ⟨x, rest, h3, -⟩ := h1 (by omega)
    rw [h3] at h; cases h
  rw [hset]
  clear hset
  induction len with
  | zero => rw [Finset.sum_range_zero]; convert Set.ncard_empty Bytes; ext t; simp
  | succ len ih =>
    have hset : {t : Bytes | t.length = N ∧ usable t < len + 1} =
        {t : Bytes | t.length = N ∧ usable t < len} ∪ {t : Bytes | t.length = N ∧ usable t = len} := by
      ext t
      simp only [Set.mem_ofPred_eq, Set.mem_union]
      omega
    have hfin : ∀ P : Bytes → Prop, {t : Bytes | t.length = N ∧ P t}.Finite :=
      fun P => (List.finite_length_eq UInt8 N).subset fun t ht => ht.1
    rw [hset, Set.ncard_union_eq ?_ (hfin _) (hfin _), ih, usable_ncard, Finset.sum_range_succ]
    rw [Set.disjoint_left]
    rintro t ⟨-, h1⟩ ⟨-, h2⟩
    omega

/-- C94: the proportion of the tapes that do not suffice goes to zero with their length: padding is made with probability
one. -/
theorem C94_padding_ends (len : Nat) :
    Filter.Tendsto (fun N : Nat => ({t : Bytes | t.length = N ∧ nonZeroRandomBytes octetTape (N + 1) t len = .err .rng}.ncard : ℝ) /
      256 ^ N) Filter.atTop (nhds 0) := by
  have hsum : ∀ N : Nat, ({t : Bytes | t.length = N ∧ nonZeroRandomBytes octetTape (N + 1) t len = .err .rng}.ncard : ℝ) / 256 ^ N =
      ∑ i ∈ Finset.range len, ((N.choose i : ℝ) * 255 ^ i / 256 ^ N) := by
    intro N
    rw [C94_padding_fails (N + 1) len N (by omega)]
    push_cast
    rw [Finset.sum_div]
  simp only [hsum]
  rw [← Finset.sum_const_zero (s := Finset.range len) (M := ℝ)]
  refine tendsto_finsetSum _ fun i _ => ?_
  have h1 : Filter.Tendsto (fun N : Nat => (N : ℝ) ^ i * (1 / 256 : ℝ) ^ N) Filter.atTop (nhds 0) :=
    tendsto_pow_const_mul_const_pow_of_lt_one i (by norm_num) (by norm_num)
  have h2 := h1.const_mul ((255 : ℝ) ^ i)
  rw [mul_zero] at h2
  refine squeeze_zero (fun N => by positivity) (fun N => ?_) h2
  have h3 : (N.choose i : ℝ) ≤ (N : ℝ) ^ i := by
    exact_mod_cast Nat.choose_le_pow N i
  rw [one_div, inv_pow, div_eq_mul_inv]
  have h4 : (0 : ℝ) ≤ ((256 : ℝ) ^ N)⁻¹ := by positivity
  have h5 : (0 : ℝ) ≤ (255 : ℝ) ^ i := by positivity
  nlinarith [mul_le_mul_of_nonneg_right (mul_le_mul_of_nonneg_left h3 h5) h4]

/-- C94: of the tapes of `len + i` octets, how many are read to the end and just suffice, that is, how many make a padding
string with `i` octets drawn again. -/
theorem C94_padding_redraws (fuel len i : Nat) (hi : i ≤ fuel) :
    {t : Bytes | t.length = len + i ∧ ∃ x, nonZeroRandomBytes octetTape fuel t len = .ok (x, [])}.ncard =
      Nat.multichoose len i * 255 ^ len := by
  have hX : {x : Bytes | x.length = len ∧ ∀ b ∈ x, b ≠ 0} = {x : Bytes | x.length = len ∧ usable x = len} := by
    ext x
    simp only [Set.mem_ofPred_eq]
    refine and_congr_right fun hx => ?_
    rw [← hx, usable, List.countP_eq_length]
    simp
  have hXc : {x : Bytes | x.length = len ∧ ∀ b ∈ x, b ≠ 0}.ncard = 255 ^ len := by
    rw [hX, usable_ncard, Nat.choose_self, one_mul]
  have hXf : {x : Bytes | x.length = len ∧ ∀ b ∈ x, b ≠ 0}.Finite :=
    (List.finite_length_eq UInt8 len).subset fun t ht => ht.1
  have hSf : {t : Bytes | t.length = len + i ∧ ∃ x, nonZeroRandomBytes octetTape fuel t len = .ok (x, [])}.Finite :=
    (List.finite_length_eq UInt8 _).subset fun t ht => ht.1
  let g : Bytes → Bytes := fun t => match nonZeroRandomBytes octetTape fuel t len with
    | .ok (x, _) => x
    | _ => []
  have hmaps : ∀ t ∈ hSf.toFinset, g t ∈ hXf.toFinset := by
    intro t ht
    rw [Set.Finite.mem_toFinset] at ht ⊢
    obtain ⟨-, x, hx⟩ := ht
    have : g t = x := by simp only [g, hx]
    rw [this]
    rcases nonZeroRandomBytes_cases octetTape fuel t len with ⟨p', s2, h3, a, b⟩ | h3 | h3
    · rw [hx] at h3
      obtain ⟨rfl, -⟩ := Prod.mk.inj (Res.ok.inj h3)
      exact ⟨a, b⟩
    · rw [hx] at h3; cases h3
    · rw [hx] at h3; cases h3
  rw [Set.ncard_eq_toFinset_card _ hSf, Finset.card_eq_sum_card_fiberwise hmaps]
  have hfib : ∀ x ∈ hXf.toFinset, (hSf.toFinset.filter (fun t => g t = x)).card = Nat.multichoose len i := by
    intro x hx
    rw [Set.Finite.mem_toFinset] at hx
    obtain ⟨-, h2⟩ := C88_padding fuel len i hi x [] hx.1 hx.2
    rw [← h2, ← Set.ncard_coe_finset]
    congr 1
    ext t
    simp only [Finset.coe_filter, Set.Finite.mem_toFinset, Set.mem_ofPred_eq, List.length_nil, Nat.add_zero]
    constructor
    · rintro ⟨⟨h3, y, h4⟩, h5⟩
      have : g t = y := by simp only [g, h4]
      exact ⟨h3, by rw [← h5, this]; exact h4⟩
    · rintro ⟨h3, h4⟩
      exact ⟨⟨h3, x, h4⟩, by simp only [g, h4]⟩
  rw [Finset.sum_congr rfl hfib, Finset.sum_const, ← Set.ncard_eq_toFinset_card _ hXf, hXc, smul_eq_mul, mul_comm]

theorem hasSum_of_eq {f g : Nat → ℝ} {a b : ℝ} (h : HasSum f a) (hf : ∀ i, g i = f i) (hab : b = a) : HasSum g b := by
  rw [hab, funext hf]; exact h

theorem multichoose_hasSum (len : Nat) {r : ℝ} (h0 : 0 ≤ r) (h1 : r < 1) :
    HasSum (fun i : Nat => (Nat.multichoose len i : ℝ) * r ^ i) (1 / (1 - r) ^ len) := by
  rcases len with _ | len
  · rw [pow_zero, div_one]
    have := hasSum_single (f := fun i : Nat => (Nat.multichoose 0 i : ℝ) * r ^ i) 0 (by
      intro i hi
      obtain ⟨j, rfl⟩ := Nat.exists_eq_succ_of_ne_zero hi
      simp)
    simpa using this
  · refine hasSum_of_eq (hasSum_choose_mul_geometric_of_norm_lt_one len (r := r)
      (by rw [Real.norm_eq_abs, abs_of_nonneg h0]; exact h1)) (fun i => ?_) rfl
    rw [Nat.multichoose_eq, Nat.add_right_comm, Nat.add_sub_cancel, Nat.add_comm len i, ← Nat.choose_symm_add]

/-- C94: with octets drawn uniformly, the numbers of redrawn octets have probabilities that add up to one, and on average
`len / 255` octets are drawn again. -/
theorem C94_padding_law (len : Nat) :
    HasSum (fun i : Nat => ({t : Bytes | t.length = len + i ∧
      ∃ x, nonZeroRandomBytes octetTape i t len = .ok (x, [])}.ncard : ℝ) / 256 ^ (len + i)) 1 ∧
    HasSum (fun i : Nat => i * (({t : Bytes | t.length = len + i ∧
      ∃ x, nonZeroRandomBytes octetTape i t len = .ok (x, [])}.ncard : ℝ) / 256 ^ (len + i))) (len / 255) := by
  have hp : ∀ i : Nat, ({t : Bytes | t.length = len + i ∧
      ∃ x, nonZeroRandomBytes octetTape i t len = .ok (x, [])}.ncard : ℝ) / 256 ^ (len + i) =
      (255 / 256) ^ len * ((Nat.multichoose len i : ℝ) * (1 / 256) ^ i) := by
    intro i
    rw [C94_padding_redraws i len i le_rfl, pow_add, div_pow, div_pow, one_pow]
    push_cast
    field_simp
  simp only [hp]
  have h1 := multichoose_hasSum len (r := 1 / 256) (by norm_num) (by norm_num)
  have hr : (1 - 1 / 256 : ℝ) = 255 / 256 := by norm_num
  constructor
  · refine hasSum_of_eq (h1.mul_left ((255 / 256 : ℝ) ^ len)) (fun _ => rfl) ?_
    rw [hr, mul_one_div, div_self (by positivity)]
  · rcases len with _ | len
    · have : ∀ i : Nat, (i : ℝ) * ((255 / 256) ^ 0 * ((Nat.multichoose 0 i : ℝ) * (1 / 256) ^ i)) = 0 := by
        rintro (_ | i) <;> simp
      exact hasSum_of_eq hasSum_zero this (by simp)
    · have h2 := (multichoose_hasSum (len + 2) (r := 1 / 256) (by norm_num) (by norm_num)).mul_left
        ((255 / 256 : ℝ) ^ (len + 1) * ((len + 1 : ℝ) * (1 / 256)))
      rw [← hasSum_nat_add_iff' 1]
      simp only [Finset.sum_range_one, Nat.cast_zero, zero_mul, sub_zero]
      refine hasSum_of_eq h2 (fun j => ?_) ?_
      · have : ((j : ℝ) + 1) * (Nat.multichoose (len + 1) (j + 1) : ℝ) = (len + 1) * (Nat.multichoose (len + 2) j : ℝ) := by
          rw [Nat.multichoose_eq, Nat.multichoose_eq]
          have e1 : len + 1 + (j + 1) - 1 = len + j + 1 := by omega
          have e2 : len + 2 + j - 1 = len + j + 1 := by omega
          rw [e1, e2]
          have := Nat.choose_succ_right_eq (len + j + 1) j
          have e3 : len + j + 1 - j = len + 1 := by omega
          rw [e3] at this
          have h := congrArg (Nat.cast (R := ℝ)) this
          push_cast at h
          linarith
        push_cast
        rw [pow_succ (1 / 256 : ℝ) j]
        linear_combination ((255 / 256 : ℝ) ^ (len + 1) * ((1 / 256) ^ j * (1 / 256))) * this
      · rw [hr, pow_succ (255 / 256 : ℝ) (len + 1)]
        have h3 : (255 / 256 : ℝ) ^ (len + 1) ≠ 0 := by positivity
        push_cast
        generalize (255 / 256 : ℝ) ^ (len + 1) = y at h3
        field_simp
        try norm_num

/-! ### Blinding -/

/-- Unusable draws are passed over, and the first usable one is taken. -/
theorem draws_usable {n : Nat} (b : Bytes) {r : Nat} (hr : r < n) (hu : r = 0 ∨ r.Coprime n) (post : List Nat) :
    ∀ pre : List Nat, (∀ x ∈ pre, x < n) → Wasted n pre →
      Draws bothTapes n (b, pre ++ r :: post) (some (b, post)) (pre.length + 1)
  | [], _, _ => by
    have h : bothTapes.randMod (b, r :: post) n = (some r, (b, post)) := by simp [bothTapes, hr]
    have := Draws.good (R := bothTapes) (n := n) (b, r :: post) r (by rw [h]) hu
    rw [h] at this
    exact this
  | x :: pre, hlt, hw => by
    have h : bothTapes.randMod (b, x :: (pre ++ r :: post)) n = (some x, (b, pre ++ r :: post)) := by
      simp [bothTapes, hlt x (by simp)]
    refine Draws.again (R := bothTapes) (n := n) (b, x :: (pre ++ r :: post)) x _ _ (by rw [h]) (hw x (by simp)).1
      (hw x (by simp)).2 ?_
    rw [h]
    exact draws_usable b hr hu post pre (fun y hy => hlt y (by simp [hy])) (fun y hy => hw y (by simp [hy]))

/-- On a tape without usable draws the generator runs dry. -/
theorem draws_wasted {n : Nat} (b : Bytes) : ∀ u : List Nat, (∀ x ∈ u, x < n) → Wasted n u →
    Draws bothTapes n (b, u) none (u.length + 1)
  | [], _, _ => .fail _ rfl
  | x :: u, hlt, hw => by
    have h : bothTapes.randMod (b, x :: u) n = (some x, (b, u)) := by simp [bothTapes, hlt x (by simp)]
    refine Draws.again (R := bothTapes) (n := n) (b, x :: u) x _ _ (by rw [h]) (hw x (by simp)).1 (hw x (by simp)).2 ?_
    rw [h]
    exact draws_wasted b u (fun y hy => hlt y (by simp [hy])) (fun y hy => hw y (by simp [hy]))

theorem not_wasted {n : Nat} : ∀ u : List Nat, ¬ Wasted n u →
    ∃ pre r post, u = pre ++ r :: post ∧ Wasted n pre ∧ (r = 0 ∨ r.Coprime n)
  | [], h => absurd (fun r hr => by cases hr) h
  | x :: u, h => by
    by_cases hx : x = 0 ∨ x.Coprime n
    · exact ⟨[], x, u, rfl, (fun r hr => by cases hr), hx⟩
    · have hu : ¬ Wasted n u := by
        intro hw
        apply h
        intro r hr
        rcases List.mem_cons.mp hr with rfl | hr
        · tauto
        · exact hw r hr
      obtain ⟨pre, r, post, rfl, h1, h2⟩ := not_wasted u hu
      refine ⟨x :: pre, r, post, rfl, ?_, h2⟩
      intro y hy
      rcases List.mem_cons.mp hy with rfl | hy
      · tauto
      · exact h1 y hy

theorem tape_blindingOk {n N fuel : Nat} (b : Bytes) {u : List Nat} (hu : u ∈ numberTapes n N) (hf : N ≤ fuel)
    (h : ¬ Wasted n u) : BlindingOk bothTapes n fuel (some (b, u)) := by
  obtain ⟨hl, hlt⟩ := hu
  obtain ⟨pre, r, post, rfl, h1, h2⟩ := not_wasted u h
  refine ⟨_, _, draws_usable b (hlt r (by simp)) h2 post pre (fun x hx => hlt x (by simp [hx])) h1, ?_⟩
  simp at hl
  omega

/-- C94: the private operation with blinding, over a tape of numbers: it fails exactly if the tape has nothing usable, and
otherwise gives what it gives without blinding. -/
theorem C94_blinding {k : PrivateKey} (hk : WellFormed k) (c : BoxedUint) (hw : c.nlimbs = k.pub.n.nlimbs)
    (hc : c.val < k.pub.n.val) (b : Bytes) (N fuel : Nat) (hf : N < fuel) (u : List Nat)
    (hu : u ∈ numberTapes k.pub.n.val N) :
    (Wasted k.pub.n.val u → rsaDecryptAndCheck bothTapes fuel k (some (b, u)) c = .err .rng) ∧
    (¬ Wasted k.pub.n.val u → ∃ m s', rsaDecryptAndCheck bothTapes fuel k (some (b, u)) c = .ok (m, some s') ∧
      rsaDecryptAndCheck bothTapes fuel k none c = .ok (m, none)) := by
  have hn := coherent_pos (k := k.pub) hk.coherent
  refine ⟨fun h => ?_, fun h => ?_⟩
  · have hd := draws_wasted b u hu.2 h
    have := (blindLoop_draws bothTapes k.pub.n hn hd fuel (by rw [hu.1]; omega)).2 rfl
    unfold rsaDecryptAndCheck
    rw [rsaDecrypt_some _ _ _ hk c hw hc, this]
    rfl
  · obtain ⟨s', j, hd, hj⟩ := tape_blindingOk b hu hf.le h
    obtain ⟨r, ir, hl⟩ := (blindLoop_draws bothTapes k.pub.n hn hd fuel hj).1 s' rfl
    obtain ⟨r', h1⟩ := rsaDecryptAndCheck_ok bothTapes fuel (some (b, u)) hk c hw hc ⟨s', j, hd, hj⟩
    obtain ⟨r2, h2⟩ := rsaDecryptAndCheck_ok bothTapes fuel none hk c hw hc trivial
    have e1 : r' = some s' := by
      unfold rsaDecryptAndCheck at h1
      rw [rsaDecrypt_some _ _ _ hk c hw hc, hl] at h1
      simp only [Res.ok_bind] at h1
      obtain ⟨ch, -, h1⟩ := (Res.bind_eq_ok).mp h1
      split at h1
      · cases h1
      · exact (Prod.mk.inj (Res.ok.inj h1)).2.symm
    have e2 : r2 = none := by
      unfold rsaDecryptAndCheck at h2
      rw [rsaDecrypt_none _ _ hk c (by rw [hw]; exact hk.width) hc] at h2
      simp only [Res.ok_bind] at h2
      obtain ⟨ch, -, h2⟩ := (Res.bind_eq_ok).mp h2
      split at h2
      · cases h2
      · exact (Prod.mk.inj (Res.ok.inj h2)).2.symm
    exact ⟨_, s', by rw [h1, e1], by rw [h2, e2]⟩

theorem lists_ncard (S : Set Nat) (hS : S.Finite) : ∀ N : Nat,
    {u : List Nat | u.length = N ∧ ∀ r ∈ u, r ∈ S}.ncard = S.ncard ^ N ∧ {u : List Nat | u.length = N ∧ ∀ r ∈ u, r ∈ S}.Finite
  | 0 => by
    have : {u : List Nat | u.length = 0 ∧ ∀ r ∈ u, r ∈ S} = {[]} := by
      ext u
      simp only [List.length_eq_zero_iff, Set.mem_ofPred_eq, Set.mem_singleton_iff]
      exact ⟨fun h => h.1, by rintro rfl; simp⟩
    rw [this]
    exact ⟨by simp, Set.finite_singleton _⟩
  | N + 1 => by
    obtain ⟨h1, h2⟩ := lists_ncard S hS N
    have hset : {u : List Nat | u.length = N + 1 ∧ ∀ r ∈ u, r ∈ S} =
        (fun p : Nat × List Nat => p.1 :: p.2) '' (S ×ˢ {u : List Nat | u.length = N ∧ ∀ r ∈ u, r ∈ S}) := by
      ext u
      rcases u with _ | ⟨x, u⟩
      · simp
      · simp only [Set.mem_ofPred_eq, List.length_cons, List.mem_cons, forall_eq_or_imp, Set.mem_image, Set.mem_prod,
          Prod.exists, List.cons.injEq, Nat.add_right_cancel_iff]
        constructor
        · rintro ⟨h1, h2, h3⟩; exact ⟨x, u, ⟨h2, h1, h3⟩, rfl, rfl⟩
        · rintro ⟨x, u, ⟨h2, h1, h3⟩, rfl, rfl⟩; exact ⟨h1, h2, h3⟩
    have hinj : Function.Injective (fun p : Nat × List Nat => p.1 :: p.2) := by
      rintro ⟨a, b⟩ ⟨c, d⟩ h; simpa using h
    rw [hset, Set.ncard_image_of_injective _ hinj, Set.ncard_prod, h1, pow_succ, mul_comm]
    exact ⟨rfl, (hS.prod h2).image _⟩

/-- C94: of the `n ^ N` tapes of `N` numbers, exactly `(n - 1 - φ(n)) ^ N` have nothing usable. -/
theorem C94_wasted (n N : Nat) (hn : 1 < n) :
    (numberTapes n N).ncard = n ^ N ∧ {u ∈ numberTapes n N | Wasted n u}.ncard = (n - 1 - n.totient) ^ N := by
  constructor
  · have := (lists_ncard (Set.Iio n) (Set.finite_Iio n) N).1
    rw [show (Set.Iio n).ncard = n by rw [← Finset.coe_Iio, Set.ncard_coe_finset]; simp] at this
    exact this
  · have hfin : {r : Nat | r < n ∧ r ≠ 0 ∧ ¬ r.Coprime n}.Finite := (Set.finite_Iio n).subset fun r hr => hr.1
    have := (lists_ncard _ hfin N).1
    rw [wasted_ncard hn] at this
    rw [← this]
    congr 1
    ext u
    simp only [numberTapes, Wasted, Set.mem_ofPred_eq]
    constructor
    · rintro ⟨⟨h1, h2⟩, h3⟩; exact ⟨h1, fun r hr => ⟨h2 r hr, h3 r hr⟩⟩
    · rintro ⟨h1, h2⟩; exact ⟨⟨h1, fun r hr => (h2 r hr).1⟩, fun r hr => (h2 r hr).2⟩

/-- C94: their proportion goes to zero: blinding succeeds with probability one. -/
theorem C94_blinding_ends (n : Nat) (hn : 1 < n) :
    Filter.Tendsto (fun N : Nat => ({u ∈ numberTapes n N | Wasted n u}.ncard : ℝ) / (numberTapes n N).ncard) Filter.atTop
      (nhds 0) := by
  have h : ∀ N, ({u ∈ numberTapes n N | Wasted n u}.ncard : ℝ) / (numberTapes n N).ncard =
      (((n - 1 - n.totient : Nat) : ℝ) / n) ^ N := by
    intro N
    rw [(C94_wasted n N hn).1, (C94_wasted n N hn).2, div_pow]
    push_cast
    rfl
  simp only [h]
  refine tendsto_pow_atTop_nhds_zero_of_lt_one (by positivity) ?_
  rw [div_lt_one (by positivity)]
  have : n - 1 - n.totient < n := by omega
  exact_mod_cast this

/-- C94: how many tapes blinding reads to the end, that is, how many lead to `i` unusable draws before a usable one. -/
theorem C94_blinding_redraws {k : PrivateKey} (hk : WellFormed k) (c : BoxedUint) (hw : c.nlimbs = k.pub.n.nlimbs)
    (hc : c.val < k.pub.n.val) (b : Bytes) (i fuel : Nat) (hf : i + 1 < fuel) :
    {u ∈ numberTapes k.pub.n.val (i + 1) | ∃ m, rsaDecryptAndCheck bothTapes fuel k (some (b, u)) c =
      .ok (m, some (b, []))}.ncard = (k.pub.n.val - 1 - k.pub.n.val.totient) ^ i * (k.pub.n.val.totient + 1) := by
  have hn1 := wf_one_lt hk
  have hn := coherent_pos (k := k.pub) hk.coherent
  generalize hN : k.pub.n.val = n at *
  have hgood : {r : Nat | r < n ∧ (r = 0 ∨ r.Coprime n)}.ncard = n.totient + 1 := by
    have : {r : Nat | r < n ∧ (r = 0 ∨ r.Coprime n)} = (insert 0 ((Finset.range n).filter (fun r => n.Coprime r)) : Finset Nat) := by
      ext r
      simp only [Set.mem_ofPred_eq, Finset.coe_insert, Finset.coe_filter, Finset.mem_range, Set.mem_insert_iff,
        Nat.coprime_comm]
      constructor
      · rintro ⟨h1, h2 | h2⟩
        · exact Or.inl h2
        · exact Or.inr ⟨h1, h2⟩
      · rintro (rfl | ⟨h1, h2⟩)
        · exact ⟨by omega, Or.inl rfl⟩
        · exact ⟨h1, Or.inr h2⟩
    rw [this, Set.ncard_coe_finset, Finset.card_insert_of_notMem, Nat.totient]
    simp
    omega
  rw [← (C94_wasted n i hn1).2, ← hgood, ← Set.ncard_prod]
  have hinj : Function.Injective (fun p : List Nat × Nat => p.1 ++ [p.2]) := by
    rintro ⟨a, b⟩ ⟨c, d⟩ h
    have := List.append_inj' h rfl
    simpa using this
  rw [← Set.ncard_image_of_injective _ hinj]
  congr 1
  ext u
  simp only [Set.mem_ofPred_eq, Set.mem_image, Set.mem_prod, Prod.exists]
  have key : ∀ pre r post, Wasted n pre → (∀ x ∈ pre, x < n) → r < n → (r = 0 ∨ r.Coprime n) → pre.length < fuel →
      ∃ m, rsaDecryptAndCheck bothTapes fuel k (some (b, pre ++ r :: post)) c = .ok (m, some (b, post)) := by
    intro pre r post h1 h2 h3 h4 h5
    have hd := draws_usable b h3 h4 post pre h2 h1
    rw [← hN] at hd hc
    obtain ⟨r', ir, hl⟩ := (blindLoop_draws bothTapes k.pub.n (by omega) hd fuel (by omega)).1 _ rfl
    obtain ⟨o, h6⟩ := rsaDecryptAndCheck_ok bothTapes fuel (some (b, pre ++ r :: post)) hk c hw hc ⟨_, _, hd, by omega⟩
    have e1 : o = some (b, post) := by
      have h1 := h6
      unfold rsaDecryptAndCheck at h1
      rw [rsaDecrypt_some _ _ _ hk c hw hc, hl] at h1
      simp only [Res.ok_bind] at h1
      obtain ⟨ch, -, h1⟩ := (Res.bind_eq_ok).mp h1
      split at h1
      · cases h1
      · exact (Prod.mk.inj (Res.ok.inj h1)).2.symm
    exact ⟨_, by rw [h6, e1]⟩
  constructor
  · rintro ⟨hu, m, hm⟩
    have hnw : ¬ Wasted n u := by
      intro h
      have := (C94_blinding hk c hw (by rw [hN]; exact hc) b (i + 1) fuel hf u (by rw [hN]; exact hu)).1 (by rw [hN]; exact h)
      rw [this] at hm; cases hm
    obtain ⟨pre, r, post, rfl, h1, h2⟩ := not_wasted u hnw
    obtain ⟨hl, hlt⟩ := hu
    have hl' : pre.length + (post.length + 1) = i + 1 := by simpa using hl
    obtain ⟨m', h3⟩ := key pre r post h1 (fun x hx => hlt x (by simp [hx])) (hlt r (by simp)) h2 (by omega)
    rw [hm] at h3
    have h4 := (Prod.mk.inj (Option.some.inj (Prod.mk.inj (Res.ok.inj h3)).2)).2
    subst h4
    simp at hl'
    exact ⟨pre, r, ⟨⟨⟨hl', fun x hx => hlt x (by simp [hx])⟩, h1⟩, hlt r (by simp), h2⟩, rfl⟩
  · rintro ⟨pre, r, ⟨⟨⟨h1, h2⟩, h3⟩, h4, h5⟩, rfl⟩
    refine ⟨⟨by simp [h1], ?_⟩, key pre r [] h3 h2 h4 h5 (by omega)⟩
    intro x hx
    rcases List.mem_append.mp hx with hx | hx
    · exact h2 x hx
    · obtain rfl := List.mem_singleton.mp hx; exact h4

/-- C94: with numbers below `n` drawn uniformly, the numbers of unusable draws have probabilities that add up to one, and
on average there are `(n - 1 - φ(n)) / (φ(n) + 1)` of them. -/
theorem C94_blinding_law {k : PrivateKey} (hk : WellFormed k) (c : BoxedUint) (hw : c.nlimbs = k.pub.n.nlimbs)
    (hc : c.val < k.pub.n.val) (b : Bytes) :
    HasSum (fun i : Nat => ({u ∈ numberTapes k.pub.n.val (i + 1) | ∃ m,
      rsaDecryptAndCheck bothTapes (i + 2) k (some (b, u)) c = .ok (m, some (b, []))}.ncard : ℝ) / k.pub.n.val ^ (i + 1)) 1 ∧
    HasSum (fun i : Nat => i * (({u ∈ numberTapes k.pub.n.val (i + 1) | ∃ m,
      rsaDecryptAndCheck bothTapes (i + 2) k (some (b, u)) c = .ok (m, some (b, []))}.ncard : ℝ) /
        k.pub.n.val ^ (i + 1))) (((k.pub.n.val - 1 - k.pub.n.val.totient : Nat) : ℝ) / (k.pub.n.val.totient + 1)) := by
  have hn1 := wf_one_lt hk
  have hcount := fun i => C94_blinding_redraws hk c hw hc b i (i + 2) (by omega)
  simp only [hcount]
  have ht : k.pub.n.val.totient ≤ k.pub.n.val - 1 := Nat.le_sub_one_of_lt (Nat.totient_lt _ hn1)
  generalize k.pub.n.val = n at *
  obtain ⟨w, hwn⟩ : ∃ w : Nat, w = n - 1 - n.totient := ⟨_, rfl⟩
  have hsum : (n : ℝ) = w + (n.totient + 1) := by
    have : n = w + (n.totient + 1) := by omega
    exact_mod_cast this
  rw [← hwn]
  have hnp : (0 : ℝ) < n := by positivity
  have htp : (0 : ℝ) < n.totient + 1 := by positivity
  have h0 : (0 : ℝ) ≤ w / n := by positivity
  have h1 : (w : ℝ) / n < 1 := by rw [div_lt_one hnp, hsum]; linarith
  have hterm : ∀ i : Nat, ((w ^ i * (n.totient + 1) : Nat) : ℝ) / n ^ (i + 1) = (n.totient + 1) / n * ((w : ℝ) / n) ^ i := by
    intro i
    push_cast
    rw [div_pow, pow_succ]
    field_simp
  simp only [hterm]
  have hr : (1 : ℝ) - w / n = (n.totient + 1) / n := by
    rw [eq_div_iff hnp.ne', sub_mul, div_mul_cancel₀ _ hnp.ne']; linarith
  constructor
  · refine hasSum_of_eq ((hasSum_geometric_of_lt_one h0 h1).mul_left (((n.totient : ℝ) + 1) / n)) (fun _ => rfl) ?_
    rw [hr, mul_inv_cancel₀ (by positivity)]
  · have hg := (hasSum_coe_mul_geometric_of_norm_lt_one (r := (w : ℝ) / n)
      (by rw [Real.norm_eq_abs, abs_of_nonneg h0]; exact h1)).mul_left (((n.totient : ℝ) + 1) / n)
    refine hasSum_of_eq hg (fun i => by ring) ?_
    rw [hr]
    field_simp

/-! ### Whole operations -/

/-- C94, PKCS#1 v1.5 encryption of a message that fits: it fails on exactly the tapes that hold too few non-zero octets,
and makes a ciphertext from all others. -/
theorem C94_pkcs1v15 {k : PrivateKey} (hk : WellFormed k) (hc : checkPublic k.pub = .ok ()) (msg : Bytes) (len : Nat)
    (hl : len + msg.length + 3 = octetLen k.pub.n.val) (h8 : 8 ≤ len) (N fuel : Nat) (hf : N < fuel) :
    (∀ t : Bytes, t.length = N → (∃ x, pkcs1v15.encrypt octetTape fuel t k.pub msg = .ok x) ∨
      pkcs1v15.encrypt octetTape fuel t k.pub msg = .err .rng) ∧
    {t : Bytes | t.length = N ∧ pkcs1v15.encrypt octetTape fuel t k.pub msg = .err .rng}.ncard =
      ∑ i ∈ Finset.range len, N.choose i * 255 ^ i := by
  rw [← size_eq_octetLen] at hl
  have hlen : k.pub.size - msg.length - 3 = len := by omega
  have henc : ∀ t, pkcs1v15.encrypt octetTape fuel t k.pub msg = _ :=
    fun t => pkcs1v15.encrypt_eq octetTape fuel t k.pub hk.coherent hc msg
  simp only [if_neg (show ¬ msg.length + 11 > k.pub.size by omega), hlen] at henc
  refine ⟨fun t ht => ?_, ?_⟩
  · rw [henc]
    obtain ⟨h1, h2⟩ := C94_padding fuel len t (by omega)
    by_cases hu : len ≤ usable t
    · obtain ⟨x, rest, h3, -⟩ := h1 hu
      rw [h3]; exact Or.inl ⟨_, rfl⟩
    · rw [h2 (by omega)]; exact Or.inr rfl
  · rw [← C94_padding_fails fuel len N hf]
    congr 1
    ext t
    simp only [Set.mem_ofPred_eq]
    refine and_congr_right fun ht => ?_
    rw [henc]
    obtain ⟨h1, h2⟩ := C94_padding fuel len t (by omega)
    by_cases hu : len ≤ usable t
    · obtain ⟨x, rest, h3, -⟩ := h1 hu
      rw [h3]; exact iff_of_false (fun h => by cases h) (fun h => by cases h)
    · rw [h2 (by omega)]; exact iff_of_true rfl rfl

theorem tape_check {k : PrivateKey} (hk : WellFormed k) {N fuel : Nat} (hf : N < fuel) {u : List Nat}
    (hu : u ∈ numberTapes k.pub.n.val N) (b : Bytes) {α : Type} (g : BoxedUint → Res α) {em : Bytes} {c : BoxedUint}
    (hc : fromBeSlice em k.pub.nBitsPrecision = .ok c) :
    (¬ Wasted k.pub.n.val u → (rsaDecryptAndCheck bothTapes fuel k (some (b, u)) c >>= fun x => g x.1) =
      (rsaDecryptAndCheck bothTapes fuel k none c >>= fun x => g x.1)) ∧
    (Wasted k.pub.n.val u → ∀ a, (rsaDecryptAndCheck bothTapes fuel k none c >>= fun x => g x.1) = .ok a →
      (rsaDecryptAndCheck bothTapes fuel k (some (b, u)) c >>= fun x => g x.1) = .err .rng) := by
  have hw : c.nlimbs = k.pub.n.nlimbs := by
    obtain ⟨-, -, rfl⟩ := fromBeSlice_eq_ok_iff.mp hc
    exact limbsFor_prec _ (coherent_nlimbs_pos (k := k.pub) hk.coherent)
  by_cases hlt : c.val < k.pub.n.val
  · obtain ⟨h1, h2⟩ := C94_blinding hk c hw hlt b N fuel hf u hu
    refine ⟨fun h => ?_, fun h a _ => ?_⟩
    · obtain ⟨m, s', h3, h4⟩ := h2 h
      rw [h3, h4]; rfl
    · rw [h1 h]; rfl
  · have h5 := fun rng => (C05_out_of_range bothTapes fuel k rng c (by omega)).2
    refine ⟨fun _ => by rw [h5, h5], fun _ a h => ?_⟩
    rw [h5] at h
    cases h

/-- C94: decryption and PKCS#1 v1.5 signing with blinding, over a tape of numbers: on all but the wasted tapes they answer
as without blinding, and where they would have succeeded without it, on the wasted ones they report the generator. -/
theorem C94_operations {k : PrivateKey} (hk : WellFormed k) (b : Bytes) (N fuel : Nat) (hf : N < fuel) (u : List Nat)
    (hu : u ∈ numberTapes k.pub.n.val N) (op : Option (Bytes × List Nat) → Res Bytes)
    (hop : (∃ ct, op = fun rng => pkcs1v15.decrypt bothTapes fuel rng k ct) ∨
      (∃ ct dg mg label, op = fun rng => oaep.decrypt bothTapes fuel rng k ct dg mg label) ∨
      (∃ D MGD ct label, op = fun rng => oaep.decryptDigest bothTapes fuel D MGD rng k ct label) ∨
      (∃ S : pkcs1v15.Pkcs1v15Sign, ∃ hashed, op = fun rng => S.sign bothTapes fuel rng k hashed)) :
    (¬ Wasted k.pub.n.val u → op (some (b, u)) = op none) ∧
    (Wasted k.pub.n.val u → ∀ a, op none = .ok a → op (some (b, u)) = .err .rng) := by
  have lift : ∀ {α β : Type} (x : Res α) (f g : α → Res β),
      (∀ a, x = .ok a → (¬ Wasted k.pub.n.val u → f a = g a) ∧
        (Wasted k.pub.n.val u → ∀ z, g a = .ok z → f a = .err .rng)) →
      (¬ Wasted k.pub.n.val u → (x >>= f) = (x >>= g)) ∧
        (Wasted k.pub.n.val u → ∀ z, (x >>= g) = .ok z → (x >>= f) = .err .rng) := by
    intro α β x f g h
    cases x with
    | ok a => exact h a rfl
    | err e => exact ⟨fun _ => rfl, fun _ z hz => by cases hz⟩
    | panic p => exact ⟨fun _ => rfl, fun _ z hz => by cases hz⟩
    | loop => exact ⟨fun _ => rfl, fun _ z hz => by cases hz⟩
  rcases hop with ⟨ct, rfl⟩ | ⟨ct, dg, mg, label, rfl⟩ | ⟨D, MGD, ct, label, rfl⟩ | ⟨S, hashed, rfl⟩
  · unfold pkcs1v15.decrypt
    exact lift _ _ _ fun _ _ => lift _ _ _ fun c hc => tape_check hk hf hu b
      (fun m => uintToZeroizingBePad m k.pub.size >>= fun em => pkcs1v15EncryptUnpad em k.pub.size) hc
  · simp only [oaep.decrypt]
    split
    · exact ⟨fun _ => rfl, fun _ z hz => by cases hz⟩
    · exact lift _ _ _ fun c hc => tape_check hk hf hu b
        (fun m => uintToZeroizingBePad m k.pub.size >>= fun em => oaepDecrypt em dg mg label k.pub.size) hc
  · unfold oaep.decryptDigest
    refine lift _ _ _ fun _ _ => ?_
    split
    · exact ⟨fun _ => rfl, fun _ z hz => by cases hz⟩
    · exact lift _ _ _ fun c hc => tape_check hk hf hu b
        (fun m => uintToZeroizingBePad m k.pub.size >>= fun em => oaepDecryptDigest em D MGD label k.pub.size) hc
  · unfold pkcs1v15.Pkcs1v15Sign.sign pkcs1v15.sign
    exact lift _ _ _ fun _ _ => lift _ _ _ fun _ _ => lift _ _ _ fun c hc => tape_check hk hf hu b
      (fun m => uintToZeroizingBePad m k.pub.size) hc

/-- C94, PSS signing with blinding: each signature made with a salt is made from exactly the octets that start with that
salt and the numbers that are not wasted, so every salt is still equally likely, and what is drawn for blinding says
nothing about it. -/
theorem C94_pss {k : PrivateKey} (hk : WellFormed k) (hp : k.pub.n.prec < 2 ^ 32) (D : HashFn) (hpos : 0 < D.outLen)
    (hashed salt em : Bytes) (hadd : D.outLen + salt.length + 2 < 2 ^ 64) (hh : hashed.length = D.outLen)
    (hem : emsaPss D.hash (mgf1 D.hash D.outLen) D.outLen hashed salt (k.pub.n.val.size - 1) = some em) (N fuel : Nat)
    (hf : N < fuel) :
    ∃ sig, i2osp (os2ip em ^ k.d.val % k.pub.n.val) (octetLen k.pub.n.val) = some sig ∧
      (∀ (t : Bytes) (u : List Nat), u ∈ numberTapes k.pub.n.val N →
        (pss.Pss.sign ⟨true, DigestState.new D, salt.length⟩ bothTapes fuel (some (t, u)) k hashed = .ok sig ↔
          (∃ v, t = salt ++ v) ∧ ¬ Wasted k.pub.n.val u)) ∧
      ∀ M, {p : Bytes × List Nat | p.1.length = salt.length + M ∧ p.2 ∈ numberTapes k.pub.n.val N ∧
        pss.Pss.sign ⟨true, DigestState.new D, salt.length⟩ bothTapes fuel (some p) k hashed = .ok sig}.ncard =
          256 ^ M * (k.pub.n.val ^ N - (k.pub.n.val - 1 - k.pub.n.val.totient) ^ N) := by
  have hn := coherent_pos hk.coherent
  have hn1 := wf_one_lt hk
  have hi : ∀ v, i2osp (v % k.pub.n.val) (octetLen k.pub.n.val) = some (beBytes k.pub.size (v % k.pub.n.val)) := by
    intro v
    rw [← size_eq_octetLen]; exact i2osp_eq _ _ (mod_lt_pow_size _ hn _)
  have hiff : ∀ (t : Bytes) (u : List Nat), u ∈ numberTapes k.pub.n.val N →
      (pss.Pss.sign ⟨true, DigestState.new D, salt.length⟩ bothTapes fuel (some (t, u)) k hashed =
        .ok (beBytes k.pub.size (os2ip em ^ k.d.val % k.pub.n.val)) ↔ (∃ v, t = salt ++ v) ∧ ¬ Wasted k.pub.n.val u) := by
    intro t u hu
    rw [C80_pss _ _ _ hk hp _ _ hpos _ hadd]
    constructor
    · intro h
      cases h with
      | done s hs salt' hfill hh em' sig hem' hsig r hr =>
        obtain rfl := Option.some.inj hs
        have hsg := privately_ok hr
        rw [hi, hsg] at hsig
        have h3 := congrArg beVal (Option.some.inj hsig)
        rw [beVal_beBytes, beVal_beBytes, Nat.mod_eq_of_lt (mod_lt_pow_size _ hn _),
          Nat.mod_eq_of_lt (mod_lt_pow_size _ hn _), ← beVal_eq_os2ip, ← beVal_eq_os2ip] at h3
        have h3' : beVal em' ^ k.d.val ≡ beVal em ^ k.d.val [MOD k.pub.n.val] := h3
        have h4 := h3'.pow k.pub.e.val
        rw [← pow_mul, ← pow_mul] at h4
        have h5 := (wf_rsa hk _).symm.trans (h4.trans (wf_rsa hk _))
        rw [← bits_eq_size] at hem hem'
        have h6 := Nat.ModEq.eq_of_lt_of_lt h5 (lt_of_lt_of_le (emsaPss_lt hpos hem') (pow_bits_le hn))
          (lt_of_lt_of_le (emsaPss_lt hpos hem) (pow_bits_le hn))
        have h7 := beVal_inj ((emsaPss_length hpos hem').1.trans (emsaPss_length hpos hem).1.symm) h6
        subst h7
        obtain ⟨rfl, -⟩ := emsaPss_inj hpos hem' hem
        by_cases hl : salt'.length ≤ t.length
        · have hfl : bothTapes.fill (t, u) salt'.length = (some (t.take salt'.length), (t.drop salt'.length, u)) := by
            simp [bothTapes, hl]
          rw [hfl] at hfill hr
          have htk : t.take salt'.length = salt' := Option.some.inj hfill
          refine ⟨⟨t.drop salt'.length, ?_⟩, fun hw => ?_⟩
          · conv_lhs => rw [← List.take_append_drop salt'.length t, htk]
          · simp only [if_true] at hr
            cases hr with
            | done hb =>
              obtain ⟨s', j, hd, -⟩ := hb
              cases draws_det hd (draws_wasted _ u hu.2 hw)
        · have hfl : bothTapes.fill (t, u) salt'.length = (none, (t, u)) := by simp [bothTapes, hl]
          rw [hfl] at hfill
          cases hfill
    · rintro ⟨⟨v, rfl⟩, hw⟩
      refine .done _ rfl salt (by simp [bothTapes]) hh em _ hem (hi _) _ ?_
      refine .done ?_
      have hfl : bothTapes.fill (salt ++ v, u) salt.length = (some salt, (v, u)) := by simp [bothTapes]
      simp only [if_true, hfl]
      exact tape_blindingOk v hu hf.le hw
  refine ⟨_, hi _, hiff, fun M => ?_⟩
  have hset : {p : Bytes × List Nat | p.1.length = salt.length + M ∧ p.2 ∈ numberTapes k.pub.n.val N ∧
      pss.Pss.sign ⟨true, DigestState.new D, salt.length⟩ bothTapes fuel (some p) k hashed =
        .ok (beBytes k.pub.size (os2ip em ^ k.d.val % k.pub.n.val))} =
      ((fun v => salt ++ v) '' {v : Bytes | v.length = M}) ×ˢ
        (numberTapes k.pub.n.val N \ {u ∈ numberTapes k.pub.n.val N | Wasted k.pub.n.val u}) := by
    ext ⟨t, u⟩
    simp only [Set.mem_ofPred_eq, Set.mem_prod, Set.mem_image, Set.mem_sdiff]
    constructor
    · rintro ⟨h1, h2, h3⟩
      obtain ⟨⟨v, rfl⟩, h4⟩ := (hiff t u h2).mp h3
      exact ⟨⟨v, by simpa using h1, rfl⟩, h2, fun h => h4 h.2⟩
    · rintro ⟨⟨v, rfl, rfl⟩, h2, h3⟩
      exact ⟨by simp, h2, (hiff _ u h2).mpr ⟨⟨v, rfl⟩, fun h => h3 ⟨h2, h⟩⟩⟩
  have hfin : (numberTapes k.pub.n.val N).Finite := (lists_ncard _ (Set.finite_Iio k.pub.n.val) N).2
  rw [hset, Set.ncard_prod, Set.ncard_image_of_injective _ (List.append_right_injective _), octets_ncard,
    Set.ncard_sdiff (Set.sep_subset _ _) (hfin.subset (Set.sep_subset _ _)), (C94_wasted _ N hn1).1, (C94_wasted _ N hn1).2]

/-! ### Examples -/

/-- Two non-zero octets suffice for two octets of padding and not for three. -/
example : usable [0, 5, 0, 6] = 2 ∧ nonZeroRandomBytes octetTape 5 [0, 5, 0, 6] 2 = .ok ([6, 5], []) ∧
    nonZeroRandomBytes octetTape 5 [0, 5, 0, 6] 3 = .err .rng :=
  ⟨by decide, by decide, (C94_padding 5 3 [0, 5, 0, 6] (by decide)).2 (by decide)⟩

/-- Of the tapes of three octets, 1 + 3 * 255 have fewer than two non-zero octets. -/
example : {t : Bytes | t.length = 3 ∧ nonZeroRandomBytes octetTape 4 t 2 = .err .rng}.ncard = 766 := by
  rw [C94_padding_fails 4 2 3 (by decide)]; decide

/-- 255 tapes of two octets make one octet of padding with one octet drawn again. -/
example : {t : Bytes | t.length = 1 + 1 ∧ ∃ x, nonZeroRandomBytes octetTape 1 t 1 = .ok (x, [])}.ncard = 255 := by
  rw [C94_padding_redraws 1 1 1 le_rfl]; simp

example : {t : Bytes | t.length = 30 ∧ pkcs1v15.encrypt octetTape 31 t Ex.key.pub [1, 2, 3] = .err .rng}.ncard =
    ∑ i ∈ Finset.range 21, Nat.choose 30 i * 255 ^ i :=
  (C94_pkcs1v15 Ex.key_wf (by decide +kernel) [1, 2, 3] 21 (by decide +kernel) (by decide) 30 31 (by decide)).2

/-- Modulo 15, six of the fifteen numbers cannot be used. -/
example : (numberTapes 15 2).ncard = 225 ∧ {u ∈ numberTapes 15 2 | Wasted 15 u}.ncard = 36 := by
  have h : Nat.totient 15 = 8 := by decide +kernel
  obtain ⟨h1, h2⟩ := C94_wasted 15 2 (by decide)
  rw [h] at h2
  exact ⟨h1, h2⟩

/-- A factor of the modulus is an unusable draw; what follows it is used. -/
def Ex.badDraw : Nat := 2 ^ 89 - 1

theorem Ex.badDraw_wasted : Wasted Ex.key.pub.n.val [Ex.badDraw] := by
  intro r hr
  obtain rfl := List.mem_singleton.mp hr
  refine ⟨by decide, ?_⟩
  decide +kernel

example : rsaDecryptAndCheck bothTapes 3 Ex.key (some ([], [Ex.badDraw])) (wrap Ex.key.pub.n.nlimbs 2) = .err .rng ∧
    ∃ m s', rsaDecryptAndCheck bothTapes 3 Ex.key (some ([], [Ex.badDraw, 5])) (wrap Ex.key.pub.n.nlimbs 2) =
      .ok (m, some s') ∧ rsaDecryptAndCheck bothTapes 3 Ex.key none (wrap Ex.key.pub.n.nlimbs 2) = .ok (m, none) := by
  refine ⟨(C94_blinding Ex.key_wf (wrap Ex.key.pub.n.nlimbs 2) rfl (by decide +kernel) [] 1 3 (by decide) [Ex.badDraw]
      ⟨rfl, by decide +kernel⟩).1 Ex.badDraw_wasted,
    (C94_blinding Ex.key_wf (wrap Ex.key.pub.n.nlimbs 2) rfl (by decide +kernel) [] 2 3 (by decide) [Ex.badDraw, 5]
      ⟨rfl, by decide +kernel⟩).2 fun h => (h 5 (by simp)).2 (by decide +kernel)⟩

example : {u ∈ numberTapes Ex.key.pub.n.val (1 + 1) | ∃ m, rsaDecryptAndCheck bothTapes 3 Ex.key (some ([], u))
    (wrap Ex.key.pub.n.nlimbs 2) = .ok (m, some ([], []))}.ncard =
      (Ex.key.pub.n.val - 1 - Ex.key.pub.n.val.totient) ^ 1 * (Ex.key.pub.n.val.totient + 1) :=
  C94_blinding_redraws Ex.key_wf (wrap Ex.key.pub.n.nlimbs 2) rfl (by decide +kernel) [] 1 3 (by decide)

example : HasSum (fun i : Nat => ({u ∈ numberTapes Ex.key.pub.n.val (i + 1) | ∃ m, rsaDecryptAndCheck bothTapes (i + 2)
    Ex.key (some ([], u)) (wrap Ex.key.pub.n.nlimbs 2) = .ok (m, some ([], []))}.ncard : ℝ) / Ex.key.pub.n.val ^ (i + 1)) 1 :=
  (C94_blinding_law Ex.key_wf (wrap Ex.key.pub.n.nlimbs 2) rfl (by decide +kernel) []).1

/-- Signing: the unusable draw alone, then with a usable one behind it. -/
example : pkcs1v15.Pkcs1v15Sign.newUnprefixed.sign bothTapes 3 (some ([], [Ex.badDraw])) Ex.key [1, 2, 3] = .err .rng ∧
    pkcs1v15.Pkcs1v15Sign.newUnprefixed.sign bothTapes 3 (some ([], [Ex.badDraw, 5])) Ex.key [1, 2, 3] =
      pkcs1v15.Pkcs1v15Sign.newUnprefixed.sign bothTapes 3 none Ex.key [1, 2, 3] := by
  obtain ⟨a, ha⟩ : ∃ a, pkcs1v15.Pkcs1v15Sign.newUnprefixed.sign bothTapes 3 none Ex.key [1, 2, 3] = .ok a :=
    ⟨match pkcs1v15.Pkcs1v15Sign.newUnprefixed.sign bothTapes 3 none Ex.key [1, 2, 3] with | .ok a => a | _ => [],
      by decide +kernel⟩
  exact ⟨(C94_operations Ex.key_wf [] 1 3 (by decide) [Ex.badDraw] ⟨rfl, by decide +kernel⟩ _
      (Or.inr (Or.inr (Or.inr ⟨.newUnprefixed, [1, 2, 3], rfl⟩)))).2 Ex.badDraw_wasted a ha,
    (C94_operations Ex.key_wf [] 2 3 (by decide) [Ex.badDraw, 5] ⟨rfl, by decide +kernel⟩ _
      (Or.inr (Or.inr (Or.inr ⟨.newUnprefixed, [1, 2, 3], rfl⟩)))).1 fun h => (h 5 (by simp)).2 (by decide +kernel)⟩

/-- A salt of three octets, one octet to spare, and one number to blind with. -/
example : ∃ sig, {p : Bytes × List Nat | p.1.length = 3 + 1 ∧ p.2 ∈ numberTapes Ex.key.pub.n.val 1 ∧
    pss.Pss.sign ⟨true, DigestState.new Ex.hash4, 3⟩ bothTapes 2 (some p) Ex.key (Ex.hash4.hash [1]) = .ok sig}.ncard =
      256 * (Ex.key.pub.n.val - (Ex.key.pub.n.val - 1 - Ex.key.pub.n.val.totient)) := by
  obtain ⟨em, hem⟩ : ∃ em, emsaPss Ex.hash4.hash (mgf1 Ex.hash4.hash Ex.hash4.outLen) Ex.hash4.outLen
      (Ex.hash4.hash [1]) [1, 2, 3] (Ex.key.pub.n.val.size - 1) = some em :=
    Option.isSome_iff_exists.mp (by decide +kernel)
  obtain ⟨sig, -, -, h⟩ := C94_pss Ex.key_wf (by decide) Ex.hash4 (by decide) _ [1, 2, 3] em (by decide) (by decide) hem
    1 2 (by decide)
  exact ⟨sig, by simpa using h 1⟩

example := C94_blinding_ends Ex.key.pub.n.val (by decide +kernel)

end RSA
