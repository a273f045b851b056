import Verif.Spec.Chance
import Verif.Proof.AskTree
import Verif.Proof.GenSame
import Verif.Props.Rejection

/- Means over the scripts of a perfect generator. -/
namespace RSA
open Spec BoxedUint
open scoped ENNReal

variable {α β : Type}

/-- The mean of `g` over the outcomes of an operation with a perfect generator. -/
noncomputable def expect (op : Op α) (g : Res α → ℝ≥0∞) : ℝ≥0∞ := by
  classical
  exact ∑' cs : List Call, if (op _ scripted (some cs)).2 = some [] then weight cs * g (op _ scripted (some cs)).1 else 0

theorem expect_tree {op : Op α} {t : Ask (Res α)} (h : ∀ σ R s, op σ R s = t.run R s) (g : Res α → ℝ≥0∞) :
    expect op g = t.mean g := by
  unfold expect Ask.mean
  congr 1
  funext cs
  rw [h]
  rcases hf : t.follow cs with _ | r
  · rw [if_neg]
    · rfl
    · intro h2
      have : t.run scripted (some cs) = ((t.run scripted (some cs)).1, some []) := Prod.ext rfl h2
      rw [Ask.run_scripted, hf] at this
      cases this
  · rw [(Ask.run_scripted t cs r).mpr hf, if_pos rfl]
    rfl

theorem expect_congr {op : Op α} {op' : Op β} {g : Res α → ℝ≥0∞} {g' : Res β → ℝ≥0∞}
    (h1 : ∀ cs, (op _ scripted (some cs)).2 = (op' _ scripted (some cs)).2)
    (h2 : ∀ cs, (op _ scripted (some cs)).2 = some [] → g (op _ scripted (some cs)).1 = g' (op' _ scripted (some cs)).1) :
    expect op g = expect op' g' := by
  unfold expect
  congr 1
  funext cs
  rw [← h1]
  split
  · next h => rw [h2 cs h]
  · rfl

theorem expect_lift (r : Res α) (g : Res α → ℝ≥0∞) : expect (fun _ _ => Gen.lift r) g = g r :=
  (expect_tree (t := .done r) (fun _ _ _ => rfl) g).trans (Ask.mean_done r g)

theorem expect_fill (n : Nat) (f : ∀ σ : Type, RngImpl σ → Bytes → Gen σ β) (hf : ∀ a, Treed True (fun σ R => f σ R a))
    (g : Res β → ℝ≥0∞) : expect (fun σ R => (gen.tryFill R n >>= fun a => f σ R a : Gen σ β)) g =
      ∑' b : {b : Bytes // b.length = n}, (256 ^ n)⁻¹ * expect (fun σ R => f σ R b.1) g := by
  choose u g1 g2 using hf
  rw [expect_tree (t := .octets n fun a => match a with | some b => u b | none => .done (.err .rng)), Ask.mean_octets]
  · congr 1; funext b
    rw [expect_tree (g2 b.1)]
  · intro σ R s
    show Gen.bind _ _ s = Ask.run R (match (R.fill s n).1 with | some b => u b | none => .done (.err .rng)) (R.fill s n).2
    unfold Gen.bind gen.tryFill
    rcases R.fill s n with ⟨_ | b, s'⟩
    · rfl
    · exact g2 b σ R s'

theorem expect_number (n : Nat) (f : ∀ σ : Type, RngImpl σ → Nat → Gen σ β) (hf : ∀ a, Treed True (fun σ R => f σ R a))
    (g : Res β → ℝ≥0∞) : expect (fun σ R => (gen.tryRandomMod R n >>= fun a => f σ R a : Gen σ β)) g =
      ∑' b : {b : Nat // b < n}, (n : ℝ≥0∞)⁻¹ * expect (fun σ R => f σ R b.1) g := by
  choose u g1 g2 using hf
  rw [expect_tree (t := .number n fun a => match a with | some b => u b | none => .done (.err .rng)), Ask.mean_number]
  · congr 1; funext b
    rw [expect_tree (g2 b.1)]
  · intro σ R s
    show Gen.bind _ _ s = Ask.run R (match (R.randMod s n).1 with | some b => u b | none => .done (.err .rng)) (R.randMod s n).2
    unfold Gen.bind gen.tryRandomMod
    rcases R.randMod s n with ⟨_ | b, s'⟩
    · rfl
    · exact g2 b σ R s'

/-- The mean after a step: `F` if it succeeded, else what its outcome counts for. -/
def after (F : α → ℝ≥0∞) (g : Res β → ℝ≥0∞) : Res α → ℝ≥0∞
  | .ok a => F a
  | .err e => g (.err e)
  | .panic k => g (.panic k)
  | .loop => g .loop

theorem expect_bind {m : Op α} {f : ∀ σ : Type, RngImpl σ → α → Gen σ β} (hm : Treed True m)
    (hf : ∀ a, Treed True (fun σ R => f σ R a)) (g : Res β → ℝ≥0∞) :
    expect (fun σ R => (m σ R >>= fun a => f σ R a : Gen σ β)) g =
      expect m (after (fun a => expect (fun σ R => f σ R a) g) g) := by
  obtain ⟨t, h1, h2⟩ := hm
  choose u g1 g2 using hf
  rw [expect_tree h2, expect_tree (t := t.bind fun r => match r with
    | .ok a => u a
    | .err e => .done (.err e)
    | .panic k => .done (.panic k)
    | .loop => .done .loop), Ask.mean_bind]
  · congr 1; funext r
    rcases r with a | e | k | _
    · exact (expect_tree (g2 a) g).symm
    all_goals exact Ask.mean_done _ _
  · intro σ R s
    rw [Ask.run_bind, ← h2]
    show Gen.bind _ _ s = _
    unfold Gen.bind
    rcases m σ R s with ⟨a | e | k | _, s'⟩
    · exact g2 a σ R s'
    all_goals rfl

theorem expect_mul {op : Op α} (ht : Treed True op) (g : Res α → ℝ≥0∞) (c : ℝ≥0∞) :
    (expect op fun r => g r * c) = expect op g * c := by
  obtain ⟨t, -, h⟩ := ht
  rw [expect_tree h, expect_tree h, Ask.mean_mul]

theorem expect_zero (op : Op α) : (expect op fun _ => 0) = 0 := by
  unfold expect
  simp

theorem expect_one {op : Op α} (ht : Treed True op) : (expect op fun _ => 1) = 1 := by
  obtain ⟨t, hl, h⟩ := ht
  rw [expect_tree h, Ask.mean_one (hl trivial)]

open Classical in
theorem chance_one (q : Request) (r : Res Bytes) : chance [q] [r] = expect q.op fun x => if x = r then 1 else 0 := by
  rw [chance_eq, askAll, Ask.mean_bind, expect_tree (t := askOf q) (fun _ R s => askOf_run q R s)]
  congr 1
  funext x
  rw [askAll, Ask.mean_bind, Ask.mean_done, Ask.mean_done]
  simp

/-- What follows does not touch the generator. -/
theorem silent {σ : Type} {m : Gen σ α} {f : α → Gen σ β} (hf : ∀ a s, (f a s).2 = s) (s : σ) :
    ((m >>= f) s).2 = (m s).2 := by
  show (Gen.bind m f s).2 = _
  unfold Gen.bind
  rcases m s with ⟨a | e | k | _, s'⟩
  · exact hf a s'
  all_goals rfl

theorem silent_res {σ : Type} {r : Res α} {f : α → Gen σ β} (hf : ∀ a s, (f a s).2 = s) (s : σ) :
    (((liftM r : Gen σ α) >>= f) s).2 = s := by
  rw [silent hf]; rfl

theorem res_ok {σ : Type} (a : α) (f : α → Gen σ β) : ((liftM (Res.ok a) : Gen σ α) >>= f) = f a := rfl

/-! ### Octets other than zero -/

theorem firstOctet_succ (m : Nat) : firstOctet (m + 1) = 256⁻¹ + 256⁻¹ * firstOctet m := by
  unfold firstOctet
  rw [Finset.sum_range_succ', zero_add, pow_one, add_comm, Finset.mul_sum]
  congr 2
  funext j
  rw [pow_succ' _ (j + 1), ENNReal.mul_inv (by simp) (by simp)]

/-- Strings of one octet. -/
def single : {b : Bytes // b.length = 1} ≃ UInt8 where
  toFun b := b.1.headD 0
  invFun x := ⟨[x], rfl⟩
  left_inv := by
    rintro ⟨_ | ⟨x, _ | _⟩, h⟩
    · cases h
    · rfl
    · cases h
  right_inv _ := rfl

/-- Strings of octets by their first. -/
def headTail (n : Nat) : {b : Bytes // b.length = n + 1} ≃ UInt8 × {b : Bytes // b.length = n} where
  toFun b := (b.1.headD 0, ⟨b.1.tail, by have := b.2; simp [this]⟩)
  invFun x := ⟨x.1 :: x.2.1, by simp [x.2.2]⟩
  left_inv := by
    rintro ⟨_ | ⟨x, t⟩, h⟩
    · cases h
    · rfl
  right_inv := by rintro ⟨x, t, h⟩; rfl

open Classical in
theorem expect_reroll (b : UInt8) (hb : b ≠ 0) : ∀ fuel, (expect (fun _ R => gen.rerollByte R fuel)
    fun r => if r = .ok b then 1 else 0) = firstOctet fuel
  | 0 => by
    show expect (fun _ _ => Gen.lift .loop) _ = _
    rw [expect_lift, if_neg (by simp)]
    simp [firstOctet]
  | fuel + 1 => by
    have hop : (fun (σ : Type) (R : RngImpl σ) => gen.rerollByte R (fuel + 1)) = fun σ R =>
        (gen.tryFill R 1 >>= fun a => ((liftM (idx a 0) : Gen σ UInt8) >>= fun el =>
          if el = 0 then gen.rerollByte R fuel else Gen.lift (.ok el)) : Gen σ UInt8) := rfl
    rw [hop, expect_fill _ _ (fun a => tree_res fun _ => tree_ite (gen.tree_rerollByte fuel) (tree_lift _)),
      ← single.symm.tsum_eq]
    have hterm : ∀ x : UInt8, (256 ^ 1 : ℝ≥0∞)⁻¹ * expect (fun σ (R : RngImpl σ) =>
        ((liftM (idx (single.symm x).1 0) : Gen σ UInt8) >>= fun el =>
          if el = 0 then gen.rerollByte R fuel else Gen.lift (.ok el) : Gen σ UInt8)) (fun r => if r = .ok b then 1 else 0) =
        (if x = 0 then 256⁻¹ * firstOctet fuel else 0) + (if x = b then 256⁻¹ else 0) := by
      intro x
      have h1 : (fun (σ : Type) (R : RngImpl σ) => ((liftM (idx (single.symm x).1 0) : Gen σ UInt8) >>= fun el =>
          if el = 0 then gen.rerollByte R fuel else Gen.lift (.ok el) : Gen σ UInt8)) =
          fun σ R => if x = 0 then gen.rerollByte R fuel else Gen.lift (.ok x) := rfl
      rw [h1, pow_one]
      by_cases hx : x = 0
      · subst hx
        simp only [if_true]
        rw [expect_reroll b hb fuel, if_neg (Ne.symm hb), add_zero]
      · simp only [hx, if_false]
        rw [expect_lift, zero_add]
        by_cases h : x = b
        · simp [h]
        · rw [if_neg (by simpa using h), if_neg h, mul_zero]
    rw [tsum_congr hterm, ENNReal.tsum_add, tsum_ite_eq, tsum_ite_eq, firstOctet_succ, add_comm]

open Classical in
theorem expect_fixZeros (fuel : Nat) : ∀ x : Bytes, (∀ b ∈ x, b ≠ 0) →
    ∑' d : {d : Bytes // d.length = x.length}, (256 ^ x.length)⁻¹ * (expect (fun _ R => gen.fixZeros R fuel d.1)
      fun r => if r = .ok x then 1 else 0) = firstOctet (fuel + 1) ^ x.length
  | [], _ => by
    rw [tsum_eq_single (⟨[], rfl⟩ : {d : Bytes // d.length = ([] : Bytes).length})]
    · show _ * expect (fun _ _ => Gen.lift (.ok [])) _ = _
      rw [expect_lift]
      simp
    · rintro ⟨d, hd⟩ h
      exact absurd (Subtype.ext (List.length_eq_zero_iff.mp hd)) h
  | x :: xs, hx => by
    have hx0 : x ≠ 0 := hx x (List.mem_cons_self ..)
    have ih := expect_fixZeros fuel xs fun b hb => hx b (List.mem_cons_of_mem _ hb)
    refine ((headTail xs.length).symm.tsum_eq _).symm.trans ?_
    have hterm : ∀ p : UInt8 × {b : Bytes // b.length = xs.length},
        (256 ^ (x :: xs).length : ℝ≥0∞)⁻¹ * (expect (fun _ R => gen.fixZeros R fuel ((headTail xs.length).symm p).1)
          fun r => if r = .ok (x :: xs) then 1 else 0) =
        ((if p.1 = 0 then 256⁻¹ * firstOctet fuel else 0) + (if p.1 = x then 256⁻¹ else 0)) *
          ((256 ^ xs.length)⁻¹ * (expect (fun _ R => gen.fixZeros R fuel p.2.1) fun r => if r = .ok xs then 1 else 0)) := by
      rintro ⟨el, d, hd⟩
      have hop : (fun (σ : Type) (R : RngImpl σ) => gen.fixZeros R fuel ((headTail xs.length).symm (el, ⟨d, hd⟩)).1) =
          fun σ R => ((if el = 0 then gen.rerollByte R fuel else Gen.lift (.ok el) : Gen σ UInt8) >>= fun el =>
            (gen.fixZeros R fuel d >>= fun rest => Gen.lift (.ok (el :: rest)))) := rfl
      have h2 : ∀ e : UInt8, (expect (fun σ (R : RngImpl σ) =>
          (gen.fixZeros R fuel d >>= fun rest => Gen.lift (.ok (e :: rest)) : Gen σ Bytes))
            fun r => if r = .ok (x :: xs) then 1 else 0) =
          (if e = x then 1 else 0) * (expect (fun _ R => gen.fixZeros R fuel d) fun r => if r = .ok xs then 1 else 0) := by
        intro e
        rw [expect_bind (gen.tree_fixZeros fuel d) (fun _ => tree_lift _), mul_comm, ← expect_mul (gen.tree_fixZeros fuel d)]
        congr 1
        funext r
        rcases r with a | er | k | _
        · simp only [after, expect_lift, Res.ok.injEq, List.cons.injEq]
          by_cases h : e = x <;> by_cases h' : a = xs <;> simp [h, h']
        all_goals simp [after]
      rw [hop, expect_bind (tree_ite (gen.tree_rerollByte fuel) (tree_lift _))
        (fun _ => tree_bind (gen.tree_fixZeros fuel d) fun _ => tree_lift _)]
      have h3 : (expect (fun σ (R : RngImpl σ) => (if el = 0 then gen.rerollByte R fuel else Gen.lift (.ok el) : Gen σ UInt8))
          (after (fun e => expect (fun σ (R : RngImpl σ) =>
            (gen.fixZeros R fuel d >>= fun rest => Gen.lift (.ok (e :: rest)) : Gen σ Bytes))
            fun r => if r = .ok (x :: xs) then 1 else 0) fun r => if r = .ok (x :: xs) then 1 else 0)) =
          (expect (fun σ (R : RngImpl σ) => (if el = 0 then gen.rerollByte R fuel else Gen.lift (.ok el) : Gen σ UInt8))
            fun r => if r = .ok x then 1 else 0) *
            (expect (fun _ R => gen.fixZeros R fuel d) fun r => if r = .ok xs then 1 else 0) := by
        rw [← expect_mul (tree_ite (gen.tree_rerollByte fuel) (tree_lift _))]
        congr 1
        funext r
        rcases r with a | er | k | _
        · simp only [after, h2, Res.ok.injEq]
        all_goals simp [after]
      refine (congrArg ((256 ^ (x :: xs).length : ℝ≥0∞)⁻¹ * ·) h3).trans ?_
      show _ * _ = _
      rw [List.length_cons, pow_succ', ENNReal.mul_inv (by simp) (by simp), mul_mul_mul_comm]
      congr 1
      by_cases h0 : el = 0
      · subst h0
        simp only [if_true]
        rw [expect_reroll x hx0 fuel, if_neg (Ne.symm hx0), add_zero]
      · simp only [h0, if_false]
        rw [expect_lift, zero_add]
        by_cases h : el = x
        · simp [h]
        · rw [if_neg (by simpa using h), if_neg h, mul_zero]
    rw [tsum_congr hterm, ENNReal.tsum_prod (f := fun el (d : {b : Bytes // b.length = xs.length}) =>
        ((if el = 0 then 256⁻¹ * firstOctet fuel else 0) + (if el = x then 256⁻¹ else 0)) *
          ((256 ^ xs.length)⁻¹ * (expect (fun _ R => gen.fixZeros R fuel d.1) fun r => if r = .ok xs then 1 else 0)))]
    simp only [ENNReal.tsum_mul_left (a := (_ + _ : ℝ≥0∞)), ih]
    rw [ENNReal.tsum_mul_right, ENNReal.tsum_add, tsum_ite_eq, tsum_ite_eq, List.length_cons, pow_succ' _ xs.length,
      firstOctet_succ, add_comm]

open Classical in
theorem expect_nonZero (fuel : Nat) (x : Bytes) (hx : ∀ b ∈ x, b ≠ 0) :
    (expect (fun _ R => gen.nonZeroRandomBytes R fuel x.length) fun r => if r = .ok x then 1 else 0) =
      firstOctet (fuel + 1) ^ x.length := by
  rw [← expect_fixZeros fuel x hx]
  exact expect_fill x.length (fun _ R => gen.fixZeros R fuel) (fun _ => gen.tree_fixZeros fuel _) _

/-! ### Blinding -/

theorem useless_card {n : Nat} (hn : 1 < n) :
    (∑' a : {a : Nat // a < n}, if a.1 ≠ 0 ∧ ¬ a.1.Coprime n then (n : ℝ≥0∞)⁻¹ else 0) = useless n := by
  let e : {a : Nat // a < n} ≃ Fin n := ⟨fun a => ⟨a.1, a.2⟩, fun a => ⟨a.1, a.2⟩, fun _ => rfl, fun _ => rfl⟩
  rw [← e.symm.tsum_eq, tsum_fintype, ← Finset.sum_filter, Finset.sum_const, nsmul_eq_mul, useless, ← wasted_ncard hn]
  congr 2
  rw [← Set.ncard_coe_finset]
  rw [show {r : Nat | r < n ∧ r ≠ 0 ∧ ¬ r.Coprime n} = (fun a : Fin n => a.1) ''
    (((Finset.univ : Finset (Fin n)).filter fun a => (e.symm a).1 ≠ 0 ∧ ¬ (e.symm a).1.Coprime n : Finset (Fin n)) :
      Set (Fin n)) from ?_]
  · exact (Set.ncard_image_of_injective _ Fin.val_injective).symm
  · ext r
    simp only [Set.mem_ofPred_eq, Set.mem_image, Finset.mem_coe, Finset.mem_filter, Finset.mem_univ, true_and]
    constructor
    · rintro ⟨h1, h2⟩; exact ⟨⟨r, h1⟩, h2, rfl⟩
    · rintro ⟨a, h, rfl⟩; exact ⟨a.2, h⟩

/-- The mean of what counts `A` when blinding succeeds and `B` when it does not end within the bound. -/
theorem expect_blindLoop (n : BoxedUint) (hn : 1 < n.val) {g : Res (BoxedUint × BoxedUint) → ℝ≥0∞} {A : ℝ≥0∞}
    (hA : ∀ x, g (.ok x) = A) : ∀ fuel, expect (fun _ R => gen.blindLoop R n fuel) g =
      (1 - useless n.val ^ fuel) * A + useless n.val ^ fuel * g .loop := by
  have hsum : (∑' a : {a : Nat // a < n.val}, if a.1 ≠ 0 ∧ ¬ a.1.Coprime n.val then (0 : ℝ≥0∞) else (n.val : ℝ≥0∞)⁻¹) +
      useless n.val = 1 := by
    rw [← useless_card hn, ← ENNReal.tsum_add, ← Ask.card_number (n := n.val) (by omega)]
    congr 1; funext a
    split <;> simp
  have key : ∀ fuel, ∃ p, p + useless n.val ^ fuel = 1 ∧ expect (fun _ R => gen.blindLoop R n fuel) g =
      p * A + useless n.val ^ fuel * g .loop := by
    intro fuel
    induction fuel with
    | zero =>
      refine ⟨0, by simp, ?_⟩
      show expect (fun _ _ => Gen.lift .loop) g = _
      rw [expect_lift]; simp
    | succ fuel ih =>
      obtain ⟨p, h1, h2⟩ := ih
      generalize hv : (∑' a : {a : Nat // a < n.val}, if a.1 ≠ 0 ∧ ¬ a.1.Coprime n.val then (0 : ℝ≥0∞)
        else (n.val : ℝ≥0∞)⁻¹) = v at hsum
      refine ⟨useless n.val * p + v, ?_, ?_⟩
      · calc useless n.val * p + v + useless n.val ^ (fuel + 1)
            = useless n.val * (p + useless n.val ^ fuel) + v := by ring
          _ = 1 := by rw [h1, mul_one, add_comm, hsum]
      · let F : ∀ σ : Type, RngImpl σ → Nat → Gen σ (BoxedUint × BoxedUint) := fun σ R rv =>
          match (if (wrap n.nlimbs rv).isZero then oneWithPrecision n.prec else wrap n.nlimbs rv).invMod n with
          | some ir => Gen.lift (.ok (if (wrap n.nlimbs rv).isZero then oneWithPrecision n.prec else wrap n.nlimbs rv, ir))
          | none => gen.blindLoop R n fuel
        have hF : ∀ a, Treed True (fun σ R => F σ R a) := by
          intro rv
          simp only [F]
          rcases (if (wrap n.nlimbs rv).isZero then oneWithPrecision n.prec else wrap n.nlimbs rv).invMod n with _ | ir
          · exact gen.tree_blindLoop n (fun _ => by omega) fuel
          · exact tree_lift _
        have hop : (fun (σ : Type) (R : RngImpl σ) => gen.blindLoop R n (fuel + 1)) = fun σ R =>
            (gen.tryRandomMod R n.val >>= fun a => F σ R a : Gen σ (BoxedUint × BoxedUint)) := rfl
        rw [hop, expect_number _ _ hF]
        have hterm : ∀ a : {a : Nat // a < n.val}, (n.val : ℝ≥0∞)⁻¹ * expect (fun σ R => F σ R a.1) g =
            (if a.1 ≠ 0 ∧ ¬ a.1.Coprime n.val then (n.val : ℝ≥0∞)⁻¹ else 0) *
                (expect (fun _ R => gen.blindLoop R n fuel) g) +
              (if a.1 ≠ 0 ∧ ¬ a.1.Coprime n.val then 0 else (n.val : ℝ≥0∞)⁻¹) * A := by
          rintro ⟨a, ha⟩
          have hval := wrap_ite_val n ha
          by_cases hu : a ≠ 0 ∧ ¬ a.Coprime n.val
          · have hnone : invMod (if (wrap n.nlimbs a).isZero = true then oneWithPrecision n.prec else wrap n.nlimbs a) n
                = none := by
              unfold invMod
              rw [hval, if_neg hu.1, (natInvMod_none (by omega)).mpr hu.2]; rfl
            rw [show (fun (σ : Type) (R : RngImpl σ) => F σ R a) = fun _ R => gen.blindLoop R n fuel from by
              funext σ R; simp only [F]; rw [hnone], if_pos hu, if_pos hu, zero_mul, add_zero]
          · have hcop : Nat.Coprime (if a = 0 then 1 else a) n.val := by
              split
              · exact Nat.coprime_one_left _
              · next h0 => by_contra h; exact hu ⟨h0, h⟩
            obtain ⟨iv, hiv⟩ := natInvMod_isSome (show 0 < n.val by omega) hcop
            have hsome : invMod (if (wrap n.nlimbs a).isZero = true then oneWithPrecision n.prec else wrap n.nlimbs a) n
                = some (wrap n.nlimbs iv) := by
              unfold invMod; rw [hval, hiv]; rfl
            rw [show (fun (σ : Type) (R : RngImpl σ) => F σ R a) = fun _ _ => Gen.lift (.ok (if (wrap n.nlimbs a).isZero = true
              then oneWithPrecision n.prec else wrap n.nlimbs a, wrap n.nlimbs iv)) from by
              funext σ R; simp only [F]; rw [hsome], expect_lift, hA, if_neg hu, if_neg hu, zero_mul, zero_add]
        rw [tsum_congr hterm, ENNReal.tsum_add, ENNReal.tsum_mul_right, ENNReal.tsum_mul_right, useless_card hn, hv, h2]
        ring
  intro fuel
  obtain ⟨p, h1, h2⟩ := key fuel
  rw [h2, ← h1, ENNReal.add_sub_cancel_right]
  intro htop
  rw [htop] at h1
  simp at h1

namespace gen

theorem state_blind {σ : Type} (R : RngImpl σ) (fuel : Nat) {k : PublicKey} (hk : k.Coherent) (c : BoxedUint) (s : σ) :
    (blind R fuel k c k.nParams s).2 = (blindLoop R k.n fuel s).2 := by
  unfold blind
  have h : (!(k.n.beq k.nParams.modulus.toBoxedUint)) = false := by
    rw [hk]
    simp [BoxedUint.beq]
  rw [h]
  simp only [Bool.false_eq_true, if_false]
  refine silent (fun a s => ?_) s
  refine silent_res (fun _ _ => silent_res (fun _ _ => ?_) _) _
  split
  · rfl
  · split <;> rfl

theorem state_check {σ : Type} (R : RngImpl σ) (fuel : Nat) {k : PrivateKey} (hk : k.pub.Coherent) (c : BoxedUint)
    (hc : c.val < k.pub.n.val) (s : σ) :
    (rsaDecryptAndCheck R fuel k true c s).2 = (blindLoop R k.pub.n fuel s).2 ∧
      (rsaDecryptAndCheck R fuel k false c s).2 = s := by
  have hge : c.ge k.pub.n = false := by simpa [BoxedUint.ge, BoxedUint.lt] using hc
  have hq : ∀ (m : BoxedUint) (s : σ), (((liftM (rsaEncrypt k.pub m) : Gen σ BoxedUint) >>= fun check =>
      if !(c.beq check) then Gen.lift (.err .internal) else Gen.lift (.ok m)) s).2 = s := by
    intro m s
    refine silent_res (fun a s => ?_) s
    split <;> rfl
  refine ⟨(silent hq s).trans ?_, (silent hq s).trans ?_⟩
  · unfold rsaDecrypt
    rw [hge]
    simp only [Bool.false_eq_true, if_false, if_true]
    rw [silent ?_ s, state_blind R fuel hk]
    intro a s
    exact silent_res (fun _ _ => silent_res (fun _ _ => silent_res (fun _ _ => rfl) _) _) _
  · unfold rsaDecrypt
    rw [hge]
    simp only [Bool.false_eq_true, if_false]
    exact silent_res (fun _ _ => silent_res (fun _ _ => rfl) _) _

end gen

/-- The mean over a private-key operation by a correct key. -/
theorem expect_check {k : PrivateKey} (hk : WellFormed k) (fuel : Nat) (c : BoxedUint) (hw : c.nlimbs = k.pub.n.nlimbs)
    (hc : c.val < k.pub.n.val) (f : BoxedUint → Res β) (g : Res β → ℝ≥0∞) :
    expect (fun σ R => (gen.rsaDecryptAndCheck R fuel k true c >>= fun m => Gen.lift (f m) : Gen σ β)) g =
      (1 - useless k.pub.n.val ^ fuel) * g (f (wrap k.pub.n.nlimbs (c.val ^ k.d.val % k.pub.n.val))) +
        useless k.pub.n.val ^ fuel * g .loop ∧
    expect (fun σ R => (gen.rsaDecryptAndCheck R fuel k false c >>= fun m => Gen.lift (f m) : Gen σ β)) g =
      g (f (wrap k.pub.n.nlimbs (c.val ^ k.d.val % k.pub.n.val))) := by
  have hco : k.pub.Coherent := hk.coherent
  have hn := coherent_pos hco
  have hcheck : rsaEncrypt k.pub (wrap k.pub.n.nlimbs (c.val ^ k.d.val % k.pub.n.val)) = .ok c := by
    rw [rsaEncrypt_lt _ hco _ (by rw [wrap_mod_val _ hn]; exact lt_trans (Nat.mod_lt _ hn) k.pub.n.isLt),
      wrap_mod_val _ hn]
    congr 1
    apply ext_val
    · exact hw.symm
    · rw [wrap_mod_val _ hn, ← Nat.pow_mod, ← pow_mul, wf_rsa hk, Nat.mod_eq_of_lt hc]
  have hbeq : c.beq c = true := by simp [beq]
  constructor
  · refine Eq.trans ?_ (expect_blindLoop k.pub.n (wf_one_lt hk) (g := fun r => g (r >>= fun _ => f (wrap k.pub.n.nlimbs
      (c.val ^ k.d.val % k.pub.n.val)))) (A := g (f (wrap k.pub.n.nlimbs (c.val ^ k.d.val % k.pub.n.val))))
      (fun _ => rfl) fuel)
    refine expect_congr (fun cs => ?_) (fun cs _ => ?_)
    · rw [silent (fun _ _ => rfl)]
      exact (gen.state_check scripted fuel hco c hc _).1
    · congr 1
      rw [gen.out_check (g := f) scripted fuel k true c _ (fun _ _ => rfl), gen.out_same (gen.same_blindLoop _ _ _ _)]
      unfold rsaDecryptAndCheck
      show (RSA.rsaDecrypt scripted fuel (some (some cs)) k c >>= _) >>= _ = _
      rw [rsaDecrypt_some _ _ _ hk c hw hc]
      rcases blindLoop scripted k.pub.n fuel (some cs) with ⟨x, s'⟩ | _ | _ | _
      · simp only [Res.ok_bind, hcheck, hbeq]
        rfl
      all_goals rfl
  · rw [← expect_lift (f (wrap k.pub.n.nlimbs (c.val ^ k.d.val % k.pub.n.val))) g]
    refine expect_congr (fun cs => ?_) (fun cs _ => ?_)
    · rw [silent (fun _ _ => rfl)]
      exact (gen.state_check scripted fuel hco c hc _).2
    · congr 1
      rw [gen.out_check (g := f) scripted fuel k false c _ (fun _ _ => rfl)]
      unfold rsaDecryptAndCheck
      show (RSA.rsaDecrypt scripted fuel none k c >>= _) >>= _ = _
      rw [rsaDecrypt_none _ _ hk c (by rw [hw]; exact hk.width) hc]
      simp only [Res.ok_bind, hcheck, hbeq]
      rfl

/-- Operations that use the generator, if at all, for blinding only: some steps that do not touch it, then the private-key
operation, then other steps that do not touch it; or a failure before. -/
def Plain (k : PrivateKey) (fuel : Nat) (op : Bool → Op β) : Prop :=
  (∃ x : Res β, (∀ a, x ≠ .ok a) ∧ ∀ b, op b = fun _ _ => Gen.lift x) ∨
    ∃ (c : BoxedUint) (f : BoxedUint → Res β), c.nlimbs = k.pub.n.nlimbs ∧
      ∀ b, op b = fun σ R => (gen.rsaDecryptAndCheck R fuel k b c >>= fun m => Gen.lift (f m) : Gen σ β)

theorem plain_res {k : PrivateKey} {fuel : Nat} {r : Res α} {F : Bool → ∀ σ : Type, RngImpl σ → α → Gen σ β}
    (h : ∀ a, r = .ok a → Plain k fuel (fun b σ R => F b σ R a)) :
    Plain k fuel (fun b σ R => ((liftM r : Gen σ α) >>= fun a => F b σ R a : Gen σ β)) := by
  rcases r with a | e | p | _
  · exact h a rfl
  · exact .inl ⟨.err e, by simp, fun _ => rfl⟩
  · exact .inl ⟨.panic p, by simp, fun _ => rfl⟩
  · exact .inl ⟨.loop, by simp, fun _ => rfl⟩

theorem plain_err {k : PrivateKey} {fuel : Nat} (e : Error) : Plain (β := β) k fuel (fun _ _ _ => Gen.lift (.err e)) :=
  .inl ⟨.err e, by simp, fun _ => rfl⟩

theorem plain_ite {k : PrivateKey} {fuel : Nat} {p : Prop} [Decidable p] {A B : Bool → Op β} (hA : Plain k fuel A)
    (hB : Plain k fuel B) : Plain k fuel (fun b σ R => if p then A b σ R else B b σ R) := by
  by_cases h : p
  · have : (fun (b : Bool) (σ : Type) (R : RngImpl σ) => if p then A b σ R else B b σ R) = A := by
      funext b σ R; exact if_pos h
    rw [this]; exact hA
  · have : (fun (b : Bool) (σ : Type) (R : RngImpl σ) => if p then A b σ R else B b σ R) = B := by
      funext b σ R; exact if_neg h
    rw [this]; exact hB

theorem lift_lift {σ : Type} (r : Res α) (f : α → Res β) :
    ((liftM r : Gen σ α) >>= fun a => liftM (f a) : Gen σ β) = Gen.lift (r >>= f) := by
  cases r <;> rfl

theorem plain_check {k : PrivateKey} (hk : WellFormed k) {fuel : Nat} {em : Bytes} {c : BoxedUint}
    (hc : fromBeSlice em k.pub.nBitsPrecision = .ok c) (f : BoxedUint → Res β) {F : ∀ σ : Type, BoxedUint → Gen σ β}
    (hF : ∀ σ m, F σ m = Gen.lift (f m)) :
    Plain k fuel (fun b σ R => (gen.rsaDecryptAndCheck R fuel k b c >>= fun m => F σ m : Gen σ β)) := by
  refine .inr ⟨c, f, ?_, fun b => ?_⟩
  · obtain ⟨-, -, rfl⟩ := fromBeSlice_eq_ok_iff.mp hc
    exact limbsFor_prec _ (coherent_nlimbs_pos (k := k.pub) hk.coherent)
  · funext σ R
    exact congrArg (gen.rsaDecryptAndCheck R fuel k b c >>= ·) (funext fun m => hF σ m)

theorem plain_decryptPkcs1v15 {k : PrivateKey} (hk : WellFormed k) (fuel : Nat) (ct : Bytes) :
    Plain k fuel (fun b _ R => gen.pkcs1v15Decrypt R fuel b k ct) :=
  plain_res fun _ _ => plain_res fun _ hc => plain_check hk hc
    (fun m => uintToZeroizingBePad m k.pub.size >>= fun em => pkcs1v15EncryptUnpad em k.pub.size) fun _ _ => lift_lift _ _

theorem plain_decryptOaep {k : PrivateKey} (hk : WellFormed k) (fuel : Nat) (ct : Bytes) (dg mg : DigestState)
    (label : Option Bytes) : Plain k fuel (fun b _ R => gen.oaepSchemeDecrypt R fuel b k ct dg mg label) :=
  plain_ite (plain_err _) (plain_res fun _ hc => plain_check hk hc
    (fun m => uintToZeroizingBePad m k.pub.size >>= fun em => oaepDecrypt em dg mg label k.pub.size)
    fun _ _ => lift_lift _ _)

theorem plain_decryptOaepTyped {k : PrivateKey} (hk : WellFormed k) (fuel : Nat) (D MGD : HashFn) (ct : Bytes)
    (label : Option Bytes) : Plain k fuel (fun b _ R => gen.oaepSchemeDecryptDigest R fuel D MGD b k ct label) :=
  plain_res fun _ _ => plain_ite (plain_err _) (plain_res fun _ hc => plain_check hk hc
    (fun m => uintToZeroizingBePad m k.pub.size >>= fun em => oaepDecryptDigest em D MGD label k.pub.size)
    fun _ _ => lift_lift _ _)

theorem plain_sign {k : PrivateKey} (hk : WellFormed k) (fuel : Nat) (pfx hashed : Bytes) :
    Plain k fuel (fun b _ R => gen.pkcs1v15Sign R fuel b k pfx hashed) :=
  plain_res fun _ _ => plain_res fun _ hc => plain_check hk hc (fun m => uintToZeroizingBePad m k.pub.size) fun _ _ => rfl

theorem plain_schemeSign {k : PrivateKey} (hk : WellFormed k) (fuel : Nat) (S : pkcs1v15.Pkcs1v15Sign) (hashed : Bytes) :
    Plain k fuel (fun b _ R => gen.pkcs1v15SchemeSign R fuel S b k hashed) :=
  plain_res fun _ _ => plain_sign hk fuel S.pfx hashed

/-- Such an operation without blinding has one outcome; with blinding it has it unless the draws do not end. -/
theorem plain_expect {k : PrivateKey} (hk : WellFormed k) {fuel : Nat} {op : Bool → Op β} (h : Plain k fuel op) :
    ∃ x : Res β, (∀ σ R s, (op false σ R s).1 = x) ∧ (∀ g, expect (op false) g = g x) ∧
      ((∀ g, expect (op true) g = g x) ∧ (∀ a, x ≠ .ok a) ∧ (∀ σ R s, op true σ R s = (x, s)) ∨
        (∀ g, expect (op true) g = (1 - useless k.pub.n.val ^ fuel) * g x + useless k.pub.n.val ^ fuel * g .loop) ∧
          ∀ σ R s, 0 < fuel → (R.randMod s k.pub.n.val).1 = none → (op true σ R s).1 = .err .rng) := by
  rcases h with ⟨x, hx, h⟩ | ⟨c, f, hw, h⟩
  · refine ⟨x, fun σ R s => by rw [h]; rfl, fun g => ?_, .inl ⟨fun g => ?_, hx, fun σ R s => by rw [h]; rfl⟩⟩ <;>
      rw [h] <;> exact expect_lift _ _
  · by_cases hc : c.val < k.pub.n.val
    · refine ⟨f (wrap k.pub.n.nlimbs (c.val ^ k.d.val % k.pub.n.val)), fun σ R s => ?_, fun g => ?_, .inr ⟨fun g => ?_,
        fun σ R s hf hr => ?_⟩⟩ <;> rw [h]
      · rw [gen.out_check (g := f) R fuel k false c _ (fun _ _ => rfl)]
        obtain ⟨r, hr⟩ := rsaDecryptAndCheck_ok R fuel none hk c hw hc trivial
        show RSA.rsaDecryptAndCheck R fuel k none c >>= _ = _
        rw [hr]
        rfl
      · exact (expect_check hk fuel c hw hc f g).2
      · exact (expect_check hk fuel c hw hc f g).1
      · rw [gen.out_check (g := f) R fuel k true c _ (fun _ _ => rfl)]
        unfold rsaDecryptAndCheck
        show (RSA.rsaDecrypt R fuel (some s) k c >>= _) >>= _ = _
        rw [rsaDecrypt_some _ _ _ hk c hw hc, (blindLoop_draws R k.pub.n (coherent_pos hk.coherent) (.fail s hr) fuel hf).2 rfl]
        rfl
    · have hge : c.ge k.pub.n = true := by simpa [BoxedUint.ge, BoxedUint.lt] using hc
      have : ∀ b, (fun (σ : Type) (R : RngImpl σ) => (gen.rsaDecryptAndCheck R fuel k b c >>= fun m => Gen.lift (f m) :
          Gen σ β)) = fun _ _ => Gen.lift (.err .decryption) := by
        intro b
        funext σ R s
        have h1 : gen.rsaDecrypt R fuel b k c = Gen.lift (.err .decryption) := by
          unfold gen.rsaDecrypt
          rw [hge]
          rfl
        unfold gen.rsaDecryptAndCheck
        rw [h1]
        rfl
      refine ⟨.err .decryption, fun σ R s => by rw [h, this]; rfl, fun g => ?_, .inl ⟨fun g => ?_, by simp,
        fun σ R s => by rw [h, this]; rfl⟩⟩ <;> rw [h, this] <;> exact expect_lift _ _

/-! ### Strings without zeros, all together -/

/-- Neither success nor endless. -/
def failed : Res α → ℝ≥0∞
  | .ok _ => 0
  | .loop => 0
  | _ => 1

theorem reroll_failed : ∀ fuel, expect (fun _ R => gen.rerollByte R fuel) failed = 0
  | 0 => expect_lift _ _
  | fuel + 1 => by
    refine (expect_fill 1 (fun σ R a => ((liftM (idx a 0) : Gen σ UInt8) >>= fun el =>
      if el = 0 then gen.rerollByte R fuel else Gen.lift (.ok el)))
      (fun a => tree_res fun _ => tree_ite (gen.tree_rerollByte fuel) (tree_lift _)) _).trans ?_
    refine (tsum_congr fun b => ?_).trans tsum_zero
    obtain ⟨_ | ⟨x, _ | _⟩, h⟩ := b
    · cases h
    · have h1 : (fun (σ : Type) (R : RngImpl σ) => ((liftM (idx [x] 0) : Gen σ UInt8) >>= fun el =>
          if el = 0 then gen.rerollByte R fuel else Gen.lift (.ok el) : Gen σ UInt8)) =
          fun σ R => if x = 0 then gen.rerollByte R fuel else Gen.lift (.ok x) := rfl
      rw [h1]
      by_cases hx : x = 0
      · simp only [hx, if_true, reroll_failed fuel, mul_zero]
      · simp only [hx, if_false, expect_lift, failed, mul_zero]
    · cases h

theorem fixZeros_failed (fuel : Nat) : ∀ d, expect (fun _ R => gen.fixZeros R fuel d) failed = 0
  | [] => expect_lift _ _
  | el :: rest => by
    refine (expect_bind (m := fun σ R => if el = 0 then gen.rerollByte R fuel else Gen.lift (.ok el))
      (f := fun σ R el => (gen.fixZeros R fuel rest >>= fun rest => Gen.lift (.ok (el :: rest)) : Gen σ Bytes))
      (tree_ite (gen.tree_rerollByte fuel) (tree_lift _))
      (fun _ => tree_bind (gen.tree_fixZeros fuel rest) fun _ => tree_lift _) _).trans ?_
    have h1 : ∀ e : UInt8, expect (fun σ (R : RngImpl σ) => (gen.fixZeros R fuel rest >>= fun rest =>
        Gen.lift (.ok (e :: rest)) : Gen σ Bytes)) failed = 0 := by
      intro e
      rw [expect_bind (gen.tree_fixZeros fuel rest) (fun _ => tree_lift _), ← fixZeros_failed fuel rest]
      congr 1
      funext r
      rcases r with a | _ | _ | _
      · exact expect_lift _ _
      all_goals rfl
    simp only [h1]
    have h2 : after (fun _ : UInt8 => 0) (failed (α := Bytes)) = failed := by
      funext r
      rcases r with a | _ | _ | _ <;> rfl
    rw [h2]
    by_cases hx : el = 0
    · simp only [hx, if_true, reroll_failed fuel]
    · simp only [hx, if_false, expect_lift, failed]

theorem nonZero_failed (fuel len : Nat) : expect (fun _ R => gen.nonZeroRandomBytes R fuel len) failed = 0 :=
  (expect_fill len (fun _ R => gen.fixZeros R fuel) (fun _ => gen.tree_fixZeros fuel _) _).trans
    ((tsum_congr fun b => by rw [fixZeros_failed, mul_zero]).trans tsum_zero)

theorem expect_add {op : Op α} (g g' : Res α → ℝ≥0∞) : (expect op fun r => g r + g' r) = expect op g + expect op g' := by
  unfold expect
  rw [← ENNReal.tsum_add]
  congr 1; funext cs
  split
  · exact mul_add _ _ _
  · simp

theorem expect_tsum {ι : Type} {op : Op α} (g : ι → Res α → ℝ≥0∞) : (expect op fun r => ∑' i, g i r) = ∑' i, expect op (g i) := by
  unfold expect
  rw [ENNReal.tsum_comm]
  congr 1; funext cs
  split
  · exact ENNReal.tsum_mul_left.symm
  · simp

/-- Strings of octets other than zero. -/
abbrev Strict (len : Nat) := {x : Bytes // x.length = len ∧ ∀ b ∈ x, b ≠ 0}

theorem strict_card : ∀ (len : Nat) (c : ℝ≥0∞), ∑' _ : Strict len, c = 255 ^ len * c := by
  intro len c
  have hset : {t : Bytes | t.length = len ∧ usable t = len} = {t : Bytes | t.length = len ∧ ∀ b ∈ t, b ≠ 0} := by
    ext t
    simp only [Set.mem_ofPred_eq]
    refine and_congr_right fun h => ?_
    rw [usable, ← h, List.countP_eq_length]
    simp
  have hc := usable_ncard len len
  rw [Nat.choose_self, one_mul, hset] at hc
  have hfin : {t : Bytes | t.length = len ∧ ∀ b ∈ t, b ≠ 0}.Finite :=
    Set.finite_of_ncard_ne_zero (by rw [hc]; positivity)
  have : Fintype (Strict len) := hfin.fintype
  rw [tsum_fintype, Finset.sum_const, Finset.card_univ, ← Nat.card_eq_fintype_card, nsmul_eq_mul]
  congr 1
  have : Nat.card (Strict len) = 255 ^ len := hc
  rw [this]
  simp

open Classical in
/-- Drawing a string without zeros does not end within the bound in the rest of the cases. -/
theorem expect_nonZero_loop (fuel len : Nat) :
    (255 * firstOctet (fuel + 1)) ^ len +
      (expect (fun _ R => gen.nonZeroRandomBytes R fuel len) fun r => if r = .loop then 1 else 0) = 1 := by
  have ht : Treed True (fun _ R => gen.nonZeroRandomBytes R fuel len) :=
    tree_bind (tree_fill len) fun _ => gen.tree_fixZeros fuel _
  have h1 : (expect (fun _ R => gen.nonZeroRandomBytes R fuel len) fun _ => 1) =
      expect (fun _ R => gen.nonZeroRandomBytes R fuel len) fun r =>
        (∑' x : Strict len, if r = .ok x.1 then (1 : ℝ≥0∞) else 0) + ((if r = .loop then 1 else 0) + failed r) := by
    refine expect_congr (fun _ => rfl) (fun cs _ => ?_)
    have ho := gen.out_same (gen.same_nonZeroRandomBytes scripted fuel len (some cs))
    rcases nonZeroRandomBytes_cases scripted fuel (some cs) len with ⟨ps, s', h, hl, hz⟩ | h | h <;> rw [h] at ho
    · rw [ho]
      show (1 : ℝ≥0∞) = (∑' x : Strict len, if Res.ok ps = .ok x.1 then (1 : ℝ≥0∞) else 0) + ((if Res.ok ps = .loop then 1 else 0) + 0)
      rw [tsum_eq_single (⟨ps, hl, hz⟩ : Strict len)]
      · simp
      · intro x hx
        rw [if_neg]
        intro h
        exact hx (Subtype.ext (Res.ok.inj h).symm)
    all_goals
      rw [ho]
      simp [failed]
  rw [expect_one ht, expect_add, expect_add, nonZero_failed, add_zero, expect_tsum] at h1
  rw [tsum_congr (fun x : Strict len => show _ = firstOctet (fuel + 1) ^ len from by
    have := expect_nonZero fuel x.1 x.2.2
    rwa [x.2.1] at this), strict_card, ← mul_pow] at h1
  exact h1.symm

theorem expect_iff {op : Op α} {op' : Op β} [DecidableEq (Res α)] [DecidableEq (Res β)] {a : Res α} {b : Res β}
    (h : ∀ cs, op _ scripted (some cs) = (a, some []) ↔ op' _ scripted (some cs) = (b, some [])) :
    (expect op fun r => if r = a then 1 else 0) = expect op' fun r => if r = b then 1 else 0 := by
  have key : ∀ {γ : Type} (op : Op γ) (a : Res γ) [DecidableEq (Res γ)] (cs : List Call),
      (if (op _ scripted (some cs)).2 = some [] then weight cs * (if (op _ scripted (some cs)).1 = a then 1 else 0) else 0) =
        if op _ scripted (some cs) = (a, some []) then weight cs else 0 := by
    intro γ op a _ cs
    by_cases h1 : (op _ scripted (some cs)).2 = some [] <;> by_cases h2 : (op _ scripted (some cs)).1 = a <;>
      simp [h1, h2, Prod.ext_iff]
  unfold expect
  congr 1
  funext cs
  rw [key, key]
  simp only [h cs]

theorem same_iff {σ : Type} {x : Res α × σ} {r : Res (α × σ)} (h : Same x r) (a : α) (s : σ) :
    x = (.ok a, s) ↔ r = .ok (a, s) := by
  rcases r with ⟨b, t⟩ | _ | _ | _
  · rw [show x = (.ok b, t) from h]
    simp
  all_goals
    refine ⟨fun hx => ?_, fun hx => by cases hx⟩
    rw [hx] at h
    cases h

theorem expect_tryFill (x : Bytes) : (expect (fun _ R => gen.tryFill R x.length) fun r => if r = .ok x then 1 else 0) =
    (256 ^ x.length)⁻¹ := by
  have hop : (fun (σ : Type) (R : RngImpl σ) => gen.tryFill R x.length) =
      fun σ R => (gen.tryFill R x.length >>= fun a => Gen.lift (.ok a) : Gen σ Bytes) := by
    funext σ R s
    show _ = Gen.bind _ _ s
    unfold Gen.bind gen.tryFill
    rcases R.fill s x.length with ⟨_ | b, s'⟩ <;> rfl
  rw [hop, expect_fill _ _ fun _ => tree_lift _]
  simp only [expect_lift, Res.ok.injEq]
  rw [tsum_eq_single (⟨x, rfl⟩ : {b : Bytes // b.length = x.length})]
  · simp
  · intro b hb
    rw [if_neg (fun h => hb (Subtype.ext h)), mul_zero]

end RSA
