import Verif.Model.WordsPrimes
import Verif.Proof.WordsKey
import Verif.Proof.FromPrimes

/-! Keys built from primes on machines with words of `w` octets. -/
namespace RSA.words
open Uint
open BoxedUint (natInvMod)

variable {w : Nat}

theorem mul_vals (x y : Uint w) : (x.mul y).val = x.val * y.val ∧ (x.mul y).nlimbs = x.nlimbs + y.nlimbs := by
  refine ⟨Uint.wrap_val_of_lt ?_, rfl⟩
  rw [Nat.mul_add, pow_add]
  exact Nat.mul_lt_mul'' x.isLt y.isLt

theorem foldl_mul : ∀ (ps : List (Uint w)) (x : Uint w),
    (ps.foldl Uint.mul x).val = x.val * (ps.map Uint.val).prod ∧
    (ps.foldl Uint.mul x).nlimbs = x.nlimbs + (ps.map Uint.nlimbs).sum := by
  intro ps
  induction ps with
  | nil => intro x; simp
  | cons p ps ih =>
    intro x
    obtain ⟨h1, h2⟩ := ih (x.mul p)
    rw [List.foldl_cons, h1, h2, (mul_vals x p).1, (mul_vals x p).2, List.map_cons, List.prod_cons, List.map_cons,
      List.sum_cons]
    exact ⟨by rw [mul_assoc], by omega⟩

theorem product_eq {ps : List (Uint w)} (hne : ps ≠ []) : ∃ n, product ps = .ok n ∧ n.val = (ps.map Uint.val).prod ∧
    n.nlimbs = (ps.map Uint.nlimbs).sum := by
  match ps, hne with
  | p :: ps, _ =>
    obtain ⟨h1, h2⟩ := foldl_mul ps p
    exact ⟨_, rfl, by simpa using h1, by simpa using h2⟩

/-- Subtraction of one from a positive number. -/
theorem sub_one {p : Uint w} (hp : 0 < p.val) : ∃ p1, p.sub one = .ok p1 ∧ p1.val = p.val - 1 ∧ p1.nlimbs = p.nlimbs := by
  have hl := Uint.nlimbs_pos p hp
  have hlt := p.isLt
  have h8 : 0 < w := by
    rcases Nat.eq_zero_or_pos w with h | h
    · subst h; simp at hlt; omega
    · exact h
  have h1 : (one (w := w)).val = 1 := by
    apply Uint.wrap_val_of_lt
    exact Nat.one_lt_two_pow (by omega)
  have h2 : (one (w := w)).nlimbs = 1 := rfl
  unfold Uint.sub
  rw [if_pos (by omega), h1, h2, Nat.max_eq_left hl]
  exact ⟨_, rfl, Uint.wrap_val_of_lt (by omega), rfl⟩

theorem widen_fails {x : Uint w} {b : Nat} (h : ¬ x.prec ≤ b) : x.widen b = .panic .precision := by
  unfold Uint.widen; rw [if_neg h]

/-- Inverting the public exponent. -/
theorem invert_eq (hw : 0 < w) {e t : Uint w} (ht : 0 < t.val) :
    (∀ d, (e.widen t.prec >>= fun x => match x.invMod t with
        | some d => (.ok d : Res (Uint w))
        | none => .err .invalidPrime) = .ok d ↔
      e.nlimbs ≤ t.nlimbs ∧ d.nlimbs = t.nlimbs ∧ d.val < t.val ∧ e.val * d.val ≡ 1 [MOD t.val]) ∧
    ((∃ d, (e.widen t.prec >>= fun x => match x.invMod t with
        | some d => (.ok d : Res (Uint w))
        | none => .err .invalidPrime) = .ok d) ↔ e.nlimbs ≤ t.nlimbs ∧ Nat.Coprime e.val t.val) := by
  have htl := Uint.nlimbs_pos t ht
  by_cases hle : e.nlimbs ≤ t.nlimbs
  · obtain ⟨h1, h2⟩ := widen_val' hw htl hle
    have h1' : e.widen t.prec = .ok (wrap t.nlimbs e.val) := h1
    rw [h1']
    simp only [Res.ok_bind]
    have hinv : (wrap (w := w) t.nlimbs e.val).invMod t = (natInvMod e.val t.val).map (wrap t.nlimbs) := by
      unfold Uint.invMod; rw [h2]
    rw [hinv]
    have hwrap : ∀ r, r < t.val → (wrap (w := w) t.nlimbs r).val = r := fun r hr =>
      Uint.wrap_val_of_lt (hr.trans t.isLt)
    cases hr : natInvMod e.val t.val with
    | none =>
      have hc : ¬ Nat.Coprime e.val t.val := (BoxedUint.natInvMod_none ht).mp hr
      refine ⟨fun d => ?_, ?_⟩
      · constructor
        · intro h; cases h
        · rintro ⟨-, -, -, hd⟩
          exact absurd (Nat.coprime_of_mul_modEq_one _ hd) hc
      · constructor
        · rintro ⟨d, h⟩; cases h
        · rintro ⟨-, h⟩; exact absurd h hc
    | some r =>
      obtain ⟨hm, hlt, hc, heq⟩ := BoxedUint.natInvMod_some hr
      refine ⟨fun d => ?_, ?_⟩
      · constructor
        · intro h
          obtain rfl := Res.ok.inj h
          rw [hwrap r hlt]
          exact ⟨hle, rfl, hlt, heq⟩
        · rintro ⟨-, hl, hdlt, hd⟩
          have : r = d.val := by
            have h3 : e.val * r ≡ e.val * d.val [MOD t.val] := heq.trans hd.symm
            have h4 := Nat.ModEq.cancel_left_of_coprime (by rw [Nat.gcd_comm]; exact hc) h3
            exact Nat.ModEq.eq_of_lt_of_lt h4 hlt hdlt
          show Res.ok (wrap t.nlimbs r) = Res.ok d
          congr 1
          exact Uint.ext_val hl.symm ((hwrap r hlt).trans this)
      · constructor
        · intro _; exact ⟨hle, hc⟩
        · intro _; exact ⟨_, rfl⟩
  · have hprec : ¬ e.prec ≤ t.prec := by
      unfold Uint.prec
      intro h
      exact hle (Nat.le_of_mul_le_mul_left h (by omega))
    rw [widen_fails hprec]
    refine ⟨fun d => ⟨fun h => (by cases h), fun h => absurd h.1 hle⟩, ⟨?_, fun h => absurd h.1 hle⟩⟩
    rintro ⟨d, h⟩; cases h

/-- The exponent computed with Carmichael's function. -/
theorem carmichael_spec (hw : 0 < w) {p q e : Uint w} (hp : 1 < p.val) (hq : 1 < q.val) :
    (∀ d, carmichaelExponent p q e = .ok d ↔ e.nlimbs ≤ p.nlimbs + q.nlimbs ∧ d.nlimbs = p.nlimbs + q.nlimbs ∧
      d.val < Nat.lcm (p.val - 1) (q.val - 1) ∧ e.val * d.val ≡ 1 [MOD Nat.lcm (p.val - 1) (q.val - 1)]) ∧
    ((∃ d, carmichaelExponent p q e = .ok d) ↔ e.nlimbs ≤ p.nlimbs + q.nlimbs ∧
      Nat.Coprime e.val (Nat.lcm (p.val - 1) (q.val - 1))) := by
  obtain ⟨p1, h1, h1v, h1l⟩ := sub_one (p := p) (by omega)
  obtain ⟨q1, h2, h2v, h2l⟩ := sub_one (p := q) (by omega)
  have hgpos : 0 < Nat.gcd (p.val - 1) (q.val - 1) := Nat.gcd_pos_of_pos_left _ (by omega)
  have hg : (p1.gcd q1).val = Nat.gcd (p.val - 1) (q.val - 1) := by
    unfold Uint.gcd
    rw [← h1v, ← h2v]
    apply Uint.wrap_val_of_lt
    refine lt_of_le_of_lt (Nat.gcd_le_left _ (by omega)) (lt_of_lt_of_le p1.isLt ?_)
    exact Nat.pow_le_pow_right (by norm_num) (Nat.mul_le_mul_left _ (le_max_left _ _))
  have hdv : (p1.div (p1.gcd q1)).val = (p.val - 1) / Nat.gcd (p.val - 1) (q.val - 1) := by
    unfold Uint.div
    rw [hg, ← h1v]
    exact Uint.wrap_val_of_lt (lt_of_le_of_lt (Nat.div_le_self _ _) p1.isLt)
  have hlcm : ((p1.div (p1.gcd q1)).mul q1).val = Nat.lcm (p.val - 1) (q.val - 1) := by
    rw [(mul_vals _ _).1, hdv, h2v, Nat.lcm, Nat.div_mul_right_comm (Nat.gcd_dvd_left _ _)]
  have hlcml : ((p1.div (p1.gcd q1)).mul q1).nlimbs = p.nlimbs + q.nlimbs := by
    show p1.nlimbs + q1.nlimbs = _; omega
  have hL : 0 < Nat.lcm (p.val - 1) (q.val - 1) := Nat.lcm_pos (by omega) (by omega)
  have hz : expectNonZero (p1.gcd q1) = .ok (p1.gcd q1) := by
    unfold expectNonZero; rw [if_neg (by omega)]
  have hstart : carmichaelExponent p q e =
      (e.widen ((p1.div (p1.gcd q1)).mul q1).prec >>= fun x => match x.invMod ((p1.div (p1.gcd q1)).mul q1) with
        | some d => .ok d
        | none => .err .invalidPrime) := by
    unfold carmichaelExponent
    rw [h1, Res.ok_bind, h2, Res.ok_bind]
    simp only
    rw [hz, Res.ok_bind]
    rfl
  have := invert_eq hw (e := e) (t := (p1.div (p1.gcd q1)).mul q1) (by rw [hlcm]; exact hL)
  rw [hlcm, hlcml] at this
  rw [hstart]
  exact this

theorem totientLoop_eq : ∀ (ps : List (Uint w)) (t : Uint w), (∀ p ∈ ps, 0 < p.val) →
    ∃ t', totientLoop ps t = .ok t' ∧ t'.val = t.val * (ps.map (fun p => p.val - 1)).prod ∧
      t'.nlimbs = t.nlimbs + (ps.map Uint.nlimbs).sum := by
  intro ps
  induction ps with
  | nil => intro t _; exact ⟨t, rfl, by simp, by simp⟩
  | cons p ps ih =>
    intro t hall
    obtain ⟨p1, h1, h1v, h1l⟩ := sub_one (hall p (List.mem_cons_self ..))
    obtain ⟨t', h2, h2v, h2l⟩ := ih (t.mul p1) (fun q hq => hall q (List.mem_cons_of_mem _ hq))
    refine ⟨t', ?_, ?_, ?_⟩
    · unfold totientLoop; rw [h1, Res.ok_bind, h2]
    · rw [h2v, (mul_vals _ _).1, h1v, List.map_cons, List.prod_cons, mul_assoc]
    · rw [h2l, (mul_vals _ _).2, List.map_cons, List.sum_cons, h1l]; omega

/-- The computation with Euler's totient, up to the inversion. -/
theorem euler_start (hw : 0 < w) {p : Uint w} {ps : List (Uint w)} {e : Uint w} (h2 : 1 ≤ ps.length)
    (hp : ∀ x ∈ p :: ps, 1 < x.val) : ∃ t, eulerExponent (p :: ps) e =
      (e.widen t.prec >>= fun x => match x.invMod t with
        | some res => (.ok res : Res (Uint w))
        | none => .err .invalidPrime) ∧
      t.val = ((p :: ps).map (fun p => p.val - 1)).prod ∧ t.nlimbs = p.nlimbs + ((p :: ps).map Uint.nlimbs).sum ∧
      0 < t.val := by
  have hpl := Uint.nlimbs_pos p (by have := hp p (List.mem_cons_self ..); omega)
  obtain ⟨ol, ov⟩ := oneWithPrecision_eq hw (n := p) hpl
  obtain ⟨t, h3, h3v, h3l⟩ := totientLoop_eq (p :: ps) (oneWithPrecision p.prec) (fun x hx => by have := hp x hx; omega)
  rw [ov, one_mul] at h3v
  rw [ol] at h3l
  refine ⟨t, ?_, h3v, h3l, ?_⟩
  · unfold eulerExponent
    rw [if_neg (by rw [List.length_cons]; omega)]
    simp only [primeAt, List.getElem?_cons_zero, Res.ok_bind]
    rw [h3, Res.ok_bind]
    rfl
  · rw [h3v]
    apply RSA.prod_pos
    intro x hx
    obtain ⟨y, hy, rfl⟩ := List.mem_map.mp hx
    have := hp y hy
    omega

/-- The exponent computed with Euler's totient. -/
theorem euler_spec (hw : 0 < w) {p : Uint w} {ps : List (Uint w)} {e : Uint w} (h2 : 1 ≤ ps.length)
    (hp : ∀ x ∈ p :: ps, 1 < x.val) :
    (∀ d, eulerExponent (p :: ps) e = .ok d ↔ e.nlimbs ≤ p.nlimbs + ((p :: ps).map Uint.nlimbs).sum ∧
      d.nlimbs = p.nlimbs + ((p :: ps).map Uint.nlimbs).sum ∧ d.val < ((p :: ps).map (fun p => p.val - 1)).prod ∧
      e.val * d.val ≡ 1 [MOD ((p :: ps).map (fun p => p.val - 1)).prod]) ∧
    ((∃ d, eulerExponent (p :: ps) e = .ok d) ↔ e.nlimbs ≤ p.nlimbs + ((p :: ps).map Uint.nlimbs).sum ∧
      Nat.Coprime e.val ((p :: ps).map (fun p => p.val - 1)).prod) := by
  obtain ⟨t, hstart, h3v, h3l, hpos⟩ := euler_start hw (e := e) h2 hp
  have := invert_eq hw (e := e) hpos
  rw [h3v, h3l] at this
  rw [hstart]
  exact this

/-- If the public exponent fits, the computation ends with a number or an error. -/
theorem euler_fits (hw : 0 < w) {p : Uint w} {ps : List (Uint w)} {e : Uint w} (h2 : 1 ≤ ps.length)
    (hp : ∀ x ∈ p :: ps, 1 < x.val) (he : e.nlimbs ≤ p.nlimbs + ((p :: ps).map Uint.nlimbs).sum) :
    (∃ d, eulerExponent (p :: ps) e = .ok d) ∨ eulerExponent (p :: ps) e = .err .invalidPrime := by
  obtain ⟨t, hstart, h3v, h3l, hpos⟩ := euler_start hw (e := e) h2 hp
  have h1 : e.widen t.prec = .ok (wrap t.nlimbs e.val) := (widen_val' hw (Uint.nlimbs_pos t hpos) (by rw [h3l]; exact he)).1
  rw [hstart, h1, Res.ok_bind]
  cases (wrap t.nlimbs e.val).invMod t with
  | some d => exact Or.inl ⟨d, rfl⟩
  | none => exact Or.inr rfl

/-- The duplicate test finds exactly the repeated values. -/
theorem hasDuplicate_iff : ∀ (ps seen : List (Uint w)), hasDuplicate seen ps = false ↔
    (ps.map Uint.val).Nodup ∧ ∀ p ∈ ps, ∀ x ∈ seen, p.val ≠ x.val := by
  intro ps
  induction ps with
  | nil => intro seen; simp [hasDuplicate]
  | cons p ps ih =>
    intro seen
    unfold hasDuplicate
    rw [Bool.or_eq_false_iff, ih]
    have hany : (seen.any fun x => p.beq x) = false ↔ ∀ x ∈ seen, p.val ≠ x.val := by
      rw [List.any_eq_false]
      constructor
      · intro h x hx he
        exact h x hx (by show (p.val == x.val) = true; rw [he]; simp)
      · intro h x hx he
        exact h x hx (by simpa [Uint.beq] using he)
    rw [hany, List.map_cons, List.nodup_cons]
    constructor
    · rintro ⟨h1, h2, h3⟩
      refine ⟨⟨?_, h2⟩, ?_⟩
      · intro hmem
        obtain ⟨q, hq, he⟩ := List.mem_map.mp hmem
        exact h3 q hq p (by simp) he
      · intro q hq x hx
        rcases List.mem_cons.mp hq with rfl | hq
        · exact h1 x hx
        · exact h3 q hq x (by simp [hx])
    · rintro ⟨⟨h1, h2⟩, h3⟩
      refine ⟨fun x hx => h3 p (List.mem_cons_self ..) x hx, h2, ?_⟩
      intro q hq x hx
      rcases List.mem_append.mp hx with hx | hx
      · exact h3 q (List.mem_cons_of_mem _ hq) x hx
      · obtain rfl : x = p := by simpa using hx
        intro he
        exact h1 (List.mem_map.mpr ⟨q, hq, he⟩)

theorem le_sum_nlimbs {ps : List (Uint w)} {p : Uint w} (h : p ∈ ps) : p.nlimbs ≤ (ps.map Uint.nlimbs).sum := by
  induction ps with
  | nil => cases h
  | cons q ps ih =>
    rw [List.map_cons, List.sum_cons]
    rcases List.mem_cons.mp h with rfl | h
    · omega
    · have := ih h; omega

end RSA.words
