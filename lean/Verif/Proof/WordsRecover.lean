import Verif.Model.WordsRecover
import Verif.Proof.WordsPrimes
import Verif.Proof.Recover

/-! The arithmetic and `recover_primes` for words of any size. -/
namespace RSA
namespace words
open Uint

variable {w : Nat}

theorem limbsFor_64 (hw : 0 < w) : limbsFor w 64 ≤ 8 := by
  unfold limbsFor
  have := (divCeil_le_iff (w := 8 * w) (by omega) 64 8).mpr (by omega)
  omega

theorem limbsFor_32 (hw : 0 < w) : limbsFor w 32 ≤ 4 := by
  unfold limbsFor
  have := (divCeil_le_iff (w := 8 * w) (by omega) 32 4).mpr (by omega)
  omega

theorem le_limbsFor (hw : 0 < w) (b : Nat) : b ≤ 8 * w * limbsFor w b := by
  have h := le_divCeil (w := 8 * w) (by omega) b
  exact h.trans (Nat.mul_le_mul_left _ (le_max_right _ _))

theorem small_val (hw : 0 < w) {b v : Nat} (h : v < 2 ^ b) : (wrap (w := w) (limbsFor w b) v).val = v :=
  wrap_val_of_lt (lt_of_lt_of_le h (Nat.pow_le_pow_right (by norm_num) (le_limbsFor hw b)))

theorem lim_val (hw : 0 < w) : (Uint.ofU64 65536 : Uint w).val = 65536 := small_val hw (by decide)
theorem two_val (hw : 0 < w) : (Uint.ofU64 2 : Uint w).val = 2 := small_val hw (by decide)
theorem four_val (hw : 0 < w) : (Uint.ofU32 4 : Uint w).val = 4 := small_val hw (by decide)

theorem one_val (hw : 0 < w) : (Uint.one : Uint w).val = 1 :=
  wrap_val_of_lt (Nat.one_lt_two_pow (by omega))

theorem mul_val (x y : Uint w) : (x.mul y).val = x.val * y.val := (mul_vals x y).1

theorem square_val (x : Uint w) : x.square.val = x.val * x.val := mul_val x x

theorem div_val (x y : Uint w) : (x.div y).val = x.val / y.val :=
  wrap_val_of_lt (lt_of_le_of_lt (Nat.div_le_self _ _) x.isLt)

theorem lt_max_left (x : Uint w) (l : Nat) : x.val < 2 ^ (8 * w * max x.nlimbs l) :=
  lt_of_lt_of_le x.isLt (Nat.pow_le_pow_right (by norm_num) (Nat.mul_le_mul_left _ (le_max_left _ _)))

theorem lt_max_right (x : Uint w) (l : Nat) : x.val < 2 ^ (8 * w * max l x.nlimbs) :=
  lt_of_lt_of_le x.isLt (Nat.pow_le_pow_right (by norm_num) (Nat.mul_le_mul_left _ (le_max_right _ _)))

theorem gcd_val (x y : Uint w) : (x.gcd y).val = Nat.gcd x.val y.val := by
  apply wrap_val_of_lt
  rcases Nat.eq_zero_or_pos x.val with h | h
  · rw [h, Nat.gcd_zero_left]; exact lt_max_right _ _
  · exact lt_of_le_of_lt (Nat.gcd_le_left _ h) (lt_max_left _ _)

theorem sqrt_val (x : Uint w) : x.sqrt.val = Nat.sqrt x.val := by
  unfold Uint.sqrt
  rw [BoxedUint.isqrt_eq]
  exact wrap_val_of_lt (lt_of_le_of_lt (Nat.sqrt_le_self _) x.isLt)

theorem sub_exists {x y : Uint w} (h : y.val ≤ x.val) :
    ∃ z, x.sub y = .ok z ∧ z.val = x.val - y.val ∧ z.nlimbs = max x.nlimbs y.nlimbs := by
  refine ⟨_, by unfold Uint.sub; rw [if_pos h], ?_, rfl⟩
  exact wrap_val_of_lt (lt_of_le_of_lt (Nat.sub_le _ _) (lt_max_left _ _))

theorem sub_panic {x y : Uint w} (h : x.val < y.val) : x.sub y = .panic .arith := by
  unfold Uint.sub; rw [if_neg (by omega)]

theorem add_exists {x y : Uint w} (h : x.val + y.val < 2 ^ (8 * w * max x.nlimbs y.nlimbs)) :
    ∃ z, x.add y = .ok z ∧ z.val = x.val + y.val ∧ z.nlimbs = max x.nlimbs y.nlimbs :=
  ⟨_, by unfold Uint.add; rw [if_pos h], wrap_val_of_lt h, rfl⟩

theorem widen_exists (hw : 0 < w) {x : Uint w} {b : Nat} (h : x.prec ≤ b) :
    ∃ z, x.widen b = .ok z ∧ z.val = x.val ∧ z.nlimbs = limbsFor w b := by
  refine ⟨_, Uint.widen_of_le h, ?_, rfl⟩
  exact small_val hw (lt_of_lt_of_le x.isLt (Nat.pow_le_pow_right (by norm_num) h))

theorem widen_panic {x : Uint w} {b : Nat} (h : b < x.prec) : x.widen b = .panic .precision := widen_fails (by omega)

theorem expectNonZero_of_ne {x : Uint w} (h : x.val ≠ 0) : expectNonZero x = .ok x := if_neg h

theorem mul_room {x y K : Nat} (hx : x < K) (hy : y < K) (h2 : 2 ≤ K) : x * y + 1 < K * K := by
  have h : x * y ≤ (K - 1) * (K - 1) := Nat.mul_le_mul (by omega) (by omega)
  obtain ⟨j, rfl⟩ : ∃ j, K = j + 2 := ⟨K - 2, by omega⟩
  have hj : j + 2 - 1 = j + 1 := by omega
  rw [hj] at h
  nlinarith

/-- `recover_primes` on arguments of acceptable widths. -/
theorem recoverPrimes_eq (hw : 0 < w) (n e d : Uint w) (he : 65536 < e.val) (hep : e.prec ≤ 2 * d.prec) (hnp : n.prec ≤ 2 * d.prec)
    (hd : 0 < d.val) (hn : 0 < n.val) :
    (recoverNat n.val ((d.val * e.val - 1) * Nat.gcd (n.val - 1) (d.val * e.val - 1)) = none ∧
      recoverPrimes n e d = .err .invalidArguments) ∨
    ∃ p q : Uint w, recoverNat n.val ((d.val * e.val - 1) * Nat.gcd (n.val - 1) (d.val * e.val - 1)) = some (p.val, q.val) ∧
      p.nlimbs = 32 * d.nlimbs ∧ q.nlimbs = 32 * d.nlimbs ∧ recoverPrimes n e d = .ok (p, q) := by
  have hdl := nlimbs_pos d hd
  have hlf : limbsFor w (d.prec * 2) = 2 * d.nlimbs := by
    rw [show d.prec * 2 = 8 * w * (2 * d.nlimbs) by unfold prec; ring]
    exact limbsFor_mul hw (by omega)
  have hone : (Uint.one : Uint w).prec ≤ d.prec * 2 := by
    rw [show d.prec * 2 = 8 * w * (2 * d.nlimbs) by unfold prec; ring]
    exact Nat.mul_le_mul_left _ (by show 1 ≤ _; omega)
  have h64 : (Uint.ofU64 2 : Uint w).prec ≤ 8 * w * (16 * d.nlimbs) := Nat.mul_le_mul_left _ (by
    show limbsFor w 64 ≤ _; have := limbsFor_64 hw; omega)
  have h32 := limbsFor_32 hw
  obtain ⟨one', h1, h1v, h1l⟩ := widen_exists hw hone
  obtain ⟨e', h2, h2v, h2l⟩ := widen_exists hw (x := e) (b := d.prec * 2) (by omega)
  obtain ⟨d', h3, h3v, h3l⟩ := widen_exists hw (x := d) (b := d.prec * 2) (by omega)
  obtain ⟨n', h4, h4v, h4l⟩ := widen_exists hw (x := n) (b := d.prec * 2) (by omega)
  rw [hlf] at h1l h2l h3l h4l
  rw [one_val hw] at h1v
  have hde : 0 < d.val * e.val := Nat.mul_pos hd (by omega)
  obtain ⟨a1, h5, h5v, h5l⟩ := sub_exists (x := d'.mul e') (y := one') (by rw [mul_val, h3v, h2v, h1v]; exact hde)
  rw [mul_val, h3v, h2v, h1v] at h5v
  have h5l' : a1.nlimbs = 4 * d.nlimbs := by
    rw [h5l, h1l]; show max (d'.nlimbs + e'.nlimbs) _ = _; omega
  obtain ⟨n1, h6, h6v, h6l⟩ := sub_exists (x := n') (y := one') (by omega)
  rw [h4v, h1v] at h6v
  have h7l : (n1.gcd a1).nlimbs = 4 * d.nlimbs := by show max n1.nlimbs a1.nlimbs = _; omega
  have h8l : (a1.mul (n1.gcd a1)).nlimbs = 8 * d.nlimbs := by
    show a1.nlimbs + (n1.gcd a1).nlimbs = _; omega
  have h8v : (a1.mul (n1.gcd a1)).val = (d.val * e.val - 1) * Nat.gcd (n.val - 1) (d.val * e.val - 1) := by
    rw [mul_val, gcd_val, h5v, h6v]
  have ha_lt : (a1.mul (n1.gcd a1)).val + 1 < 2 ^ (8 * w * (8 * d.nlimbs)) := by
    rw [mul_val]
    have ha := a1.isLt
    have hb := (n1.gcd a1).isLt
    rw [h5l'] at ha; rw [h7l] at hb
    have hsplit : (2 : Nat) ^ (8 * w * (8 * d.nlimbs)) = 2 ^ (8 * w * (4 * d.nlimbs)) * 2 ^ (8 * w * (4 * d.nlimbs)) := by
      rw [← pow_add]; exact congrArg _ (by ring)
    have h2 : 2 ≤ 2 ^ (8 * w * (4 * d.nlimbs)) := by
      calc 2 = 2 ^ 1 := rfl
        _ ≤ _ := Nat.pow_le_pow_right (by norm_num) (Nat.mul_pos (by omega) (by omega))
    rw [hsplit]
    exact mul_room ha hb h2
  generalize hA : a1.mul (n1.gcd a1) = A at *
  generalize hAv : (d.val * e.val - 1) * Nat.gcd (n.val - 1) (d.val * e.val - 1) = av at *
  have hAprec : A.prec = 8 * w * (8 * d.nlimbs) := by unfold prec; rw [h8l]
  obtain ⟨n2, h9, h9v, h9l⟩ := widen_exists hw (x := n') (b := A.prec) (by rw [hAprec]; exact Nat.mul_le_mul_left _ (by omega))
  rw [hAprec, limbsFor_mul hw (by omega)] at h9l
  rw [h4v] at h9v
  have hnlt : n.val < 2 ^ (8 * w * (2 * d.nlimbs)) := by have := n'.isLt; rw [h4v, h4l] at this; exact this
  have h10 : expectNonZero n2 = .ok n2 := expectNonZero_of_ne (by omega)
  have hmv : (A.div n2).val = av / n.val := by rw [div_val, h8v, h9v]
  have hml : (A.div n2).nlimbs = 8 * d.nlimbs := h8l
  obtain ⟨r, h11, h11v, h11l⟩ := sub_exists (x := A) (y := (A.div n2).mul n2) (by
    rw [mul_val, hmv, h8v, h9v]; exact Nat.div_mul_le_self _ _)
  have h11v' : r.val = av % n.val := by
    rw [h11v, mul_val, hmv, h8v, h9v]
    have := Nat.div_add_mod av n.val
    rw [mul_comm] at this
    omega
  have h11l' : r.nlimbs = 16 * d.nlimbs := by
    rw [h11l]; show max A.nlimbs ((A.div n2).nlimbs + n2.nlimbs) = _; omega
  obtain ⟨den, h12, h12v, h12l⟩ := add_exists (x := A.div n2) (y := one') (by
    rw [hmv, h1v, hml, h1l]
    have : av / n.val ≤ av := Nat.div_le_self _ _
    have h : max (8 * d.nlimbs) (2 * d.nlimbs) = 8 * d.nlimbs := by omega
    rw [h]; omega)
  rw [hmv, h1v] at h12v
  have h13 : expectNonZero den = .ok den := expectNonZero_of_ne (by omega)
  have hrn : av % n.val < n.val := Nat.mod_lt _ hn
  obtain ⟨num, h14, h14v, h14l⟩ := sub_exists (x := n2) (y := r) (by omega)
  rw [h9v, h11v'] at h14v
  have h14l' : num.nlimbs = 16 * d.nlimbs := by rw [h14l]; omega
  have hrem : (num.rem den).isZero = decide ((n.val - av % n.val) % (av / n.val + 1) = 0) := by
    unfold isZero
    rw [rem_val _ _ (by omega), h14v, h12v]
    rw [Bool.eq_iff_iff]; simp
  -- Bounds on b and y
  have hquo : (n.val - av % n.val) / (av / n.val + 1) ≤ n.val := le_trans (Nat.div_le_self _ _) (Nat.sub_le _ _)
  have hbig : 4 * 2 ^ (8 * w * (2 * d.nlimbs)) ≤ 2 ^ (8 * w * (16 * d.nlimbs)) := by
    have : (4 : Nat) * 2 ^ (8 * w * (2 * d.nlimbs)) = 2 ^ (2 + 8 * w * (2 * d.nlimbs)) := by rw [pow_add]; norm_num
    rw [this]
    have hwd : 1 ≤ w * d.nlimbs := Nat.mul_pos hw hdl
    refine Nat.pow_le_pow_right (by norm_num) ?_
    rw [show 8 * w * (2 * d.nlimbs) = 16 * (w * d.nlimbs) by ring, show 8 * w * (16 * d.nlimbs) = 128 * (w * d.nlimbs) by ring]
    omega
  have hbig2 : (2 : Nat) ^ (8 * w * (16 * d.nlimbs)) ≤ 2 ^ (8 * w * (32 * d.nlimbs)) :=
    Nat.pow_le_pow_right (by norm_num) (Nat.mul_le_mul_left _ (by omega))
  obtain ⟨b, h15, h15v, h15l⟩ := add_exists (x := num.div den) (y := one') (by
    rw [div_val, h14v, h12v, h1v]
    have h : max (num.div den).nlimbs one'.nlimbs = 16 * d.nlimbs := by
      show max num.nlimbs one'.nlimbs = _; omega
    rw [h]; omega)
  rw [div_val, h14v, h12v, h1v] at h15v
  have h15l' : b.nlimbs = 16 * d.nlimbs := by
    rw [h15l]; show max num.nlimbs one'.nlimbs = _; omega
  have hfour : (n2.mul (Uint.ofU32 4 : Uint w)).val = 4 * n.val := by
    rw [mul_val, h9v, four_val hw]; omega
  have hfourl : (n2.mul (Uint.ofU32 4 : Uint w)).nlimbs = 8 * d.nlimbs + limbsFor w 32 := by show n2.nlimbs + limbsFor w 32 = _; omega
  have hbsl : b.square.nlimbs = 32 * d.nlimbs := by show b.nlimbs + b.nlimbs = _; omega
  have hstart : recoverPrimes n e d =
      (if !(num.rem den).isZero then (.err .invalidArguments : Res (Uint w × Uint w)) else do
        let b ← (num.div den).add one'
        if b.square.le (n2.mul (Uint.ofU32 4 : Uint w)) then .err .invalidArguments
        else do
          let diff ← b.square.sub (n2.mul (Uint.ofU32 4 : Uint w))
          let y := diff.sqrt
          let ySquared := y.square
          if !(ySquared.beq diff) then .err .invalidArguments
          else do
            let bits := max b.prec y.prec
            let two ← (← expectNonZero (Uint.ofU64 2 : Uint w)).widen bits
            let p := (← b.add y).div two
            let q := (← b.sub y).div two
            .ok (p, q)) := by
    unfold recoverPrimes
    have hle : e.le (Uint.ofU64 65536 : Uint w) = false := by
      show (!(decide ((Uint.ofU64 65536 : Uint w).val < e.val))) = false
      have := lim_val hw
      rw [this, decide_eq_true he]; rfl
    rw [hle]
    simp only [Bool.false_eq_true, if_false]
    rw [h1, Res.ok_bind, h2, Res.ok_bind, h3, Res.ok_bind, h4, Res.ok_bind, h5, Res.ok_bind, h6, Res.ok_bind]
    simp only [hA]
    rw [h9, Res.ok_bind, h10, Res.ok_bind, h11, Res.ok_bind, h12, Res.ok_bind, h13, Res.ok_bind, h14, Res.ok_bind]
  rw [hstart, hrem]
  unfold recoverNat
  by_cases hz : (n.val - av % n.val) % (av / n.val + 1) = 0
  · rw [decide_eq_true hz, if_neg (not_not.mpr hz)]
    simp only [Bool.not_true, Bool.false_eq_true, if_false]
    rw [h15, Res.ok_bind, ← h15v]
    have hle : b.square.le (n2.mul (Uint.ofU32 4 : Uint w)) = decide (b.val * b.val ≤ 4 * n.val) := by
      show (!(decide ((n2.mul (Uint.ofU32 4 : Uint w)).val < b.square.val))) = _
      rw [square_val, hfour]
      rw [Bool.eq_iff_iff]; simp
    rw [hle]
    by_cases hlt : b.val * b.val ≤ 4 * n.val
    · left
      simp [hlt]
    · rw [decide_eq_false hlt, if_neg hlt]
      simp only [Bool.false_eq_true, if_false]
      obtain ⟨diff, h16, h16v, h16l⟩ := sub_exists (x := b.square) (y := n2.mul (Uint.ofU32 4 : Uint w)) (by rw [square_val, hfour]; omega)
      rw [square_val, hfour] at h16v
      have h16l' : diff.nlimbs = 32 * d.nlimbs := by rw [h16l, hbsl, hfourl]; omega
      rw [h16, Res.ok_bind, ← h16v]
      have hbeq : (diff.sqrt.square.beq diff) = decide (Nat.sqrt diff.val * Nat.sqrt diff.val = diff.val) := by
        show (diff.sqrt.square.val == diff.val) = _
        rw [square_val, sqrt_val]
        rw [Bool.eq_iff_iff]; simp
      rw [hbeq]
      by_cases hsq : Nat.sqrt diff.val * Nat.sqrt diff.val = diff.val
      · rw [decide_eq_true hsq, if_neg (not_not.mpr hsq)]
        simp only [Bool.not_true, Bool.false_eq_true, if_false]
        have hyl : diff.sqrt.nlimbs = 32 * d.nlimbs := h16l'
        have hyb : diff.sqrt.val ≤ b.val := by
          rw [sqrt_val]
          apply Nat.mul_self_le_mul_self_iff.mp
          rw [hsq, h16v]; omega
        have h2nz : expectNonZero (Uint.ofU64 2 : Uint w) = .ok (Uint.ofU64 2 : Uint w) := expectNonZero_of_ne (by rw [two_val hw]; decide)
        obtain ⟨two, h17, h17v, h17l⟩ := widen_exists hw (x := ofU64 2) (b := max b.prec diff.sqrt.prec) (by
          have : b.prec = 8 * w * (16 * d.nlimbs) := by unfold prec; rw [h15l']
          omega)
        obtain ⟨s, h18, h18v, h18l⟩ := add_exists (x := b) (y := diff.sqrt) (by
          have h : max b.nlimbs diff.sqrt.nlimbs = 32 * d.nlimbs := by omega
          rw [h]; omega)
        obtain ⟨t, h19, h19v, h19l⟩ := sub_exists hyb
        rw [h2nz, Res.ok_bind, h17, Res.ok_bind, h18, Res.ok_bind, h19, Res.ok_bind]
        refine Or.inr ⟨s.div two, t.div two, ?_, ?_, ?_, rfl⟩
        · have h2v : two.val = 2 := by rw [h17v, two_val hw]
          rw [div_val, div_val, h2v, h18v, h19v, sqrt_val]
        · show s.nlimbs = _; omega
        · show t.nlimbs = _; omega
      · left
        rw [decide_eq_false hsq, if_pos hsq]
        exact ⟨rfl, rfl⟩
  · left
    rw [decide_eq_false hz, if_pos hz]
    exact ⟨rfl, rfl⟩

/-- Outside those widths `recover_primes` refuses small exponents and panics otherwise. -/
theorem recoverPrimes_small (hw : 0 < w) (n e d : Uint w) (he : e.val ≤ 65536) : recoverPrimes n e d = .err .invalidArguments := by
  unfold recoverPrimes
  have hle : e.le (Uint.ofU64 65536 : Uint w) = true := by
    show (!(decide ((Uint.ofU64 65536 : Uint w).val < e.val))) = true
    have := lim_val hw
    rw [this, decide_eq_false (by omega)]; rfl
  rw [hle]; rfl

theorem recoverPrimes_panics (hw : 0 < w) (n e d : Uint w) (he : 65536 < e.val)
    (h : ¬ (e.prec ≤ 2 * d.prec ∧ n.prec ≤ 2 * d.prec ∧ 0 < d.val ∧ 0 < n.val)) : ∃ x, recoverPrimes n e d = .panic x := by
  unfold recoverPrimes
  have hle : e.le (Uint.ofU64 65536 : Uint w) = false := by
    show (!(decide ((Uint.ofU64 65536 : Uint w).val < e.val))) = false
    have := lim_val hw
    rw [this, decide_eq_true he]; rfl
  rw [hle]
  simp only [Bool.false_eq_true, if_false]
  by_cases h1 : (Uint.one : Uint w).prec ≤ d.prec * 2
  · obtain ⟨one', w1, w1v, _⟩ := widen_exists hw h1
    rw [one_val hw] at w1v
    rw [w1, Res.ok_bind]
    by_cases h2 : e.prec ≤ d.prec * 2
    · obtain ⟨e', w2, w2v, _⟩ := widen_exists hw h2
      rw [w2, Res.ok_bind]
      obtain ⟨d', w3, w3v, _⟩ := widen_exists hw (x := d) (b := d.prec * 2) (by omega)
      rw [w3, Res.ok_bind]
      by_cases h4 : n.prec ≤ d.prec * 2
      · obtain ⟨n', w4, w4v, _⟩ := widen_exists hw h4
        rw [w4, Res.ok_bind]
        by_cases h5 : 0 < d.val
        · have hn : n.val = 0 := by
            by_contra hc
            exact h ⟨by omega, by omega, h5, by omega⟩
          obtain ⟨a1, w5, _⟩ := sub_exists (x := d'.mul e') (y := one') (by
            rw [mul_val, w3v, w2v, w1v]; exact Nat.mul_pos h5 (by omega))
          rw [w5, Res.ok_bind, sub_panic (x := n') (y := one') (by omega)]
          exact ⟨_, rfl⟩
        · rw [sub_panic (x := d'.mul e') (y := one') (by
            have : d.val = 0 := by omega
            rw [mul_val, w3v, this, zero_mul]; omega)]
          exact ⟨_, rfl⟩
      · rw [widen_panic (x := n) (by omega)]; exact ⟨_, rfl⟩
    · rw [widen_panic (x := e) (by omega)]; exact ⟨_, rfl⟩
  · rw [widen_panic (by omega)]; exact ⟨_, rfl⟩

end words
end RSA
