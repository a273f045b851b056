import Verif.Proof.Key
import Mathlib.Tactic.LinearCombination
import Mathlib.Data.Nat.Sqrt

namespace RSA
open BoxedUint

/-! Exact results of the arithmetic of `BoxedUint` -/

theorem mul_val (x y : BoxedUint) : (x.mul y).val = x.val * y.val := by
  apply wrap_val_of_lt
  rw [mul_add, pow_add]
  exact Nat.mul_lt_mul'' x.isLt y.isLt

theorem square_val (x : BoxedUint) : x.square.val = x.val * x.val := mul_val x x

theorem div_val (x y : BoxedUint) : (x.div y).val = x.val / y.val :=
  wrap_val_of_lt (lt_of_le_of_lt (Nat.div_le_self _ _) x.isLt)

theorem lt_max_left (x : BoxedUint) (l : Nat) : x.val < 2 ^ (64 * max x.nlimbs l) :=
  lt_of_lt_of_le x.isLt (Nat.pow_le_pow_right (by norm_num) (by omega))

theorem lt_max_right (x : BoxedUint) (l : Nat) : x.val < 2 ^ (64 * max l x.nlimbs) :=
  lt_of_lt_of_le x.isLt (Nat.pow_le_pow_right (by norm_num) (by omega))

theorem gcd_val (x y : BoxedUint) : (x.gcd y).val = Nat.gcd x.val y.val := by
  apply wrap_val_of_lt
  rcases Nat.eq_zero_or_pos x.val with h | h
  · rw [h, Nat.gcd_zero_left]; exact lt_max_right _ _
  · exact lt_of_le_of_lt (Nat.gcd_le_left _ h) (lt_max_left _ _)

theorem sqrt_val (x : BoxedUint) : x.sqrt.val = Nat.sqrt x.val := by
  unfold sqrt
  rw [isqrt_eq]
  exact wrap_val_of_lt (lt_of_le_of_lt (Nat.sqrt_le_self _) x.isLt)

theorem sub_exists {x y : BoxedUint} (h : y.val ≤ x.val) :
    ∃ z, x.sub y = .ok z ∧ z.val = x.val - y.val ∧ z.nlimbs = max x.nlimbs y.nlimbs := by
  refine ⟨_, by unfold sub; rw [if_pos h], ?_, rfl⟩
  exact wrap_val_of_lt (lt_of_le_of_lt (Nat.sub_le _ _) (lt_max_left _ _))

theorem sub_panic {x y : BoxedUint} (h : x.val < y.val) : x.sub y = .panic .arith := by
  unfold sub; rw [if_neg (by omega)]

theorem add_exists {x y : BoxedUint} (h : x.val + y.val < 2 ^ (64 * max x.nlimbs y.nlimbs)) :
    ∃ z, x.add y = .ok z ∧ z.val = x.val + y.val ∧ z.nlimbs = max x.nlimbs y.nlimbs :=
  ⟨_, by unfold add; rw [if_pos h], wrap_val_of_lt h, rfl⟩

theorem widen_exists {x : BoxedUint} {b : Nat} (h : x.prec ≤ b) :
    ∃ z, x.widen b = .ok z ∧ z.val = x.val ∧ z.nlimbs = limbsFor b :=
  ⟨_, widen_of_le h, widen_val h, rfl⟩

theorem widen_panic {x : BoxedUint} {b : Nat} (h : b < x.prec) : x.widen b = .panic .precision := by
  unfold widen; rw [if_neg (by omega)]

/-- What `recover_primes` computes from `n` and `a = (de - 1) * gcd(n - 1, de - 1)`, on numbers. -/
def recoverNat (n a : Nat) : Option (Nat × Nat) :=
  if (n - a % n) % (a / n + 1) ≠ 0 then none
  else
    let b := (n - a % n) / (a / n + 1) + 1
    if b * b ≤ 4 * n then none
    else
      let y := Nat.sqrt (b * b - 4 * n)
      if y * y ≠ b * b - 4 * n then none else some ((b + y) / 2, (b - y) / 2)

/-- `recover_primes` on arguments of acceptable widths. -/
theorem recoverPrimes_eq (n e d : BoxedUint) (he : 65536 < e.val) (hep : e.prec ≤ 2 * d.prec) (hnp : n.prec ≤ 2 * d.prec)
    (hd : 0 < d.val) (hn : 0 < n.val) :
    (recoverNat n.val ((d.val * e.val - 1) * Nat.gcd (n.val - 1) (d.val * e.val - 1)) = none ∧
      recoverPrimes n e d = .err .invalidArguments) ∨
    ∃ p q : BoxedUint, recoverNat n.val ((d.val * e.val - 1) * Nat.gcd (n.val - 1) (d.val * e.val - 1)) = some (p.val, q.val) ∧
      p.nlimbs = 32 * d.nlimbs ∧ q.nlimbs = 32 * d.nlimbs ∧ recoverPrimes n e d = .ok (p, q) := by
  have hdl := nlimbs_pos_of_val_pos d hd
  have hlf : limbsFor (d.prec * 2) = 2 * d.nlimbs := by unfold prec limbsFor; omega
  have hone : BoxedUint.one.prec ≤ d.prec * 2 := by
    show 64 * 1 ≤ _; unfold prec; omega
  obtain ⟨one', h1, h1v, h1l⟩ := widen_exists hone
  obtain ⟨e', h2, h2v, h2l⟩ := widen_exists (x := e) (b := d.prec * 2) (by omega)
  obtain ⟨d', h3, h3v, h3l⟩ := widen_exists (x := d) (b := d.prec * 2) (by omega)
  obtain ⟨n', h4, h4v, h4l⟩ := widen_exists (x := n) (b := d.prec * 2) (by omega)
  rw [hlf] at h1l h2l h3l h4l
  rw [one_val] at h1v
  have hde : 0 < d.val * e.val := Nat.mul_pos hd (by omega)
  obtain ⟨a1, h5, h5v, h5l⟩ := sub_exists (x := d'.mul e') (y := one') (by rw [mul_val, h3v, h2v, h1v]; exact hde)
  rw [mul_val, h3v, h2v, h1v] at h5v
  have h5l' : a1.nlimbs = 4 * d.nlimbs := by
    rw [h5l, h1l]; show max (d'.nlimbs + e'.nlimbs) _ = _; omega
  obtain ⟨n1, h6, h6v, h6l⟩ := sub_exists (x := n') (y := one') (by omega)
  rw [h4v, h1v] at h6v
  have h7l : (n1.gcd a1).nlimbs = 4 * d.nlimbs := by show max n1.nlimbs a1.nlimbs = _; omega
  have h8l : (a1.mul (n1.gcd a1)).nlimbs = 8 * d.nlimbs := by
    show a1.nlimbs + (n1.gcd a1).nlimbs = _; omega
  have h8v : (a1.mul (n1.gcd a1)).val = (d.val * e.val - 1) * Nat.gcd (n.val - 1) (d.val * e.val - 1) := by
    rw [mul_val, gcd_val, h5v, h6v]
  have ha_lt : (a1.mul (n1.gcd a1)).val + 1 < 2 ^ (64 * (8 * d.nlimbs)) := by
    rw [mul_val]
    have ha := a1.isLt
    have hb := (n1.gcd a1).isLt
    rw [h5l'] at ha; rw [h7l] at hb
    have hsplit : (2 : Nat) ^ (64 * (8 * d.nlimbs)) = 2 ^ (64 * (4 * d.nlimbs)) * 2 ^ (64 * (4 * d.nlimbs)) := by
      rw [← pow_add]; congr 1; omega
    have h2 : 2 ≤ 2 ^ (64 * (4 * d.nlimbs)) := by
      calc 2 = 2 ^ 1 := rfl
        _ ≤ _ := Nat.pow_le_pow_right (by norm_num) (by omega)
    rw [hsplit]
    have : a1.val * (n1.gcd a1).val ≤ (2 ^ (64 * (4 * d.nlimbs)) - 1) * (2 ^ (64 * (4 * d.nlimbs)) - 1) :=
      Nat.mul_le_mul (by omega) (by omega)
    generalize 2 ^ (64 * (4 * d.nlimbs)) = K at *
    have hK : (K - 1) * (K - 1) + 1 < K * K := by
      obtain ⟨j, rfl⟩ : ∃ j, K = j + 2 := ⟨K - 2, by omega⟩
      have : j + 2 - 1 = j + 1 := by omega
      rw [this]; nlinarith
    omega
  generalize hA : a1.mul (n1.gcd a1) = A at *
  generalize hAv : (d.val * e.val - 1) * Nat.gcd (n.val - 1) (d.val * e.val - 1) = av at *
  have hAprec : A.prec = 64 * (8 * d.nlimbs) := by unfold prec; rw [h8l]
  obtain ⟨n2, h9, h9v, h9l⟩ := widen_exists (x := n') (b := A.prec) (by rw [hAprec]; unfold prec; omega)
  rw [hAprec, limbsFor_mul (by omega)] at h9l
  rw [h4v] at h9v
  have hnlt : n.val < 2 ^ (64 * (2 * d.nlimbs)) := by have := n'.isLt; rw [h4v, h4l] at this; exact this
  have h10 : expectNonZero n2 = .ok n2 := expectNonZero_of_ne (by omega)
  have hmv : (A.div n2).val = av / n.val := by rw [div_val, h8v, h9v]
  have hml : (A.div n2).nlimbs = 8 * d.nlimbs := h8l
  obtain ⟨r, h11, h11v, h11l⟩ := sub_exists (x := A) (y := (A.div n2).mul n2) (by
    rw [mul_val, hmv, h8v, h9v]; exact Nat.div_mul_le_self _ _)
  have h11v' : r.val = av % n.val := by
    rw [h11v, mul_val, hmv, h8v, h9v]
    have := Nat.div_add_mod av n.val
    rw [mul_comm] at this
    omega
  have h11l' : r.nlimbs = 16 * d.nlimbs := by
    rw [h11l]; show max A.nlimbs ((A.div n2).nlimbs + n2.nlimbs) = _; omega
  obtain ⟨den, h12, h12v, h12l⟩ := add_exists (x := A.div n2) (y := one') (by
    rw [hmv, h1v, hml, h1l]
    have : av / n.val ≤ av := Nat.div_le_self _ _
    have h : max (8 * d.nlimbs) (2 * d.nlimbs) = 8 * d.nlimbs := by omega
    rw [h]; omega)
  rw [hmv, h1v] at h12v
  have h13 : expectNonZero den = .ok den := expectNonZero_of_ne (by omega)
  have hrn : av % n.val < n.val := Nat.mod_lt _ hn
  obtain ⟨num, h14, h14v, h14l⟩ := sub_exists (x := n2) (y := r) (by omega)
  rw [h9v, h11v'] at h14v
  have h14l' : num.nlimbs = 16 * d.nlimbs := by rw [h14l]; omega
  have hrem : (num.rem den).isZero = decide ((n.val - av % n.val) % (av / n.val + 1) = 0) := by
    unfold isZero
    rw [rem_val _ _ (by omega), h14v, h12v]
    rw [Bool.eq_iff_iff]; simp
  -- Bounds on b and y
  have hquo : (n.val - av % n.val) / (av / n.val + 1) ≤ n.val := le_trans (Nat.div_le_self _ _) (Nat.sub_le _ _)
  have hbig : 4 * 2 ^ (64 * (2 * d.nlimbs)) ≤ 2 ^ (64 * (16 * d.nlimbs)) := by
    have : (4 : Nat) * 2 ^ (64 * (2 * d.nlimbs)) = 2 ^ (2 + 64 * (2 * d.nlimbs)) := by rw [pow_add]; norm_num
    rw [this]
    exact Nat.pow_le_pow_right (by norm_num) (by omega)
  have hbig2 : (2 : Nat) ^ (64 * (16 * d.nlimbs)) ≤ 2 ^ (64 * (32 * d.nlimbs)) :=
    Nat.pow_le_pow_right (by norm_num) (by omega)
  obtain ⟨b, h15, h15v, h15l⟩ := add_exists (x := num.div den) (y := one') (by
    rw [div_val, h14v, h12v, h1v]
    have h : max (num.div den).nlimbs one'.nlimbs = 16 * d.nlimbs := by
      show max num.nlimbs one'.nlimbs = _; omega
    rw [h]; omega)
  rw [div_val, h14v, h12v, h1v] at h15v
  have h15l' : b.nlimbs = 16 * d.nlimbs := by
    rw [h15l]; show max num.nlimbs one'.nlimbs = _; omega
  have hfour : (n2.mul (ofU64 4)).val = 4 * n.val := by
    rw [mul_val, h9v]; show n.val * 4 = _; omega
  have hfourl : (n2.mul (ofU64 4)).nlimbs = 8 * d.nlimbs + 1 := by show n2.nlimbs + 1 = _; omega
  have hbsl : b.square.nlimbs = 32 * d.nlimbs := by show b.nlimbs + b.nlimbs = _; omega
  have hstart : recoverPrimes n e d =
      (if !(num.rem den).isZero then (.err .invalidArguments : Res (BoxedUint × BoxedUint)) else do
        let b ← (num.div den).add one'
        if b.square.le (n2.mul (ofU64 4)) then .err .invalidArguments
        else do
          let diff ← b.square.sub (n2.mul (ofU64 4))
          let y := diff.sqrt
          let ySquared := y.square
          if !(ySquared.beq diff) then .err .invalidArguments
          else do
            let bits := max b.prec y.prec
            let two ← (← expectNonZero (ofU64 2)).widen bits
            let p := (← b.add y).div two
            let q := (← b.sub y).div two
            .ok (p, q)) := by
    unfold recoverPrimes
    have hle : e.le (ofU64 65536) = false := by
      show (!(decide ((ofU64 65536).val < e.val))) = false
      have : (ofU64 65536).val = 65536 := rfl
      rw [this, decide_eq_true he]; rfl
    rw [hle]
    simp only [Bool.false_eq_true, if_false]
    rw [h1, Res.ok_bind, h2, Res.ok_bind, h3, Res.ok_bind, h4, Res.ok_bind, h5, Res.ok_bind, h6, Res.ok_bind]
    simp only [hA]
    rw [h9, Res.ok_bind, h10, Res.ok_bind, h11, Res.ok_bind, h12, Res.ok_bind, h13, Res.ok_bind, h14, Res.ok_bind]
  rw [hstart, hrem]
  unfold recoverNat
  by_cases hz : (n.val - av % n.val) % (av / n.val + 1) = 0
  · rw [decide_eq_true hz, if_neg (not_not.mpr hz)]
    simp only [Bool.not_true, Bool.false_eq_true, if_false]
    rw [h15, Res.ok_bind, ← h15v]
    have hle : b.square.le (n2.mul (ofU64 4)) = decide (b.val * b.val ≤ 4 * n.val) := by
      show (!(decide ((n2.mul (ofU64 4)).val < b.square.val))) = _
      rw [square_val, hfour]
      rw [Bool.eq_iff_iff]; simp
    rw [hle]
    by_cases hlt : b.val * b.val ≤ 4 * n.val
    · left
      simp [hlt]
    · rw [decide_eq_false hlt, if_neg hlt]
      simp only [Bool.false_eq_true, if_false]
      obtain ⟨diff, h16, h16v, h16l⟩ := sub_exists (x := b.square) (y := n2.mul (ofU64 4)) (by rw [square_val, hfour]; omega)
      rw [square_val, hfour] at h16v
      have h16l' : diff.nlimbs = 32 * d.nlimbs := by rw [h16l, hbsl, hfourl]; omega
      rw [h16, Res.ok_bind, ← h16v]
      have hbeq : (diff.sqrt.square.beq diff) = decide (Nat.sqrt diff.val * Nat.sqrt diff.val = diff.val) := by
        show (diff.sqrt.square.val == diff.val) = _
        rw [square_val, sqrt_val]
        rw [Bool.eq_iff_iff]; simp
      rw [hbeq]
      by_cases hsq : Nat.sqrt diff.val * Nat.sqrt diff.val = diff.val
      · rw [decide_eq_true hsq, if_neg (not_not.mpr hsq)]
        simp only [Bool.not_true, Bool.false_eq_true, if_false]
        have hyl : diff.sqrt.nlimbs = 32 * d.nlimbs := h16l'
        have hyb : diff.sqrt.val ≤ b.val := by
          rw [sqrt_val]
          apply Nat.mul_self_le_mul_self_iff.mp
          rw [hsq, h16v]; omega
        have h2nz : expectNonZero (ofU64 2) = .ok (ofU64 2) := expectNonZero_of_ne (by decide)
        obtain ⟨two, h17, h17v, h17l⟩ := widen_exists (x := ofU64 2) (b := max b.prec diff.sqrt.prec) (by
          show 64 * 1 ≤ _
          unfold prec; rw [h15l']; omega)
        obtain ⟨s, h18, h18v, h18l⟩ := add_exists (x := b) (y := diff.sqrt) (by
          have h : max b.nlimbs diff.sqrt.nlimbs = 32 * d.nlimbs := by omega
          rw [h]; omega)
        obtain ⟨t, h19, h19v, h19l⟩ := sub_exists hyb
        rw [h2nz, Res.ok_bind, h17, Res.ok_bind, h18, Res.ok_bind, h19, Res.ok_bind]
        refine Or.inr ⟨s.div two, t.div two, ?_, ?_, ?_, rfl⟩
        · have h2v : two.val = 2 := h17v
          rw [div_val, div_val, h2v, h18v, h19v, sqrt_val]
        · show s.nlimbs = _; omega
        · show t.nlimbs = _; omega
      · left
        rw [decide_eq_false hsq, if_pos hsq]
        exact ⟨rfl, rfl⟩
  · left
    rw [decide_eq_false hz, if_pos hz]
    exact ⟨rfl, rfl⟩

/-- Outside those widths `recover_primes` refuses small exponents and panics otherwise. -/
theorem recoverPrimes_small (n e d : BoxedUint) (he : e.val ≤ 65536) : recoverPrimes n e d = .err .invalidArguments := by
  unfold recoverPrimes
  have hle : e.le (ofU64 65536) = true := by
    show (!(decide ((ofU64 65536).val < e.val))) = true
    have : (ofU64 65536).val = 65536 := rfl
    rw [this, decide_eq_false (by omega)]; rfl
  rw [hle]; rfl

theorem recoverPrimes_panics (n e d : BoxedUint) (he : 65536 < e.val)
    (h : ¬ (e.prec ≤ 2 * d.prec ∧ n.prec ≤ 2 * d.prec ∧ 0 < d.val ∧ 0 < n.val)) : ∃ x, recoverPrimes n e d = .panic x := by
  unfold recoverPrimes
  have hle : e.le (ofU64 65536) = false := by
    show (!(decide ((ofU64 65536).val < e.val))) = false
    have : (ofU64 65536).val = 65536 := rfl
    rw [this, decide_eq_true he]; rfl
  rw [hle]
  simp only [Bool.false_eq_true, if_false]
  by_cases h1 : BoxedUint.one.prec ≤ d.prec * 2
  · obtain ⟨one', w1, w1v, _⟩ := widen_exists h1
    rw [one_val] at w1v
    rw [w1, Res.ok_bind]
    by_cases h2 : e.prec ≤ d.prec * 2
    · obtain ⟨e', w2, w2v, _⟩ := widen_exists h2
      rw [w2, Res.ok_bind]
      obtain ⟨d', w3, w3v, _⟩ := widen_exists (x := d) (b := d.prec * 2) (by omega)
      rw [w3, Res.ok_bind]
      by_cases h4 : n.prec ≤ d.prec * 2
      · obtain ⟨n', w4, w4v, _⟩ := widen_exists h4
        rw [w4, Res.ok_bind]
        by_cases h5 : 0 < d.val
        · have hn : n.val = 0 := by
            by_contra hc
            exact h ⟨by omega, by omega, h5, by omega⟩
          obtain ⟨a1, w5, _⟩ := sub_exists (x := d'.mul e') (y := one') (by
            rw [mul_val, w3v, w2v, w1v]; exact Nat.mul_pos h5 (by omega))
          rw [w5, Res.ok_bind, sub_panic (x := n') (y := one') (by omega)]
          exact ⟨_, rfl⟩
        · rw [sub_panic (x := d'.mul e') (y := one') (by
            have : d.val = 0 := by omega
            rw [mul_val, w3v, this, zero_mul]; omega)]
          exact ⟨_, rfl⟩
      · rw [widen_panic (x := n) (by omega)]; exact ⟨_, rfl⟩
    · rw [widen_panic (x := e) (by omega)]; exact ⟨_, rfl⟩
  · rw [widen_panic (by omega)]; exact ⟨_, rfl⟩

/-! The number theory of NIST SP 800-56B, appendix C.2 -/

/-- Any pair the computation yields multiplies to `n`, in descending order. -/
theorem recoverNat_sound {n a p q : Nat} (h : recoverNat n a = some (p, q)) : p * q = n ∧ q ≤ p := by
  unfold recoverNat at h
  split at h
  · cases h
  simp only at h
  split at h
  · cases h
  next h1 =>
  split at h
  · cases h
  next h2 =>
  generalize (n - a % n) / (a / n + 1) + 1 = b at *
  rw [not_not] at h2
  generalize Nat.sqrt (b * b - 4 * n) = y at *
  obtain ⟨rfl, rfl⟩ := Prod.mk.inj (Option.some.inj h)
  have hyb : y ≤ b := by
    apply Nat.mul_self_le_mul_self_iff.mp; omega
  have hbb : b * b = y * y + 4 * n := by omega
  have hpar : (b + y) % 2 = 0 := by
    by_contra hc
    have hodd : (b + y) % 2 = 1 := by omega
    have hodd2 : (b - y) % 2 = 1 := by omega
    have : (b + y) * (b - y) = 4 * n := by
      obtain ⟨c, rfl⟩ : ∃ c, b = y + c := ⟨b - y, by omega⟩
      have : y + c - y = c := by omega
      rw [this]
      nlinarith
    have h3 : ((b + y) * (b - y)) % 2 = 1 := by rw [Nat.mul_mod, hodd, hodd2]
    omega
  obtain ⟨s, hs⟩ : ∃ s, b + y = 2 * s := ⟨(b + y) / 2, by omega⟩
  obtain ⟨t, ht⟩ : ∃ t, b - y = 2 * t := ⟨(b - y) / 2, by omega⟩
  have h1' : (b + y) / 2 = s := by omega
  have h2' : (b - y) / 2 = t := by omega
  rw [h1', h2']
  refine ⟨?_, by omega⟩
  have hb : b = s + t := by omega
  have hy : y = s - t := by omega
  have hst : t ≤ s := by omega
  obtain ⟨c, rfl⟩ : ∃ c, s = t + c := ⟨s - t, by omega⟩
  have hy' : y = c := by omega
  subst hb; subst hy'
  nlinarith

/-- The computation finds the factors `q < p` of `n` whenever `a = u (p-1)(q-1)` with `0 < u` and `u (p+q-1) ≤ n`. -/
theorem recoverNat_complete {n p q u : Nat} (hn : p * q = n) (hq : 0 < q) (hqp : q < p) (hu : 0 < u)
    (hb : u * (p + q - 1) ≤ n) : recoverNat n (u * ((p - 1) * (q - 1))) = some (p, q) := by
  obtain ⟨q', rfl⟩ : ∃ q', q = q' + 1 := ⟨q - 1, by omega⟩
  obtain ⟨p', rfl⟩ : ∃ p', p = p' + 1 := ⟨p - 1, by omega⟩
  obtain ⟨v, rfl⟩ : ∃ v, u = v + 1 := ⟨u - 1, by omega⟩
  have hs : p' + 1 + (q' + 1) - 1 = p' + q' + 1 := by omega
  rw [hs] at hb
  have hp1 : p' + 1 - 1 = p' := rfl
  have hq1 : q' + 1 - 1 = q' := rfl
  rw [hp1, hq1]
  have hphi : p' * q' + (p' + q' + 1) = n := by rw [← hn]; ring
  have hnpos : 0 < n := by rw [← hn]; positivity
  have hspos : 0 < (v + 1) * (p' + q' + 1) := by positivity
  have ha : (v + 1) * (p' * q') = n * v + (n - (v + 1) * (p' + q' + 1)) := by
    have h1 : (v + 1) * (p' * q') + (v + 1) * (p' + q' + 1) = (v + 1) * n := by rw [← mul_add, hphi]
    have h2 : (v + 1) * n = n * v + n := by ring
    omega
  have hr : n - (v + 1) * (p' + q' + 1) < n := by omega
  have hdiv : (v + 1) * (p' * q') / n = v := by
    rw [ha, Nat.mul_add_div hnpos, Nat.div_eq_of_lt hr, Nat.add_zero]
  have hmod : (v + 1) * (p' * q') % n = n - (v + 1) * (p' + q' + 1) := by
    rw [ha, Nat.mul_add_mod, Nat.mod_eq_of_lt hr]
  unfold recoverNat
  rw [hdiv, hmod]
  have hsub : n - (n - (v + 1) * (p' + q' + 1)) = (v + 1) * (p' + q' + 1) := by omega
  rw [hsub, Nat.mul_mod_right, Nat.mul_div_cancel_left _ (by omega)]
  have hbb : (p' + q' + 1 + 1) * (p' + q' + 1 + 1) = 4 * n + (p' - q') * (p' - q') := by
    obtain ⟨c, rfl⟩ : ∃ c, p' = q' + c := ⟨p' - q', by omega⟩
    have : q' + c - q' = c := by omega
    rw [this, ← hphi]; ring
  have hpos : 0 < (p' - q') * (p' - q') := by
    have : 0 < p' - q' := by omega
    positivity
  rw [if_neg (by simp)]
  simp only
  rw [if_neg (by omega)]
  have hdiff : (p' + q' + 1 + 1) * (p' + q' + 1 + 1) - 4 * n = (p' - q') * (p' - q') := by omega
  rw [hdiff, Nat.sqrt_eq, if_neg (by simp)]
  congr 2 <;> omega

/-- `(de - 1) * gcd(n - 1, de - 1)` is a multiple of `(p-1)(q-1)` when `de ≡ 1` modulo `lcm(p-1, q-1)`. -/
theorem totient_dvd {n p q a : Nat} (hn : p * q = n) (hp : 0 < p) (hq : 0 < q) (h : Nat.lcm (p - 1) (q - 1) ∣ a) :
    (p - 1) * (q - 1) ∣ a * Nat.gcd (n - 1) a := by
  rw [← Nat.gcd_mul_lcm, mul_comm]
  refine mul_dvd_mul h (Nat.dvd_gcd ?_ ?_)
  · have : n - 1 = (p - 1) * q + (q - 1) := by
      obtain ⟨q', rfl⟩ : ∃ q', q = q' + 1 := ⟨q - 1, by omega⟩
      obtain ⟨p', rfl⟩ : ∃ p', p = p' + 1 := ⟨p - 1, by omega⟩
      have hp1 : p' + 1 - 1 = p' := rfl
      have hq1 : q' + 1 - 1 = q' := rfl
      rw [hp1, hq1, ← hn]
      have : (p' + 1) * (q' + 1) = p' * (q' + 1) + q' + 1 := by ring
      omega
    rw [this]
    exact Dvd.dvd.add (Dvd.dvd.mul_right (Nat.gcd_dvd_left _ _) _) (Nat.gcd_dvd_right _ _)
  · exact dvd_trans (dvd_trans (Nat.gcd_dvd_left _ _) (Nat.dvd_lcm_left _ _)) h

end RSA
