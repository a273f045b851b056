import Verif.Proof.WordsRecover
import Verif.Props.WordsPrimes
import Verif.Spec.WordsGenerate

/-! C108: recovery of the primes on machines with words of other sizes. -/
namespace RSA
open Spec
open words (PubKey PrivKey)

variable {w w' : Nat}

/-! ### Words of eight octets -/

theorem add_word8 (x y : BoxedUint) : x.atWord8.add y.atWord8 = (x.add y >>= fun z => .ok z.atWord8) := by
  unfold words.Uint.add BoxedUint.add
  have h1 : x.atWord8.val = x.val := rfl
  have h2 : y.atWord8.val = y.val := rfl
  have h3 : x.atWord8.nlimbs = x.nlimbs := rfl
  have h4 : y.atWord8.nlimbs = y.nlimbs := rfl
  rw [h1, h2, h3, h4]
  split
  · rfl
  · rfl

/-- The last step of `recover_primes`. -/
theorem halves_word8 (b y : BoxedUint) (b' y' : words.Uint 8) (hb : b' = b.atWord8) (hy : y' = y.atWord8) :
    (do
      let two ← (← words.expectNonZero (words.Uint.ofU64 2 : words.Uint 8)).widen (max b'.prec y'.prec)
      let p := (← b'.add y').div two
      let q := (← b'.sub y').div two
      (.ok (p, q) : Res (words.Uint 8 × words.Uint 8))) =
    ((do
      let two ← (← expectNonZero (BoxedUint.ofU64 2)).widen (max b.prec y.prec)
      let p := (← b.add y).div two
      let q := (← b.sub y).div two
      (.ok (p, q) : Res (BoxedUint × BoxedUint))) >>= fun r => .ok (r.1.atWord8, r.2.atWord8)) := by
  subst hb hy
  have h2 : (words.Uint.ofU64 2 : words.Uint 8) = (BoxedUint.ofU64 2).atWord8 := rfl
  have hp : max b.atWord8.prec y.atWord8.prec = max b.prec y.prec := rfl
  rw [h2, hp, expectNonZero_word8]
  cases expectNonZero (BoxedUint.ofU64 2) with
  | ok t =>
    simp only [Res.ok_bind, widen_word8]
    cases t.widen (max b.prec y.prec) with
    | ok t =>
      simp only [Res.ok_bind, add_word8]
      cases b.add y with
      | ok s =>
        simp only [Res.ok_bind, sub_word8]
        cases b.sub y <;> rfl
      | _ => rfl
    | _ => rfl
  | _ => rfl

/-- C108: with words of eight octets the parametrised `recover_primes` is that of the rest of the model. -/
theorem C108_word8 (n e d : BoxedUint) : words.recoverPrimes n.atWord8 e.atWord8 d.atWord8 =
    (recoverPrimes n e d >>= fun r => .ok (r.1.atWord8, r.2.atWord8)) := by
  unfold words.recoverPrimes recoverPrimes
  have hl : e.atWord8.le (words.Uint.ofU64 65536) = e.le (BoxedUint.ofU64 65536) := rfl
  rw [hl]
  by_cases h : e.le (BoxedUint.ofU64 65536) = true
  · rw [if_pos h, if_pos h]; rfl
  rw [if_neg h, if_neg h]
  have ho : (words.Uint.one : words.Uint 8) = BoxedUint.one.atWord8 := rfl
  have hb : d.atWord8.prec * 2 = d.prec * 2 := rfl
  simp only [ho, hb, widen_word8]
  generalize d.prec * 2 = bits
  cases BoxedUint.one.widen bits with
  | ok one' =>
    simp only [Res.ok_bind]
    cases e.widen bits with
    | ok e' =>
      simp only [Res.ok_bind]
      cases d.widen bits with
      | ok d' =>
        simp only [Res.ok_bind]
        cases n.widen bits with
        | ok n' =>
          simp only [Res.ok_bind]
          have hm : d'.atWord8.mul e'.atWord8 = (d'.mul e').atWord8 := rfl
          rw [hm, sub_word8]
          cases (d'.mul e').sub one' with
          | ok a1 =>
            simp only [Res.ok_bind, sub_word8]
            cases n'.sub one' with
            | ok n1 =>
              simp only [Res.ok_bind]
              have ha : a1.atWord8.mul (n1.atWord8.gcd a1.atWord8) = (a1.mul (n1.gcd a1)).atWord8 := rfl
              rw [ha]
              generalize a1.mul (n1.gcd a1) = a
              have hp : a.atWord8.prec = a.prec := rfl
              rw [hp, widen_word8]
              cases n'.widen a.prec with
              | ok n2 =>
                simp only [Res.ok_bind, expectNonZero_word8]
                cases expectNonZero n2 with
                | ok n3 =>
                  simp only [Res.ok_bind]
                  have hq : a.atWord8.div n3.atWord8 = (a.div n3).atWord8 := rfl
                  rw [hq]
                  generalize a.div n3 = m
                  have hmn : m.atWord8.mul n2.atWord8 = (m.mul n2).atWord8 := rfl
                  rw [hmn, sub_word8]
                  cases a.sub (m.mul n2) with
                  | ok r =>
                    simp only [Res.ok_bind, add_word8]
                    cases m.add one' with
                    | ok m1 =>
                      simp only [Res.ok_bind, expectNonZero_word8]
                      cases expectNonZero m1 with
                      | ok den =>
                        simp only [Res.ok_bind, sub_word8]
                        cases n2.sub r with
                        | ok num =>
                          simp only [Res.ok_bind]
                          have hz : (num.atWord8.rem den.atWord8).isZero = (num.rem den).isZero := rfl
                          rw [hz]
                          by_cases hr : (!(num.rem den).isZero) = true
                          · rw [if_pos hr, if_pos hr]; rfl
                          rw [if_neg hr, if_neg hr]
                          have hd' : num.atWord8.div den.atWord8 = (num.div den).atWord8 := rfl
                          rw [hd', add_word8]
                          cases (num.div den).add one' with
                          | ok b =>
                            simp only [Res.ok_bind]
                            have hsq : b.atWord8.square = b.square.atWord8 := rfl
                            have hf : n2.atWord8.mul (words.Uint.ofU32 4) = (n2.mul (BoxedUint.ofU64 4)).atWord8 := rfl
                            rw [hsq, hf]
                            generalize n2.mul (BoxedUint.ofU64 4) = f
                            have hle : b.square.atWord8.le f.atWord8 = b.square.le f := rfl
                            rw [hle]
                            by_cases hc : b.square.le f = true
                            · rw [if_pos hc, if_pos hc]; rfl
                            rw [if_neg hc, if_neg hc, sub_word8]
                            cases b.square.sub f with
                            | ok diff =>
                              simp only [Res.ok_bind]
                              have hy : diff.atWord8.sqrt = diff.sqrt.atWord8 := rfl
                              rw [hy]
                              have hbe : diff.sqrt.atWord8.square.beq diff.atWord8 = diff.sqrt.square.beq diff := rfl
                              rw [hbe]
                              by_cases hw : (!(diff.sqrt.square.beq diff)) = true
                              · rw [if_pos hw, if_pos hw]; rfl
                              rw [if_neg hw, if_neg hw]
                              exact halves_word8 b diff.sqrt _ _ rfl rfl
                            | _ => rfl
                          | _ => rfl
                        | _ => rfl
                      | _ => rfl
                    | _ => rfl
                  | _ => rfl
                | _ => rfl
              | _ => rfl
            | _ => rfl
          | _ => rfl
        | _ => rfl
      | _ => rfl
    | _ => rfl
  | _ => rfl

theorem fromComponents_none (n : BoxedUint) (hn : n.val % 2 = 1) (e d : BoxedUint) :
    PrivateKey.fromComponents ⟨n, hn⟩ e d [] =
      (recoverPrimes n e d >>= fun r => PrivateKey.fromComponents ⟨n, hn⟩ e d [r.1, r.2]) := by
  unfold PrivateKey.fromComponents
  have hz : n.nonZero = some n := by
    unfold BoxedUint.nonZero
    have : n.val ≠ 0 := by intro h0; rw [h0] at hn; cases hn
    simp [this]
  simp only [hz, Res.ok_bind]

/-- C108: so is `from_components` without factors. -/
theorem C108_word8_key (n : BoxedUint) (hn : n.val % 2 = 1) (e d : BoxedUint) :
    (words.fromNone n.atWord8 hn e.atWord8 d.atWord8 >>= fun K => .ok K.parts) =
      (PrivateKey.fromComponents ⟨n, hn⟩ e d [] >>= fun k => .ok k.parts8) := by
  rw [fromComponents_none]
  unfold words.fromNone
  rw [C108_word8]
  cases recoverPrimes n e d with
  | ok r =>
    simp only [Res.ok_bind]
    exact fromFactors_word8 n hn e d [r.1, r.2] le_rfl
  | _ => rfl

/-! ### One machine -/

/-- C108: on every machine, a pair that `recover_primes` returns multiplies to `n`, the larger factor first, and is stored
in 32 times the words of `d`. -/
theorem C108_sound (hw : 0 < w) (n e d p q : words.Uint w) (hn : 0 < n.val) (h : words.recoverPrimes n e d = .ok (p, q)) :
    p.val * q.val = n.val ∧ q.val ≤ p.val ∧ p.nlimbs = 32 * d.nlimbs ∧ q.nlimbs = 32 * d.nlimbs := by
  by_cases he : 65536 < e.val
  · by_cases hwd : e.prec ≤ 2 * d.prec ∧ n.prec ≤ 2 * d.prec ∧ 0 < d.val ∧ 0 < n.val
    · rcases words.recoverPrimes_eq hw n e d he hwd.1 hwd.2.1 hwd.2.2.1 hn with ⟨_, h'⟩ | ⟨p', q', h1, l1, l2, h'⟩
      · rw [h] at h'; cases h'
      · rw [h] at h'
        obtain ⟨rfl, rfl⟩ := Prod.mk.inj (Res.ok.inj h')
        have := recoverNat_sound h1
        exact ⟨this.1, this.2, l1, l2⟩
    · obtain ⟨x, hx⟩ := words.recoverPrimes_panics hw n e d he hwd
      rw [hx] at h; cases h
  · rw [words.recoverPrimes_small hw n e d (by omega)] at h; cases h

/-- C108: on every machine, `recover_primes` finds the factors `q < p` of `n` if `d e ≡ 1` modulo `lcm(p-1, q-1)`,
`e > 65536`, `n` and `e` are stored in at most twice the words of `d`, and `u (p + q - 1) ≤ n` where
`u = (de-1) gcd(n-1, de-1) / ((p-1)(q-1))`. -/
theorem C108_complete (hw : 0 < w) (n e d : words.Uint w) (p q : Nat) (hn : p * q = n.val) (hq : 1 < q) (hqp : q < p)
    (he : 65536 < e.val) (hd : 0 < d.val) (hep : e.nlimbs ≤ 2 * d.nlimbs) (hnp : n.nlimbs ≤ 2 * d.nlimbs)
    (hde : d.val * e.val ≡ 1 [MOD Nat.lcm (p - 1) (q - 1)])
    (hrange : (d.val * e.val - 1) * Nat.gcd (n.val - 1) (d.val * e.val - 1) / ((p - 1) * (q - 1)) * (p + q - 1) ≤ n.val) :
    ∃ p' q', words.recoverPrimes n e d = .ok (p', q') ∧ p'.val = p ∧ q'.val = q := by
  have hprec : ∀ x : words.Uint w, x.nlimbs ≤ 2 * d.nlimbs → x.prec ≤ 2 * d.prec := by
    intro x hx
    have := Nat.mul_le_mul_left (8 * w) hx
    rw [show 8 * w * (2 * d.nlimbs) = 2 * (8 * w * d.nlimbs) by ring] at this
    exact this
  have hnpos : 0 < n.val := by rw [← hn]; exact Nat.mul_pos (by omega) (by omega)
  have hphi : 0 < (p - 1) * (q - 1) := Nat.mul_pos (by omega) (by omega)
  have hde1 : 65536 < d.val * e.val := lt_of_lt_of_le he (Nat.le_mul_of_pos_left _ hd)
  have hdvd : Nat.lcm (p - 1) (q - 1) ∣ d.val * e.val - 1 := (Nat.modEq_iff_dvd' (by omega)).mp hde.symm
  obtain ⟨u, hu⟩ := totient_dvd hn (by omega) (by omega) hdvd
  have hapos : 0 < (d.val * e.val - 1) * Nat.gcd (n.val - 1) (d.val * e.val - 1) :=
    Nat.mul_pos (by omega) (Nat.gcd_pos_of_pos_right _ (by omega))
  rw [hu, Nat.mul_div_cancel_left _ hphi] at hrange
  have hupos : 0 < u := by
    rcases Nat.eq_zero_or_pos u with h0 | h0
    · rw [hu, h0] at hapos; omega
    · exact h0
  have hrec := recoverNat_complete hn (by omega) hqp hupos hrange
  rcases words.recoverPrimes_eq hw n e d he (hprec e hep) (hprec n hnp) hd hnpos with ⟨h1, _⟩ | ⟨p', q', h1, _, _, h2⟩
  · rw [hu, mul_comm, hrec] at h1; cases h1
  · rw [hu, mul_comm, hrec] at h1
    obtain ⟨h3, h4⟩ := Prod.mk.inj (Option.some.inj h1)
    exact ⟨p', q', h2, h3.symm, h4.symm⟩

/-- C108: on every machine, an exponent up to 65536 is refused; otherwise the function panics exactly if `e` or `n` has more
than twice the words of `d`, or `d` is zero. -/
theorem C108_outcomes (hw : 0 < w) (n e d : words.Uint w) (hn : 0 < n.val) :
    (e.val ≤ 65536 → words.recoverPrimes n e d = .err .invalidArguments) ∧
    (65536 < e.val →
      ((words.recoverPrimes n e d).Panics ↔ 2 * d.nlimbs < e.nlimbs ∨ 2 * d.nlimbs < n.nlimbs ∨ d.val = 0)) := by
  have hprec : ∀ x : words.Uint w, x.prec ≤ 2 * d.prec ↔ x.nlimbs ≤ 2 * d.nlimbs := by
    intro x
    have h : 2 * d.prec = 8 * w * (2 * d.nlimbs) := by unfold words.Uint.prec; ring
    rw [h]
    exact Nat.mul_le_mul_left_iff (by omega)
  refine ⟨words.recoverPrimes_small hw n e d, fun he => ?_⟩
  have h1 := hprec e
  have h2 := hprec n
  by_cases hwd : e.prec ≤ 2 * d.prec ∧ n.prec ≤ 2 * d.prec ∧ 0 < d.val ∧ 0 < n.val
  · refine ⟨fun h => ?_, fun h => by omega⟩
    rcases words.recoverPrimes_eq hw n e d he hwd.1 hwd.2.1 hwd.2.2.1 hwd.2.2.2 with ⟨_, h'⟩ | ⟨p', q', h1, _, _, h'⟩ <;>
      rw [h'] at h <;> exact h.elim
  · obtain ⟨x, hx⟩ := words.recoverPrimes_panics hw n e d he hwd
    rw [hx]
    exact ⟨fun _ => by omega, fun _ => trivial⟩

/-- C108: on no machine does `from_components` make a key without being given factors: those recovered are stored too wide
for `validate`. -/
theorem C108_never_succeeds (hw : 0 < w) (n : words.Uint w) (hn : n.val % 2 = 1) (e d : words.Uint w) (K : PrivKey w) :
    words.fromNone n hn e d ≠ .ok K := by
  intro h
  unfold words.fromNone at h
  rw [Res.bind_eq_ok] at h
  obtain ⟨⟨p, q⟩, hr, h⟩ := h
  have hn0 : 0 < n.val := by omega
  have hs := C108_sound hw n e d p q hn0 hr
  have hd1 : 1 ≤ d.nlimbs := by
    by_contra hc
    have h0 : p.nlimbs = 0 := by omega
    have hp := p.isLt
    rw [h0, Nat.mul_zero, pow_zero] at hp
    have hp0 : p.val = 0 := by omega
    have := hs.1
    rw [hp0, zero_mul] at this
    omega
  unfold words.fromFactors at h
  simp only at h
  rw [Res.bind_eq_ok] at h
  obtain ⟨_, hv, _⟩ := h
  have := ((words.validate_ok_iff hw _ hd1).mp hv).2.2 p (by simp)
  have hle : p.nlimbs ≤ 2 * d.nlimbs := this.1
  omega

/-! ### Two machines -/

/-- C108: two machines on which `n` and `e` have at most twice the words of `d` recover the same primes of the same numbers,
or refuse them with the same error. -/
theorem C108_same (hw : 0 < w) (hw' : 0 < w') (n e d : words.Uint w) (n' e' d' : words.Uint w') (hn : 0 < n.val)
    (hd : 0 < d.val) (en : n'.val = n.val) (ee : e'.val = e.val) (ed : d'.val = d.val)
    (he1 : e.nlimbs ≤ 2 * d.nlimbs) (hn1 : n.nlimbs ≤ 2 * d.nlimbs)
    (he2 : e'.nlimbs ≤ 2 * d'.nlimbs) (hn2 : n'.nlimbs ≤ 2 * d'.nlimbs) :
    WordsSameResult (fun r r' => r'.1.val = r.1.val ∧ r'.2.val = r.2.val)
      (words.recoverPrimes n e d) (words.recoverPrimes n' e' d') := by
  have hprec : ∀ {v : Nat} (x d : words.Uint v), x.nlimbs ≤ 2 * d.nlimbs → x.prec ≤ 2 * d.prec := by
    intro v x d hx
    have := Nat.mul_le_mul_left (8 * v) hx
    rw [show 8 * v * (2 * d.nlimbs) = 2 * (8 * v * d.nlimbs) by ring] at this
    exact this
  by_cases he : 65536 < e.val
  · have r1 := words.recoverPrimes_eq hw n e d he (hprec _ _ he1) (hprec _ _ hn1) hd hn
    have r2 := words.recoverPrimes_eq hw' n' e' d' (by omega) (hprec _ _ he2) (hprec _ _ hn2) (by omega) (by omega)
    rw [en, ee, ed] at r2
    rcases r1 with ⟨a1, b1⟩ | ⟨p, q, a1, -, -, b1⟩
    · rcases r2 with ⟨a2, b2⟩ | ⟨p', q', a2, -, -, b2⟩
      · rw [b1, b2]; rfl
      · rw [a1] at a2; cases a2
    · rcases r2 with ⟨a2, b2⟩ | ⟨p', q', a2, -, -, b2⟩
      · rw [a1] at a2; cases a2
      · rw [a1] at a2
        obtain ⟨h1, h2⟩ := Prod.mk.inj (Option.some.inj a2)
        rw [b1, b2]
        exact ⟨h1.symm, h2.symm⟩
  · rw [words.recoverPrimes_small hw n e d (by omega), words.recoverPrimes_small hw' n' e' d' (by omega)]
    rfl

/-- C108: otherwise they can part. Of this modulus of 65 bits with the exponents `1` and `lcm(p-1, q-1) + 1`, all stored
without spare words, a machine with words of eight octets finds the primes and one with words of four panics. -/
theorem C108_differ :
    (∃ p q, words.recoverPrimes (words.Uint.wrap (w := 8) 2 (4294967357 * 4294967311))
      (words.Uint.wrap 1 9223372195768566181) (words.Uint.wrap 1 1) = .ok (p, q) ∧ p.val = 4294967357 ∧
        q.val = 4294967311) ∧
    (words.recoverPrimes (words.Uint.wrap (w := 4) 3 (4294967357 * 4294967311)) (words.Uint.wrap 2 9223372195768566181)
      (words.Uint.wrap 1 1)).Panics := by
  constructor
  · exact C108_complete (by norm_num) _ _ _ 4294967357 4294967311 (by decide +kernel) (by norm_num) (by norm_num)
      (by decide +kernel) (by decide +kernel) (by decide +kernel) (by decide +kernel) (by decide +kernel) (by decide +kernel)
  · exact ((C108_outcomes (by norm_num) _ _ _ (by decide +kernel)).2 (by decide +kernel)).mpr (by decide +kernel)

/-- The same numbers with `d` stored in one more word: both machines find the primes. -/
example : 0 < (words.Uint.wrap (w := 4) 3 (4294967357 * 4294967311)).val ∧ 0 < (words.Uint.wrap (w := 4) 2 1).val ∧
    (words.Uint.wrap (w := 8) 2 (4294967357 * 4294967311)).val = (words.Uint.wrap (w := 4) 3 (4294967357 * 4294967311)).val ∧
    (words.Uint.wrap (w := 4) 3 (4294967357 * 4294967311)).nlimbs ≤ 2 * (words.Uint.wrap (w := 4) 2 1).nlimbs ∧
    (words.recoverPrimes (words.Uint.wrap (w := 4) 3 (4294967357 * 4294967311)) (words.Uint.wrap 2 9223372195768566181)
      (words.Uint.wrap 2 1) >>= fun r => .ok (r.1.val, r.2.val)) = .ok (4294967357, 4294967311) := by decide +kernel

end RSA
