import Verif.Proof.Generate
import Verif.Spec.GenerateOutcome

namespace RSA
open BoxedUint

theorem topBits_bits {σ : Type} {G : PrimeGen σ} {b : Nat} (hG : Spec.TopBits G b) (hb : 2 ≤ b) (s : σ) :
    (G.gen s b).1.bits = b := by
  apply le_antisymm
  · exact (bits_le_iff _ _).mpr (hG.lt s)
  · have h1 := hG.top s
    have : 2 ^ (b - 1) ≤ (G.gen s b).1.val := by
      have h2 : (2 : Nat) ^ (b - 1) = 2 * 2 ^ (b - 2) := by rw [← pow_succ']; congr 1; omega
      omega
    have := (lt_bits_iff _ _).mpr this
    omega

theorem topBits_three {σ : Type} {G : PrimeGen σ} {b : Nat} (hG : Spec.TopBits G b) (s : σ) : 3 ≤ (G.gen s b).1.val :=
  le_trans (Nat.le_mul_of_pos_right 3 (by positivity)) (hG.top s)

/-- What one turn draws comes from the search, at one of the lengths. -/
theorem drawAll_mem {σ : Type} {G : PrimeGen σ} : ∀ (bs : List Nat) (s : σ) (p : BoxedUint),
    p ∈ (Spec.drawAll G bs s).1 → ∃ b ∈ bs, ∃ t, p = (G.gen t b).1 := by
  intro bs
  induction bs with
  | nil => intro s p h; cases h
  | cons b bs ih =>
    intro s p h
    rcases List.mem_cons.mp h with rfl | h
    · exact ⟨b, List.mem_cons_self .., s, rfl⟩
    · obtain ⟨b', hb', t, ht⟩ := ih _ _ h
      exact ⟨b', List.mem_cons_of_mem _ hb', t, ht⟩

theorem drawAll_length {σ : Type} {G : PrimeGen σ} : ∀ (bs : List Nat) (s : σ), (Spec.drawAll G bs s).1.length = bs.length := by
  intro bs
  induction bs with
  | nil => intro s; rfl
  | cons b bs ih => intro s; simp [Spec.drawAll, ih]

/-- Splitting off one share after the other gives the shares `(total + i) / n`. -/
theorem generatePrimes_shares {σ : Type} {G : PrimeGen σ} (n q r : Nat) (hn : 0 < n) (hr : r < n) (hq : 2 ≤ q)
    (hG : ∀ i < n, Spec.TopBits G ((q * n + r + i) / n)) (h32 : q + 1 < 2 ^ 32) : ∀ (left : Nat) (s : σ), left ≤ n →
    generatePrimes G left (q * left + min r left) s =
      .ok (Spec.drawAll G ((List.range' (n - left) left).map fun i => (q * n + r + i) / n) s) := by
  intro left
  induction left with
  | zero => intro s _; rfl
  | succ left ih =>
    intro s hl
    have hshare : (q * n + r + (n - (left + 1))) / n = q + if left + 1 ≤ r then 1 else 0 := by
      split
      · rw [show q * n + r + (n - (left + 1)) = (r - (left + 1)) + n * (q + 1) by
          rw [Nat.mul_add, Nat.mul_comm n q]; omega, Nat.add_mul_div_left _ _ hn, Nat.div_eq_of_lt (by omega)]; omega
      · rw [show q * n + r + (n - (left + 1)) = (r + (n - (left + 1))) + n * q by
          rw [Nat.mul_comm n q]; omega, Nat.add_mul_div_left _ _ hn, Nat.div_eq_of_lt (by omega)]; omega
    have hdiv : (q * (left + 1) + min r (left + 1)) / (left + 1) = q + if left + 1 ≤ r then 1 else 0 := by
      split
      · rw [Nat.min_eq_right (by omega), Nat.mul_comm, ← Nat.mul_succ, Nat.mul_div_cancel_left _ (Nat.succ_pos _)]
      · rw [Nat.min_eq_left (by omega), Nat.add_comm, Nat.mul_comm q, Nat.add_mul_div_left _ _ (Nat.succ_pos _),
          Nat.div_eq_of_lt (by omega)]; omega
    have hTop := hG (n - (left + 1)) (by omega)
    have hlist : (List.range' (n - (left + 1)) (left + 1)) = (n - (left + 1)) :: List.range' (n - left) left := by
      rw [List.range'_succ]; congr 2; omega
    rw [hlist, List.map_cons]
    generalize hb : (q * n + r + (n - (left + 1))) / n = b at *
    have hb2 : 2 ≤ b := by rw [hshare]; split <;> omega
    have hb32 : b < 2 ^ 32 := by rw [hshare]; split <;> omega
    have hstep : ∀ (left todo : Nat) (t : σ), generatePrimes G (left + 1) todo t =
        (generatePrimeWithRng G t (todo / (left + 1) % 2 ^ 32) >>= fun x => subU todo x.1.bits >>= fun todo' =>
          generatePrimes G left todo' x.2 >>= fun y => .ok (x.1 :: y.1, y.2)) := fun _ _ _ => rfl
    have hg : generatePrimeWithRng G s b = .ok (G.gen s b) := by
      unfold generatePrimeWithRng; rw [if_neg (by omega)]
    have hmul : q * (left + 1) = q * left + q := Nat.mul_succ q left
    have hsub : subU (q * (left + 1) + min r (left + 1)) (G.gen s b).1.bits = .ok (q * left + min r left) := by
      rw [topBits_bits hTop hb2]
      unfold subU
      have : b ≤ q * (left + 1) + min r (left + 1) := by
        rw [hshare, hmul]; split <;> omega
      rw [if_pos this]
      congr 1
      rw [hshare, hmul]
      split <;> omega
    rw [hstep, hdiv, ← hshare, Nat.mod_eq_of_lt hb32, hg, Res.ok_bind, hsub, Res.ok_bind, ih _ (by omega)]
    rfl

/-- A turn as the specification has it. -/
theorem generatePrimes_turn {σ : Type} {G : PrimeGen σ} {n total : Nat} (hn : 2 ≤ n) (h2 : 2 * n ≤ total)
    (h32 : total / n + 1 < 2 ^ 32) (hG : ∀ b ∈ Spec.shares n total, 2 ≤ b → Spec.TopBits G b) (s : σ) :
    generatePrimes G n total s = .ok (Spec.drawAll G (Spec.shares n total) s) := by
  have hq : 2 ≤ total / n := (Nat.le_div_iff_mul_le (by omega)).mpr h2
  have hdm : total / n * n + total % n = total := by rw [Nat.mul_comm]; exact Nat.div_add_mod total n
  have hlt : total % n < n := Nat.mod_lt _ (by omega)
  have := generatePrimes_shares (G := G) n (total / n) (total % n) (by omega) hlt hq (by
    intro i hi
    rw [hdm]
    refine hG _ (List.mem_map.mpr ⟨i, List.mem_range.mpr hi, rfl⟩) ?_
    exact le_trans hq (Nat.div_le_div_right (by omega))) h32 n s le_rfl
  rw [Nat.min_eq_left (le_of_lt hlt), hdm, Nat.sub_self] at this
  rw [this, Spec.shares, List.range_eq_range']

/-- The exponent is stored as the totient is. -/
theorem euler_width_all {p : BoxedUint} {ps : List BoxedUint} {e d : BoxedUint} (h2 : 2 ≤ (p :: ps).length)
    (hp : ∀ x ∈ p :: ps, 0 < x.val) (h : computePrivateExponentEulerTotient (p :: ps) e = .ok d) :
    d.nlimbs = ((p :: ps).map BoxedUint.nlimbs).sum + p.nlimbs := by
  have hpl := nlimbs_pos_of_val_pos p (hp p (List.mem_cons_self ..))
  have hlf : limbsFor p.prec = p.nlimbs := limbsFor_prec p hpl
  obtain ⟨t, h3, h3v, h3l⟩ := totientLoop_eq (p :: ps) (oneWithPrecision p.prec) hp
  have h1l : (oneWithPrecision p.prec).nlimbs = p.nlimbs := hlf
  unfold computePrivateExponentEulerTotient at h
  rw [if_neg (by omega)] at h
  simp only [primeAt, List.getElem?_cons_zero, Res.ok_bind] at h
  rw [h3, Res.ok_bind, Res.bind_eq_ok] at h
  obtain ⟨e', _, h⟩ := h
  unfold invMod at h
  cases hi : natInvMod e'.val t.val with
  | none => rw [hi] at h; cases h
  | some r =>
    rw [hi] at h
    obtain rfl := Res.ok.inj h
    show t.nlimbs = _
    rw [h3l, h1l]; omega

/-- The specification determines the components. -/
theorem isComponents_unique {e : BoxedUint} {ps : List BoxedUint} {c c' : Components} (h2 : 1 < Spec.totient ps)
    (h : Spec.IsComponents e ps c) (h' : Spec.IsComponents e ps c') : c = c' := by
  obtain ⟨n, e1, d, primes⟩ := c
  obtain ⟨n', e1', d', primes'⟩ := c'
  obtain rfl : primes = primes' := h.primes.trans h'.primes.symm
  obtain rfl : e1 = e1' := h.exp.trans h'.exp.symm
  have hn : n.toBoxedUint = n'.toBoxedUint := ext_val (h.n_limbs.trans h'.n_limbs.symm) (h.n.trans h'.n.symm)
  obtain ⟨n, ho⟩ := n
  obtain ⟨n', ho'⟩ := n'
  obtain rfl : n = n' := hn
  have hd : d = d' := by
    apply ext_val (h.d_limbs.trans h'.d_limbs.symm)
    have h1 : e.val * d.val ≡ e.val * d'.val [MOD Spec.totient ps] := h.d_inverse.trans h'.d_inverse.symm
    have hco : Nat.Coprime (Spec.totient ps) e.val := by
      rw [Nat.coprime_comm]
      have := h.d_inverse
      have h3 : e.val * d.val ≡ 1 [MOD Spec.totient ps] := by
        show _ % _ = _ % _; rw [this, Nat.mod_eq_of_lt h2]
      have h4 : Nat.gcd (e.val * d.val) (Spec.totient ps) = 1 := by
        have := h3.gcd_eq; simpa using this
      exact Nat.Coprime.coprime_mul_right h4
    have := Nat.ModEq.cancel_left_of_coprime hco h1
    unfold Nat.ModEq at this
    rw [Nat.mod_eq_of_lt h.d_lt, Nat.mod_eq_of_lt h'.d_lt] at this
    exact this
  rw [hd]

end RSA
