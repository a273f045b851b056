import Verif.Proof.GenerateOutcome
import Verif.Props.KeyTotal
import Verif.Props.Float

/-
C83: key generation has an exact outcome for every number of primes, size, exponent, and course of the prime search.
-/
namespace RSA
open BoxedUint

theorem sum_prec (l : List BoxedUint) : (l.map BoxedUint.prec).sum = 64 * (l.map BoxedUint.nlimbs).sum := by
  induction l with
  | nil => rfl
  | cons p ps ih => simp only [List.map_cons, List.sum_cons, ih]; unfold prec; ring

/-- Numbers drawn with the top bits set: at least two, odd, at least 3. -/
theorem turn_spec {σ : Type} {G : PrimeGen σ} {n bitSize : Nat} (hn : 2 ≤ n) (h2 : 2 * n ≤ Spec.totalBits n bitSize)
    (hG : ∀ b ∈ Spec.shares n (Spec.totalBits n bitSize), 2 ≤ b → Spec.TopBits G b) (s : σ) :
    (Spec.turn G n bitSize s).1.length = n ∧
    ∀ p ∈ (Spec.turn G n bitSize s).1, 3 ≤ p.val ∧ p.val % 2 = 1 := by
  constructor
  · unfold Spec.turn; rw [drawAll_length]; simp [Spec.shares]
  · intro p hp
    obtain ⟨b, hb, t, rfl⟩ := drawAll_mem _ _ _ hp
    have hb2 : 2 ≤ b := by
      obtain ⟨i, hi, rfl⟩ := List.mem_map.mp hb
      exact le_trans ((Nat.le_div_iff_mul_le (by omega)).mpr h2) (Nat.div_le_div_right (by omega))
    exact ⟨topBits_three (hG b hb hb2) t, (hG b hb hb2).odd t⟩

theorem totient_gt_one {ps : List BoxedUint} (hl : 2 ≤ ps.length) (hp : ∀ p ∈ ps, 3 ≤ p.val) : 1 < Spec.totient ps := by
  match ps, hl with
  | p :: ps, _ =>
    unfold Spec.totient
    rw [List.map_cons, List.prod_cons]
    have h1 := hp p (List.mem_cons_self ..)
    have h2 : 0 < (ps.map fun p => p.val - 1).prod := prod_pos _ (fun x hx => by
      obtain ⟨y, hy, rfl⟩ := List.mem_map.mp hx
      have := hp y (List.mem_cons_of_mem _ hy); omega)
    calc 1 < p.val - 1 := by omega
      _ ≤ _ := Nat.le_mul_of_pos_right _ h2

/-- The loop does what the specification says. -/
theorem generateLoop_searches {σ : Type} {G : PrimeGen σ} {n bitSize : Nat} (e : BoxedUint) (hn : 2 ≤ n)
    (h2 : 2 * n ≤ Spec.totalBits n bitSize) (h32 : Spec.totalBits n bitSize / n + 1 < 2 ^ 32)
    (hG : ∀ b ∈ Spec.shares n (Spec.totalBits n bitSize), 2 ≤ b → Spec.TopBits G b) : ∀ (fuel : Nat) (s : σ),
    Spec.Searches G n bitSize e fuel s (generateLoop G n bitSize e fuel s) := by
  intro fuel
  induction fuel with
  | zero => intro s; exact .searching s
  | succ fuel ih =>
    intro s
    have htotal : (if n ≥ 7 then bitSize + (n - 2) / 5 else bitSize) = Spec.totalBits n bitSize := by
      unfold Spec.totalBits; split <;> simp
    obtain ⟨hlen, hps⟩ := turn_spec hn h2 hG s
    have hstep : generateLoop G n bitSize e (fuel + 1) s =
        (if PrivateKey.hasDuplicate [] (Spec.turn G n bitSize s).1 then
          generateLoop G n bitSize e fuel (Spec.turn G n bitSize s).2
        else computeModulus (Spec.turn G n bitSize s).1 >>= fun m =>
          if m.toBoxedUint.bits ≠ bitSize then generateLoop G n bitSize e fuel (Spec.turn G n bitSize s).2
          else match computePrivateExponentEulerTotient (Spec.turn G n bitSize s).1 e with
            | .ok d => .ok (⟨m, e, d, (Spec.turn G n bitSize s).1⟩, (Spec.turn G n bitSize s).2)
            | .err _ => generateLoop G n bitSize e fuel (Spec.turn G n bitSize s).2
            | .panic k => .panic k
            | .loop => .loop) := by
      conv_lhs => unfold generateLoop
      simp only [htotal]
      rw [generatePrimes_turn hn h2 h32 hG s, Res.ok_bind]
      rfl
    rw [hstep]
    generalize hT : Spec.turn G n bitSize s = T at *
    obtain ⟨ps, s'⟩ := T
    have hT1 : (Spec.turn G n bitSize s).1 = ps := by rw [hT]
    have hT2 : (Spec.turn G n bitSize s).2 = s' := by rw [hT]
    simp only at hlen hps ⊢
    obtain ⟨m, hm⟩ := computeModulus_exists (ps := ps) (by rintro rfl; simp at hlen; omega)
      (prod_odd _ (fun x hx => by obtain ⟨y, hy, rfl⟩ := List.mem_map.mp hx; exact (hps y hy).2))
    obtain ⟨hmv, hml⟩ := computeModulus_ok hm
    cases hd : PrivateKey.hasDuplicate [] ps with
    | true =>
      simp only [if_true]
      have hnd : ¬ (ps.map BoxedUint.val).Nodup := by
        intro h
        have := (PrivateKey.hasDuplicate_iff ps []).mpr ⟨h, by simp⟩
        rw [this] at hd; cases hd
      exact .again fuel s _ (Or.inl (by rw [hT1]; exact fun h => hnd h.1)) (by rw [hT2]; exact ih _)
    | false =>
      have hnd := ((PrivateKey.hasDuplicate_iff ps []).mp hd).1
      simp only [Bool.false_eq_true, if_false]
      rw [hm, Res.ok_bind]
      by_cases hb : m.toBoxedUint.bits ≠ bitSize
      · rw [if_pos hb]
        exact .again fuel s _ (Or.inl (by
          rw [hT1]; rintro ⟨_, h⟩; apply hb; rw [bits_eq_size, hmv]; exact h)) (by rw [hT2]; exact ih _)
      · rw [if_neg hb]
        rw [not_not] at hb
        have hgood : Spec.GoodProduct bitSize ps := ⟨hnd, by rw [← hmv, ← bits_eq_size]; exact hb⟩
        match ps, hlen with
        | [], hlen => simp at hlen; omega
        | p :: ps', hlen =>
          have hwid : Spec.totientLimbs (p :: ps') = ((p :: ps').map BoxedUint.nlimbs).sum + p.nlimbs := rfl
          have hprec : ((p :: ps').map BoxedUint.prec).sum + p.prec = 64 * Spec.totientLimbs (p :: ps') := by
            rw [sum_prec, hwid]; unfold prec; ring
          have hex := euler_exact (p := p) (ps := ps') (e := e) (by omega) (fun x hx => by have := (hps x hx).1; omega)
          rw [hprec] at hex
          rcases hex with ⟨hw, hp⟩ | ⟨hw, ⟨hco, d, hd⟩ | ⟨hco, herr⟩⟩
          · rw [hp]
            exact .wide fuel s (by rw [hT1]; exact hgood) (by rw [hT1]; unfold prec at hw; omega)
          · rw [hd]
            have hpos : ∀ x ∈ p :: ps', 0 < x.val := fun x hx => by have := (hps x hx).1; omega
            obtain ⟨hd1, hd2, _⟩ := (euler_spec (by omega) hpos).1 d hd
            have hgt := totient_gt_one (ps := p :: ps') (by omega) (fun x hx => (hps x hx).1)
            have : Spec.IsComponents e (p :: ps') ⟨m, e, d, p :: ps'⟩ :=
              ⟨rfl, rfl, hmv, hml, hd1, by
                have h3 : e.val * d.val % Spec.totient (p :: ps') = 1 % Spec.totient (p :: ps') := hd2
                rw [h3, Nat.mod_eq_of_lt hgt], by
                rw [hwid]; exact euler_width_all (by omega) hpos hd⟩
            have := Spec.Searches.done (G := G) (nprimes := n) (bitSize := bitSize) (e := e) fuel s
              ⟨m, e, d, p :: ps'⟩ (by rw [hT1]; exact hgood) (by rw [hT1]; unfold prec at hw; omega) (by rw [hT1]; exact this)
            rw [hT2] at this
            exact this
          · rw [herr]
            exact .again fuel s _ (Or.inr (by rw [hT1]; exact ⟨by unfold prec at hw; omega, hco⟩)) (by rw [hT2]; exact ih _)

/-- The specification of the search has one outcome at most. -/
theorem searches_unique {σ : Type} {G : PrimeGen σ} {n bitSize : Nat} {e : BoxedUint} (hn : 2 ≤ n)
    (h2 : 2 * n ≤ Spec.totalBits n bitSize)
    (hG : ∀ b ∈ Spec.shares n (Spec.totalBits n bitSize), 2 ≤ b → Spec.TopBits G b) {fuel : Nat} {s : σ}
    {r r' : Res (Components × σ)} (h : Spec.Searches G n bitSize e fuel s r) (h' : Spec.Searches G n bitSize e fuel s r') :
    r = r' := by
  have hco : ∀ (s : σ) (c : Components), Spec.IsComponents e (Spec.turn G n bitSize s).1 c →
      Nat.Coprime e.val (Spec.totient (Spec.turn G n bitSize s).1) := by
    intro s c hc
    obtain ⟨hl, hps⟩ := turn_spec hn h2 hG s
    have hgt := totient_gt_one (by omega) (fun x hx => (hps x hx).1)
    have h3 : e.val * c.d.val ≡ 1 [MOD Spec.totient (Spec.turn G n bitSize s).1] := by
      show _ % _ = _ % _; rw [hc.d_inverse, Nat.mod_eq_of_lt hgt]
    have h4 : Nat.gcd (e.val * c.d.val) (Spec.totient (Spec.turn G n bitSize s).1) = 1 := by
      have := h3.gcd_eq; simpa using this
    exact Nat.Coprime.coprime_mul_right h4
  induction h with
  | searching s => cases h'; rfl
  | again fuel s r h next ih =>
    cases h' with
    | again _ _ _ _ next' => exact ih next'
    | wide _ _ hg hw =>
      rcases h with h | h
      · exact absurd hg h
      · omega
    | done _ _ c hg hw hc =>
      rcases h with h | h
      · exact absurd hg h
      · exact absurd (hco _ _ hc) h.2
  | wide fuel s hg hw =>
    cases h' with
    | again _ _ _ h _ =>
      rcases h with h | h
      · exact absurd hg h
      · omega
    | wide => rfl
    | done _ _ _ _ hw' _ => omega
  | done fuel s c hg hw hc =>
    cases h' with
    | again _ _ _ h _ =>
      rcases h with h | h
      · exact absurd hg h
      · exact absurd (hco _ _ hc) h.2
    | wide _ _ _ hw' => omega
    | done _ _ c' _ _ hc' =>
      obtain ⟨hl, hps⟩ := turn_spec hn h2 hG s
      rw [isComponents_unique (totient_gt_one (by omega) (fun x hx => (hps x hx).1)) hc hc']

theorem tooSmall_iff (nprimes bitSize : Nat) (hn : 2 ≤ nprimes) : Spec.TooSmall nprimes bitSize ↔
      bitSize < 64 ∧ ¬ (nprimes = 2 ∧ 12 ≤ bitSize ∨ nprimes = 3 ∧ 21 ≤ bitSize ∨ nprimes = 4 ∧ 28 ≤ bitSize ∨
        5 ≤ nprimes ∧ 8 * nprimes ≤ bitSize) := by
  unfold Spec.TooSmall
  match nprimes with
  | 0 => omega
  | 1 => omega
  | 2 => show bitSize < 12 ↔ _; omega
  | 3 => show bitSize < 21 ↔ _; omega
  | 4 => show bitSize < 28 ↔ _; omega
  | n + 5 => simp only []; omega

/-- C83: generation of a key with any number of primes, any size below 2^32 bits and any exponent, by a prime search that
returns odd numbers of the requested length with the two top bits set: the outcome is the one described in
`Spec/GenerateOutcome`, for every course of the search and every number of turns allowed. -/
theorem C83_components {σ : Type} (G : PrimeGen σ) (nprimes bitSize : Nat) (e : BoxedUint) (h32 : bitSize < 2 ^ 32)
    (hG : ∀ b ∈ Spec.shares nprimes (Spec.totalBits nprimes bitSize), 2 ≤ b → Spec.TopBits G b) (fuel : Nat) (s : σ)
    (r : Res (Components × σ)) :
    generateMultiPrimeKeyWithExp G fuel s nprimes bitSize e = r ↔ Spec.Generates G nprimes bitSize e fuel s r := by
  have hfun : Spec.Generates G nprimes bitSize e fuel s (generateMultiPrimeKeyWithExp G fuel s nprimes bitSize e) := by
    by_cases hn : nprimes < 2
    · have : generateMultiPrimeKeyWithExp G fuel s nprimes bitSize e = .err .nprimesTooSmall := by
        unfold generateMultiPrimeKeyWithExp; rw [if_pos hn]
      rw [this]; exact .fewPrimes hn
    have hn2 : 2 ≤ nprimes := by omega
    by_cases hs : Spec.TooSmall nprimes bitSize
    · rw [(C73_refused G fuel s nprimes bitSize e hn2).mpr ((tooSmall_iff _ _ hn2).mp hs)]
      exact .small hn2 hs
    have hrun : generateMultiPrimeKeyWithExp G fuel s nprimes bitSize e = generateLoop G nprimes bitSize e fuel s := by
      have hne : generateMultiPrimeKeyWithExp G fuel s nprimes bitSize e ≠ .err .tooFewPrimes := fun h =>
        hs ((tooSmall_iff _ _ hn2).mpr ((C73_refused G fuel s nprimes bitSize e hn2).mp h))
      unfold generateMultiPrimeKeyWithExp at hne ⊢
      rw [if_neg hn] at hne ⊢
      split
      · next h => rw [if_pos h] at hne; exact absurd rfl hne
      · rfl
    rw [hrun]
    by_cases hb : 2 * nprimes ≤ Spec.totalBits nprimes bitSize
    · have hdiv : Spec.totalBits nprimes bitSize / nprimes + 1 < 2 ^ 32 := by
        have h1 : Spec.totalBits nprimes bitSize ≤ bitSize + nprimes := by
          unfold Spec.totalBits; split <;> omega
        have h2 : (bitSize + nprimes) / nprimes = bitSize / nprimes + 1 := Nat.add_div_right _ (by omega)
        have h3 : bitSize / nprimes ≤ bitSize / 2 := Nat.div_le_div_left hn2 (by omega)
        have h4 := Nat.div_le_div_right (c := nprimes) h1
        omega
      exact .search hn2 hs hb _ (generateLoop_searches e hn2 hb hdiv hG fuel s)
    · match fuel with
      | 0 => exact .noTurn hn2 hs rfl
      | fuel + 1 =>
        have hpanic : generateLoop G nprimes bitSize e (fuel + 1) s = .panic .unwrap := by
          unfold generateLoop
          have htotal : (if nprimes ≥ 7 then bitSize + (nprimes - 2) / 5 else bitSize) =
              Spec.totalBits nprimes bitSize := by
            unfold Spec.totalBits; split <;> simp
          simp only [htotal]
          obtain ⟨left, rfl⟩ : ∃ left, nprimes = left + 1 := ⟨nprimes - 1, by omega⟩
          have hq : Spec.totalBits (left + 1) bitSize / (left + 1) < 2 := Nat.div_lt_of_lt_mul (by omega)
          have : generatePrimes G (left + 1) (Spec.totalBits (left + 1) bitSize) s = .panic .unwrap := by
            unfold generatePrimes
            rw [Nat.mod_eq_of_lt (by omega)]
            unfold generatePrimeWithRng
            simp only [if_pos hq]
            rfl
          rw [this]
          rfl
        rw [hpanic]
        exact .noSieve hn2 hs (by omega) (by omega)
  constructor
  · rintro rfl; exact hfun
  · intro h
    revert hfun
    generalize generateMultiPrimeKeyWithExp G fuel s nprimes bitSize e = r'
    intro h'
    cases h with
    | fewPrimes hn => cases h' <;> first | rfl | omega
    | small hn hs => cases h' <;> first | rfl | omega | (exfalso; contradiction)
    | noTurn hn hs hf =>
      cases h' with
      | fewPrimes => omega
      | small _ hs' => exact absurd hs' hs
      | noTurn => rfl
      | noSieve _ _ hf' => omega
      | search _ _ _ _ hr => subst hf; cases hr; rfl
    | noSieve hn hs hf hb =>
      cases h' with
      | fewPrimes => omega
      | small _ hs' => exact absurd hs' hs
      | noTurn _ _ hf' => omega
      | noSieve => rfl
      | search _ _ hb' => omega
    | search hn hs hb _ hr =>
      cases h' with
      | fewPrimes => omega
      | small _ hs' => exact absurd hs' hs
      | noTurn _ _ hf' => subst hf'; cases hr; rfl
      | noSieve _ _ _ hb' => omega
      | search _ _ _ _ hr' => exact searches_unique hn hb hG hr' hr

/-- Three primes of 8 bits. The first turn has a product of 23 bits only, the second a repeated prime, the third one for
which 5 is no exponent. -/
def Ex.three : PrimeGen Nat :=
  ⟨fun s _ => (wrap 1 ([193, 197, 199, 251, 241, 251, 211, 223, 227, 223, 227, 229][s % 12]?.getD 223), s + 1)⟩

theorem Ex.three_top : ∀ b ∈ Spec.shares 3 (Spec.totalBits 3 24), 2 ≤ b → Spec.TopBits Ex.three b := by
  have h8 : ∀ b ∈ Spec.shares 3 (Spec.totalBits 3 24), b = 8 := by decide
  intro b hb _
  rw [h8 b hb]
  have key : ∀ i < 12, let v := ([193, 197, 199, 251, 241, 251, 211, 223, 227, 223, 227, 229] : List Nat)[i]?.getD 223
      192 ≤ v ∧ v < 256 ∧ v % 2 = 1 := by decide
  have hval : ∀ s, (Ex.three.gen s 8).1.val =
      ([193, 197, 199, 251, 241, 251, 211, 223, 227, 223, 227, 229] : List Nat)[s % 12]?.getD 223 := by
    intro s
    have := key (s % 12) (Nat.mod_lt _ (by omega))
    exact Nat.mod_eq_of_lt (lt_trans this.2.1 (by norm_num))
  constructor <;> intro s
  · rw [hval]; exact (key (s % 12) (Nat.mod_lt _ (by omega))).1
  · rw [hval]; exact (key (s % 12) (Nat.mod_lt _ (by omega))).2.1
  · rw [hval]; exact (key (s % 12) (Nat.mod_lt _ (by omega))).2.2
  · rfl

/-- The whole course of the search, and what is found in its fourth turn: 223 * 227 * 229. -/
example : ∃ c, generateMultiPrimeKeyWithExp Ex.three 4 0 3 24 (wrap 1 5) = .ok (c, 12) ∧ c.n.toBoxedUint.val = 11592209 ∧
    Spec.Generates Ex.three 3 24 (wrap 1 5) 4 0 (.ok (c, 12)) ∧
    Spec.Generates Ex.three 3 24 (wrap 1 5) 3 0 .loop ∧ Spec.Generates Ex.three 3 24 (wrap 9 5) 3 0 (.panic .precision) ∧
    Spec.Generates Ex.three 40 64 (wrap 1 5) 1 0 (.panic .unwrap) := by
  have hrun : (match generateMultiPrimeKeyWithExp Ex.three 4 0 3 24 (wrap 1 5) with
    | .ok (c, s) => decide (s = 12 ∧ c.n.toBoxedUint.val = 11592209) | _ => false) = true := by decide +kernel
  cases h : generateMultiPrimeKeyWithExp Ex.three 4 0 3 24 (wrap 1 5) with
  | ok x =>
    obtain ⟨c, s⟩ := x
    rw [h] at hrun
    obtain ⟨rfl, hn⟩ := of_decide_eq_true hrun
    refine ⟨c, rfl, hn, (C83_components _ 3 24 _ (by omega) Ex.three_top _ _ _).mp h,
      (C83_components _ 3 24 _ (by omega) Ex.three_top _ _ _).mp ?_,
      (C83_components _ 3 24 _ (by omega) Ex.three_top _ _ _).mp ?_, ?_⟩
    · have : (match generateMultiPrimeKeyWithExp Ex.three 3 0 3 24 (wrap 1 5) with | .loop => true | _ => false) = true := by
        decide +kernel
      split at this
      · assumption
      · cases this
    · have : (match generateMultiPrimeKeyWithExp Ex.three 3 0 3 24 (wrap 9 5) with
          | .panic .precision => true | _ => false) = true := by decide +kernel
      split at this
      · assumption
      · cases this
    · exact .noSieve (by omega) (by unfold Spec.TooSmall; decide) (by omega) (by decide)
  | err _ => rw [h] at hrun; cases hrun
  | panic _ => rw [h] at hrun; cases hrun
  | loop => rw [h] at hrun; cases hrun

/-- C83: `RsaPrivateKey::new_with_exp` for any size below 2^32 bits and any exponent. Below 12 bits it is refused;
otherwise it searches as described, and what the search found becomes a well-formed key with its CRT values, or is refused
for exactly the reasons for which any public key is. -/
theorem C83_new_with_exp {σ : Type} (G : PrimeGen σ) (hP : Spec.PrimeSearch G) (bitSize : Nat) (e : BoxedUint)
    (h32 : bitSize < 2 ^ 32) (hG : ∀ b ∈ Spec.shares 2 bitSize, 2 ≤ b → Spec.TopBits G b) (fuel : Nat) (s : σ) :
    (bitSize < 12 → PrivateKey.newWithExp G fuel s bitSize e = .err .tooFewPrimes) ∧
    (12 ≤ bitSize → ∃ r, Spec.Searches G 2 bitSize e fuel s r ∧ match r with
      | .ok (c, s') =>
        (∀ er, PrivateKey.newWithExp G fuel s bitSize e = .err er ↔
          Spec.PublicError c.n.toBoxedUint.prec c.n.toBoxedUint.val e.val er) ∧
        (Spec.PublicOk c.n.toBoxedUint.prec c.n.toBoxedUint.val e.val →
          ∃ k, PrivateKey.newWithExp G fuel s bitSize e = .ok (k, s') ∧ Spec.WellFormed k ∧ k.pub.n = c.n.toBoxedUint ∧
            k.pub.e = e ∧ k.d = c.d ∧ k.primes = c.primes ∧ k.precomputed ≠ none)
      | .panic x => PrivateKey.newWithExp G fuel s bitSize e = .panic x
      | .loop => PrivateKey.newWithExp G fuel s bitSize e = .loop
      | .err _ => False) := by
  have hsmall : Spec.TooSmall 2 bitSize ↔ bitSize < 12 := Iff.rfl
  have htb : Spec.totalBits 2 bitSize = bitSize := rfl
  have hunf : PrivateKey.newWithExp G fuel s bitSize e = (generateMultiPrimeKeyWithExp G fuel s 2 bitSize e >>= fun x =>
    PrivateKey.fromComponents x.1.n x.1.e x.1.d x.1.primes >>= fun k => .ok (k, x.2)) := rfl
  have hex := C83_components G 2 bitSize e h32 (by rw [htb]; exact hG) fuel s
  constructor
  · intro h
    rw [hunf, (hex _).mpr (.small le_rfl (hsmall.mpr h))]
    rfl
  · intro h12
    have hgen := (hex _).mp rfl
    generalize hr : generateMultiPrimeKeyWithExp G fuel s 2 bitSize e = r at hgen
    refine ⟨r, ?_, ?_⟩
    · cases hgen with
      | fewPrimes h => omega
      | small _ h => have := hsmall.mp h; omega
      | noTurn _ _ hf => subst hf; exact .searching s
      | noSieve _ _ _ hb => rw [htb] at hb; omega
      | search _ _ _ _ hr => exact hr
    · rw [hunf]
      cases r with
      | panic x => rw [hr]; rfl
      | loop => rw [hr]; rfl
      | err er =>
        rcases (C32_errors_partial G fuel s 2 bitSize e er).mp hr with ⟨h, _⟩ | ⟨_, _, _, rfl⟩
        · omega
        · have := (C73_refused G fuel s 2 bitSize e le_rfl).mp hr
          omega
      | ok x =>
        obtain ⟨c, s'⟩ := x
        obtain ⟨_, hl, hprime, hnd, hnv, hsz, he, hdlt, hdinv, hwf⟩ := C31_components G hP _ _ _ _ _ _ _ hr
        have hodd : ∀ p ∈ c.primes, p.val % 2 = 1 := by
          intro p hp
          have h1 : c.n.toBoxedUint.val % 2 = 1 := c.n.odd
          have h2 : p.val ∣ c.n.toBoxedUint.val := by
            rw [hnv]; exact List.dvd_prod (List.mem_map.mpr ⟨p, hp, rfl⟩)
          rcases Nat.mod_two_eq_zero_or_one p.val with h | h
          · have h3 : 2 ∣ c.n.toBoxedUint.val := dvd_trans (by omega) h2
            omega
          · exact h
        have hthree : ∀ p ∈ c.primes, 3 ≤ p.val := by
          intro p hp; have := (hprime p hp).two_le; have := hodd p hp; omega
        have hsearch : Spec.Searches G 2 bitSize e fuel s (.ok (c, s')) := by
          cases hgen with
          | search _ _ _ _ hr => exact hr
        have hwidth : (c.primes.map BoxedUint.nlimbs).sum ≤ c.d.nlimbs ∧
            c.n.toBoxedUint.nlimbs = (c.primes.map BoxedUint.nlimbs).sum := by
          clear hr hgen hunf hex
          generalize hr : (Res.ok (c, s') : Res (Components × σ)) = r at hsearch
          induction hsearch with
          | searching => cases hr
          | again _ _ _ _ _ ih => exact ih hr
          | wide => cases hr
          | done _ _ c' _ _ hc =>
            obtain ⟨rfl, _⟩ := Prod.mk.inj (Res.ok.inj hr)
            rw [hc.primes]
            refine ⟨?_, hc.n_limbs⟩
            rw [hc.d_limbs]; unfold Spec.totientLimbs; omega
        have hne : c.primes ≠ [] := by intro h0; rw [h0] at hl; simp at hl
        have hd1 : 1 ≤ c.d.nlimbs := by have := c.n.nlimbs_pos; omega
        have hmod : ∀ p ∈ c.primes, c.d.val * c.e.val % (p.val - 1) = 1 := by
          intro p hp
          have h3 := hthree p hp
          rw [he, mul_comm]
          refine mod_eq_one_of_modEq hdinv ?_ (by omega)
          exact List.dvd_prod (List.mem_map.mpr ⟨p, hp, rfl⟩)
        have hprod : (c.primes.map BoxedUint.val).prod % 2 ^ c.n.toBoxedUint.prec = c.n.toBoxedUint.val := by
          rw [← hnv]; exact Nat.mod_eq_of_lt c.n.toBoxedUint.isLt
        have hple : ∀ p ∈ c.primes, p.prec ≤ c.d.prec := by
          intro p hp
          have := le_sum_nlimbs hp
          unfold prec; omega
        have hfok : ∀ b, c.d.prec ≤ b → ∀ p ∈ c.primes, Spec.FactorOk (c.d.val * c.e.val) b p := by
          intro b hb p hp
          exact ⟨le_trans (hple p hp) hb, by have := hthree p hp; omega, hmod p hp⟩
        have hnofirst : ∀ bad : BoxedUint → Prop, (∀ p, Spec.FactorOk (c.d.val * c.e.val) (2 * c.d.prec) p → ¬ bad p) →
            ¬ Spec.FirstFactor (c.d.val * c.e.val) (2 * c.d.prec) c.primes bad := by
          rintro bad hb ⟨pre, p, post, heq, _, hbad⟩
          exact hb p (hfok _ (by omega) p (by rw [heq]; simp)) hbad
        have hnoerr : ∀ er, ¬ Spec.FactorError c.n.toBoxedUint.prec c.n.toBoxedUint.val (c.d.val * c.e.val) c.d.prec
            c.primes er := by
          intro er her
          cases er <;> try exact her
          · obtain ⟨p, hp, h0⟩ := her
            have := hthree p hp; omega
          · exact her.2 hprod
          · exact hnofirst _ (fun p hp hb => hb.2.2 hp.2.2) her.2
        have hC := C74_from_components c.n c.e c.d c.primes hd1 hne
        have hpub : ∀ er, PrivateKey.fromComponents c.n c.e c.d c.primes = .err er ↔
            Spec.PublicError c.n.toBoxedUint.prec c.n.toBoxedUint.val e.val er := by
          intro er
          rw [hC.1 er, he]
          constructor
          · rintro (⟨h, _⟩ | ⟨_, h | ⟨_, h⟩⟩)
            · omega
            · exact h
            · rw [← he] at h; exact absurd h (hnoerr er)
          · intro h; exact Or.inr ⟨by omega, Or.inl h⟩
        have hnopanic : ¬ (PrivateKey.fromComponents c.n c.e c.d c.primes).Panics := by
          rw [hC.2.1]
          rintro ⟨_, _, h | ⟨_, _, p, hp, h⟩⟩
          · refine hnofirst _ ?_ h.2
            rintro p hp (hb | hb)
            · have := hp.1; omega
            · have := hp.2.1; omega
          · have := hple p (List.mem_of_mem_take hp); omega
        simp only
        constructor
        · intro er
          rw [← hpub er, hr, Res.ok_bind]
          cases hf : PrivateKey.fromComponents c.n c.e c.d c.primes with
          | ok k => exact ⟨fun h => (by cases h), fun h => (by cases h)⟩
          | err e' => exact ⟨fun h => (by cases h; rfl), fun h => (by cases h; rfl)⟩
          | panic x => rw [hf] at hnopanic; exact absurd trivial hnopanic
          | loop => exact absurd hf hC.2.2
        · intro hok
          cases hf : PrivateKey.fromComponents c.n c.e c.d c.primes with
          | ok k =>
            obtain ⟨hkn, hke, _, hkd, hkp, _, _, _, hsome⟩ := PrivateKey.fromComponents_ok hne hf
            refine ⟨k, by rw [hr, Res.ok_bind, hf]; rfl, hwf k hf, hkn, by rw [hke, he], hkd, hkp, ?_⟩
            intro hnone
            obtain ⟨er, herr⟩ := hsome hnone
            match hcp : c.primes, hl with
            | [p, q], _ =>
              have hp : p ∈ c.primes := by rw [hcp]; simp
              have hq : q ∈ c.primes := by rw [hcp]; simp
              have hpq : p.val ≠ q.val := by rw [hcp] at hnd; simpa using hnd
              have h1 := hple p hp
              have h2 := hple q hq
              have h3 := hthree p hp
              have h4 := hthree q hq
              obtain ⟨pre, hpre⟩ := precomputeValues_exists (rest := []) hd1 (by unfold prec at h1; omega)
                (by unfold prec at h2; omega) (hodd p hp) (hodd q hq) (by omega) (by omega)
                ((Nat.coprime_primes (hprime q hq) (hprime p hp)).mpr (Ne.symm hpq))
              rw [hcp, hpre] at herr
              cases herr
          | err e' =>
            have := (hpub e').mp hf
            exact absurd hok this.not_ok
          | panic x => rw [hf] at hnopanic; exact absurd trivial hnopanic
          | loop => exact absurd hf hC.2.2

/-- A run from 64 bits: two equal primes first, then a usable pair. -/
example : Spec.PrimeSearch Ex.alternating ∧ (∀ b ∈ Spec.shares 2 64, 2 ≤ b → Spec.TopBits Ex.alternating b) ∧
    (∀ e : BoxedUint, PrivateKey.newWithExp Ex.alternating 0 0 11 e = .err .tooFewPrimes) ∧
    (match PrivateKey.newWithExp Ex.alternating 2 0 64 (wrap 1 65537) with | .ok (_, 4) => true | _ => false) = true ∧
    (match PrivateKey.newWithExp Ex.alternating 2 0 64 (wrap 1 1) with
      | .err .publicExponentTooSmall => true | _ => false) = true ∧
    (match PrivateKey.newWithExp Ex.alternating 2 0 64 (wrap 4 65537) with
      | .panic .precision => true | _ => false) = true := by
  refine ⟨Ex.alternating_prime, ?_, fun e => rfl, by decide +kernel, by decide +kernel, by decide +kernel⟩
  have h32 : ∀ b ∈ Spec.shares 2 64, b = 32 := by decide
  intro b hb _
  rw [h32 b hb]
  exact Ex.alternating_top.1

end RSA
