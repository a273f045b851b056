import Verif.Proof.WordsPrimes
import Verif.Spec.WordsGenerate

/-! Key generation on machines with words of `w` octets. -/
namespace RSA.words
open Uint
open Spec

variable {w w' : Nat} {σ : Type}

theorem WordsSameResult_bind {α β γ δ : Type} {r : α → β → Prop} {q : γ → δ → Prop} {x : Res α} {y : Res β} {f : α → Res γ}
    {g : β → Res δ} (h : WordsSameResult r x y) (hfg : ∀ a b, x = .ok a → y = .ok b → r a b → WordsSameResult q (f a) (g b)) :
    WordsSameResult q (x >>= f) (y >>= g) := by
  cases x <;> cases y <;> first | exact h.elim | exact h | exact hfg _ _ rfl rfl h

/-- Drawing primes on two machines. -/
theorem generatePrimes_same {G : Search w σ} {G' : Search w' σ} (hs : WordsSameDraws G G') : ∀ (left todo : Nat) (s : σ),
    WordsSameResult (fun a b => b.1.map Uint.val = a.1.map Uint.val ∧ b.2 = a.2) (generatePrimes G left todo s)
      (generatePrimes G' left todo s) := by
  intro left
  induction left with
  | zero => intro todo s; exact ⟨rfl, rfl⟩
  | succ left ih =>
    intro todo s
    unfold generatePrimes generatePrime
    by_cases hb : todo / (left + 1) % 2 ^ 32 < 2
    · simp only [if_pos hb]; rfl
    · simp only [if_neg hb, Res.ok_bind]
      obtain ⟨h1, h2⟩ := hs s (todo / (left + 1) % 2 ^ 32)
      have hbits : (G'.gen s (todo / (left + 1) % 2 ^ 32)).1.bits = (G.gen s (todo / (left + 1) % 2 ^ 32)).1.bits := by
        unfold Uint.bits; rw [h1]
      rw [hbits, h2]
      cases subU todo (G.gen s (todo / (left + 1) % 2 ^ 32)).1.bits with
      | ok t =>
        simp only [Res.ok_bind]
        refine WordsSameResult_bind (ih t _) ?_
        rintro ⟨a1, a2⟩ ⟨b1, b2⟩ - - ⟨g1, g2⟩
        refine ⟨?_, g2⟩
        simp only [List.map_cons, h1, g1]
      | err e => rfl
      | panic k => rfl
      | loop => trivial

theorem generatePrimes_ok {G : Search w σ} : ∀ (left todo : Nat) (s s' : σ) (ps : List (Uint w)),
    generatePrimes G left todo s = .ok (ps, s') → ps.length = left ∧ ∀ p ∈ ps, ∃ t b, 2 ≤ b ∧ p = (G.gen t b).1 := by
  intro left
  induction left with
  | zero =>
    intro todo s s' ps h
    obtain ⟨rfl, -⟩ := Prod.mk.inj (Res.ok.inj h)
    exact ⟨rfl, by simp⟩
  | succ left ih =>
    intro todo s s' ps h
    unfold generatePrimes generatePrime at h
    by_cases hb : todo / (left + 1) % 2 ^ 32 < 2
    · simp only [if_pos hb] at h; cases h
    · simp only [if_neg hb, Res.ok_bind] at h
      rw [Res.bind_eq_ok] at h
      obtain ⟨t, -, h⟩ := h
      rw [Res.bind_eq_ok] at h
      obtain ⟨⟨rest, s1⟩, hr, h⟩ := h
      obtain ⟨rfl, -⟩ := Prod.mk.inj (Res.ok.inj h)
      obtain ⟨l1, l2⟩ := ih _ _ _ _ hr
      refine ⟨by simp [l1], ?_⟩
      intro p hp
      rcases List.mem_cons.mp hp with rfl | hp
      · exact ⟨s, _, by omega, rfl⟩
      · exact l2 p hp

theorem hasDuplicate_vals {ps : List (Uint w)} {ps' : List (Uint w')} (h : ps'.map Uint.val = ps.map Uint.val) :
    hasDuplicate [] ps' = hasDuplicate [] ps := by
  have h1 := hasDuplicate_iff ps []
  have h2 := hasDuplicate_iff ps' []
  rw [h] at h2
  simp only [List.not_mem_nil, false_implies, implies_true, and_true] at h1 h2
  cases ha : hasDuplicate [] ps <;> cases hb : hasDuplicate [] ps' <;> simp_all

theorem length_le_sum {ps : List (Uint w)} (h : ∀ p ∈ ps, 0 < p.val) : ps.length ≤ (ps.map Uint.nlimbs).sum := by
  induction ps with
  | nil => simp
  | cons p ps ih =>
    have h1 := Uint.nlimbs_pos p (h p (List.mem_cons_self ..))
    have h2 := ih (fun q hq => h q (List.mem_cons_of_mem _ hq))
    rw [List.length_cons, List.map_cons, List.sum_cons]
    omega

/-- The same components on two machines. -/
def SameParts (a : Parts w × σ) (b : Parts w' × σ) : Prop := b.2 = a.2 ∧ b.1.n.val = a.1.n.val ∧ b.1.e.val = a.1.e.val ∧
  b.1.d.val = a.1.d.val ∧ b.1.primes.map Uint.val = a.1.primes.map Uint.val

theorem generateLoop_same (hw : 0 < w) (hw' : 0 < w') {G : Search w σ} {G' : Search w' σ} (hs : WordsSameDraws G G')
    (hG : WordsPrimeSearch G) {np bitSize : Nat} (h2 : 2 ≤ np) {e : Uint w} {e' : Uint w'} (ee : e'.val = e.val)
    (el : e.nlimbs ≤ np + 1) (el' : e'.nlimbs ≤ np + 1) : ∀ (fuel : Nat) (s : σ),
    WordsSameResult SameParts (generateLoop G np bitSize e fuel s) (generateLoop G' np bitSize e' fuel s) := by
  intro fuel
  induction fuel with
  | zero => intro s; trivial
  | succ fuel ih =>
    intro s
    unfold generateLoop
    refine WordsSameResult_bind (generatePrimes_same hs _ _ _) ?_
    rintro ⟨ps, t⟩ ⟨ps', t'⟩ hps hps' ⟨hv, ht⟩
    simp only at hv ht ⊢
    subst ht
    rw [hasDuplicate_vals hv]
    by_cases hd : hasDuplicate [] ps = true
    · rw [if_pos hd, if_pos hd]; exact ih t'
    rw [if_neg hd, if_neg hd]
    obtain ⟨l1, hall⟩ := generatePrimes_ok _ _ _ _ _ hps
    obtain ⟨l2, -⟩ := generatePrimes_ok _ _ _ _ _ hps'
    have hp : ∀ x ∈ ps, 1 < x.val := by
      intro x hx
      obtain ⟨u, b, hb, rfl⟩ := hall x hx
      exact (hG u b hb).one_lt
    have hp' : ∀ x ∈ ps', 1 < x.val := by
      intro x hx
      have : x.val ∈ ps.map Uint.val := hv ▸ List.mem_map_of_mem hx
      obtain ⟨y, hy, hye⟩ := List.mem_map.mp this
      rw [← hye]; exact hp y hy
    match ps, ps', l1, l2, hp, hp', hv with
    | [], _, l1, _, _, _, _ => rw [List.length_nil] at l1; omega
    | _ :: _, [], _, l2, _, _, _ => rw [List.length_nil] at l2; omega
    | p :: ps, p' :: ps', l1, l2, hp, hp', hv =>
      obtain ⟨n, hn, nv, -⟩ := product_eq (ps := p :: ps) (by simp)
      obtain ⟨n', hn', nv', -⟩ := product_eq (ps := p' :: ps') (by simp)
      have hnn : n'.val = n.val := by rw [nv, nv', hv]
      rw [hn, hn', Res.ok_bind, Res.ok_bind]
      by_cases ho : n.val % 2 = 1
      · have ho' : n'.val % 2 = 1 := by rw [hnn]; exact ho
        rw [dif_pos ho, dif_pos ho']
        have hbits : n'.bits = n.bits := by unfold Uint.bits; rw [hnn]
        rw [hbits]
        by_cases hb : n.bits ≠ bitSize
        · rw [if_pos hb, if_pos hb]; exact ih t'
        rw [if_neg hb, if_neg hb]
        rw [List.length_cons] at l1 l2
        have f : e.nlimbs ≤ p.nlimbs + ((p :: ps).map Uint.nlimbs).sum := by
          have := length_le_sum (ps := p :: ps) (fun x hx => by have := hp x hx; omega)
          have := Uint.nlimbs_pos p (by have := hp p (List.mem_cons_self ..); omega)
          rw [List.length_cons] at *
          omega
        have f' : e'.nlimbs ≤ p'.nlimbs + ((p' :: ps').map Uint.nlimbs).sum := by
          have := length_le_sum (ps := p' :: ps') (fun x hx => by have := hp' x hx; omega)
          have := Uint.nlimbs_pos p' (by have := hp' p' (List.mem_cons_self ..); omega)
          rw [List.length_cons] at *
          omega
        have htot : ((p' :: ps').map (fun p => p.val - 1)).prod = ((p :: ps).map (fun p => p.val - 1)).prod := by
          have h1 : (p' :: ps').map (fun p => p.val - 1) = ((p' :: ps').map Uint.val).map (fun x => x - 1) := by simp
          have h2 : (p :: ps).map (fun p => p.val - 1) = ((p :: ps).map Uint.val).map (fun x => x - 1) := by simp
          rw [h1, h2, hv]
        obtain ⟨a1, a2⟩ := euler_spec hw (e := e) (p := p) (ps := ps) (by omega) hp
        obtain ⟨b1, b2⟩ := euler_spec hw' (e := e') (p := p') (ps := ps') (by omega) hp'
        rw [htot, ee] at b1 b2
        rcases euler_fits hw (e := e) (p := p) (ps := ps) (by omega) hp f with ⟨d, hd⟩ | hd
        · obtain ⟨-, -, dlt, dm⟩ := (a1 d).mp hd
          obtain ⟨d', hd'⟩ := b2.mpr ⟨f', (a2.mp ⟨d, hd⟩).2⟩
          obtain ⟨-, -, dlt', dm'⟩ := (b1 d').mp hd'
          rw [hd, hd']
          refine ⟨rfl, hnn, ee, ?_, hv⟩
          have hco := Nat.coprime_of_mul_modEq_one _ dm
          exact Nat.ModEq.eq_of_lt_of_lt (Nat.ModEq.cancel_left_of_coprime hco.symm (dm'.trans dm.symm)) dlt' dlt
        · rcases euler_fits hw' (e := e') (p := p') (ps := ps') (by omega) hp' f' with ⟨d', hd'⟩ | hd'
          · obtain ⟨d, hd1⟩ := a2.mpr ⟨f, (b2.mp ⟨d', hd'⟩).2⟩
            rw [hd] at hd1; cases hd1
          · rw [hd, hd']; exact ih t'
      · rw [dif_neg ho, dif_neg (by rw [hnn]; exact ho)]
        rfl

/-- What a finished search has found. -/
theorem generateLoop_ok {G : Search w σ} {np bitSize : Nat} {e : Uint w} : ∀ (fuel : Nat) (s s' : σ) (c : Parts w),
    generateLoop G np bitSize e fuel s = .ok (c, s') → ∃ t t', generatePrimes G np
        (if np ≥ 7 then bitSize + (np - 2) / 5 else bitSize) t = .ok (c.primes, t') ∧
      hasDuplicate [] c.primes = false ∧ product c.primes = .ok c.n ∧ c.n.bits = bitSize ∧
      eulerExponent c.primes e = .ok c.d ∧ c.e = e := by
  intro fuel
  induction fuel with
  | zero => intro s s' c h; cases h
  | succ fuel ih =>
    intro s s' c h
    unfold generateLoop at h
    simp only at h
    rw [Res.bind_eq_ok] at h
    obtain ⟨⟨ps, t'⟩, hps, h⟩ := h
    simp only at h
    by_cases hd : hasDuplicate [] ps = true
    · rw [if_pos hd] at h; exact ih _ _ _ h
    rw [if_neg hd, Res.bind_eq_ok] at h
    obtain ⟨n, hn, h⟩ := h
    by_cases ho : n.val % 2 = 1
    · rw [dif_pos ho] at h
      by_cases hb : n.bits ≠ bitSize
      · rw [if_pos hb] at h; exact ih _ _ _ h
      rw [if_neg hb] at h
      cases hd' : eulerExponent ps e with
      | ok d =>
        rw [hd'] at h
        obtain ⟨rfl, -⟩ := Prod.mk.inj (Res.ok.inj h)
        exact ⟨s, t', hps, by simpa using hd, hn, by simpa using hb, hd', rfl⟩
      | err _ => rw [hd'] at h; exact ih _ _ _ h
      | panic _ => rw [hd'] at h; cases h
      | loop => rw [hd'] at h; cases h
    · rw [dif_neg ho] at h; cases h

/-- Two draws that find numbers of exactly the bits asked for. -/
theorem generatePrimes_two {G : Search w σ} {bitSize : Nat} (hE : WordsExact G (bitSize / 2))
    (hE' : WordsExact G (bitSize - bitSize / 2)) (h32 : bitSize < 2 ^ 32) {s s' : σ} {ps : List (Uint w)} (h : generatePrimes G 2 bitSize s = .ok (ps, s')) : 4 ≤ bitSize ∧ ∃ p q, ps = [p, q] ∧
      p.nlimbs = divCeil (bitSize / 2) (8 * w) ∧ q.nlimbs = divCeil (bitSize - bitSize / 2) (8 * w) := by
  unfold generatePrimes generatePrime at h
  have e1 : bitSize / (1 + 1) % 2 ^ 32 = bitSize / 2 := Nat.mod_eq_of_lt (by omega)
  rw [e1] at h
  by_cases hb : bitSize / 2 < 2
  · simp only [if_pos hb] at h; cases h
  simp only [if_neg hb, Res.ok_bind] at h
  have hbits : (G.gen s (bitSize / 2)).1.bits = bitSize / 2 := by rw [Uint.bits_eq_size, hE.bits]
  have hsub : subU bitSize (bitSize / 2) = .ok (bitSize - bitSize / 2) := by
    unfold subU; rw [if_pos (by omega)]
  rw [hbits, hsub, Res.ok_bind] at h
  unfold generatePrimes generatePrime at h
  have e2 : (bitSize - bitSize / 2) / (0 + 1) % 2 ^ 32 = bitSize - bitSize / 2 := by
    rw [Nat.zero_add, Nat.div_one]; exact Nat.mod_eq_of_lt (by omega)
  rw [e2] at h
  simp only [if_neg (show ¬ bitSize - bitSize / 2 < 2 by omega), Res.ok_bind] at h
  rw [Res.bind_eq_ok] at h
  obtain ⟨⟨rest, s1⟩, hr, h⟩ := h
  rw [Res.bind_eq_ok] at hr
  obtain ⟨t, -, hr⟩ := hr
  unfold generatePrimes at hr
  simp only [Res.ok_bind] at hr
  obtain ⟨rfl, -⟩ := Prod.mk.inj (Res.ok.inj hr)
  obtain ⟨rfl, -⟩ := Prod.mk.inj (Res.ok.inj h)
  exact ⟨by omega, _, _, rfl, hE.limbs _, hE'.limbs _⟩

end RSA.words
