import Verif.Proof.WordsGenerate
import Verif.Proof.Generate
import Verif.Props.WordsPrimes
import Verif.Props.EndToEnd

/-! C107: key generation on machines with words of other sizes. -/
namespace RSA
open Spec
open words (PubKey PrivKey)

variable {w w' : Nat} {σ : Type}

/-! ### Words of eight octets -/

/-- The prime search on a 64-bit machine. -/
def PrimeGen.atWord8 (G : PrimeGen σ) : words.Search 8 σ := ⟨fun s b => ((G.gen s b).1.atWord8, (G.gen s b).2)⟩

/-- The components of a key on a 64-bit machine. -/
def Components.atWord8 (c : Components) : words.Parts 8 :=
  ⟨c.n.toBoxedUint.atWord8, c.n.odd, c.e.atWord8, c.d.atWord8, c.primes.map BoxedUint.atWord8⟩

theorem generatePrimes_word8 (G : PrimeGen σ) : ∀ (left todo : Nat) (s : σ),
    words.generatePrimes G.atWord8 left todo s =
      (generatePrimes G left todo s >>= fun x => .ok (x.1.map BoxedUint.atWord8, x.2)) := by
  intro left
  induction left with
  | zero => intro todo s; rfl
  | succ left ih =>
    intro todo s
    rw [words.generatePrimes, generatePrimes]
    unfold words.generatePrime generatePrimeWithRng
    by_cases hb : todo / (left + 1) % 2 ^ 32 < 2
    · simp only [if_pos hb]; rfl
    · simp only [if_neg hb, Res.ok_bind]
      have h1 : (G.atWord8.gen s (todo / (left + 1) % 2 ^ 32)).1.bits = (G.gen s (todo / (left + 1) % 2 ^ 32)).1.bits := rfl
      have h2 : (G.atWord8.gen s (todo / (left + 1) % 2 ^ 32)).2 = (G.gen s (todo / (left + 1) % 2 ^ 32)).2 := rfl
      rw [h1, h2]
      cases subU todo (G.gen s (todo / (left + 1) % 2 ^ 32)).1.bits with
      | ok t =>
        simp only [Res.ok_bind]
        rw [ih]
        cases generatePrimes G left t (G.gen s (todo / (left + 1) % 2 ^ 32)).2 <;> rfl
      | _ => rfl

theorem generateLoop_word8 (G : PrimeGen σ) (np bitSize : Nat) (e : BoxedUint) : ∀ (fuel : Nat) (s : σ),
    words.generateLoop G.atWord8 np bitSize e.atWord8 fuel s =
      (generateLoop G np bitSize e fuel s >>= fun x => .ok (x.1.atWord8, x.2)) := by
  intro fuel
  induction fuel with
  | zero => intro s; rfl
  | succ fuel ih =>
    intro s
    rw [words.generateLoop, generateLoop]
    simp only [generatePrimes_word8]
    cases generatePrimes G np (if np ≥ 7 then bitSize + (np - 2) / 5 else bitSize) s with
    | ok x =>
      obtain ⟨ps, t⟩ := x
      simp only [Res.ok_bind]
      have hd := hasDuplicate_word8 ps []
      rw [List.map_nil] at hd
      rw [hd]
      by_cases hdup : PrivateKey.hasDuplicate [] ps = true
      · rw [if_pos hdup, if_pos hdup]; exact ih t
      rw [if_neg hdup, if_neg hdup]
      match ps with
      | [] => rfl
      | p :: ps =>
        have hpr : words.product ((p :: ps).map BoxedUint.atWord8) = .ok (ps.foldl BoxedUint.mul p).atWord8 := by
          rw [← foldl_mul_word8]; rfl
        rw [hpr]
        simp only [Res.ok_bind]
        rcases OddUint_new_cases (ps.foldl BoxedUint.mul p) with ⟨ho, hn⟩ | ⟨ho, hn⟩
        · have hc : computeModulus (p :: ps) = .ok ⟨_, ho⟩ := by
            unfold computeModulus
            simp only [hn]
          rw [dif_pos (show (ps.foldl BoxedUint.mul p).atWord8.val % 2 = 1 from ho), hc]
          simp only [Res.ok_bind]
          have hb : (ps.foldl BoxedUint.mul p).atWord8.bits = (ps.foldl BoxedUint.mul p).bits := rfl
          rw [hb]
          by_cases hs : (ps.foldl BoxedUint.mul p).bits ≠ bitSize
          · rw [if_pos hs, if_pos hs]; exact ih t
          rw [if_neg hs, if_neg hs, euler_word8]
          cases computePrivateExponentEulerTotient (p :: ps) e with
          | ok d => rfl
          | err er => exact ih t
          | _ => rfl
        · have hc : computeModulus (p :: ps) = .panic .unwrap := by
            unfold computeModulus
            simp only [hn]
          rw [dif_neg (show ¬ (ps.foldl BoxedUint.mul p).atWord8.val % 2 = 1 from ho), hc]; rfl
    | _ => rfl

/-- C107: with words of eight octets the parametrised functions are those of the rest of the model. -/
theorem C107_word8 (G : PrimeGen σ) (fuel : Nat) (s : σ) (np bitSize : Nat) (e : BoxedUint) :
    words.generate G.atWord8 fuel s np bitSize e.atWord8 =
      (generateMultiPrimeKeyWithExp G fuel s np bitSize e >>= fun x => .ok (x.1.atWord8, x.2)) ∧
    (words.newWithExp G.atWord8 fuel s bitSize e.atWord8 >>= fun x => .ok (x.1.parts, x.2)) =
      (PrivateKey.newWithExp G fuel s bitSize e >>= fun x => .ok (x.1.parts8, x.2)) := by
  have key : ∀ np, words.generate G.atWord8 fuel s np bitSize e.atWord8 =
      (generateMultiPrimeKeyWithExp G fuel s np bitSize e >>= fun x => .ok (x.1.atWord8, x.2)) := by
    intro np
    unfold words.generate generateMultiPrimeKeyWithExp
    split
    · rfl
    split
    · rfl
    exact generateLoop_word8 G np bitSize e fuel s
  refine ⟨key np, ?_⟩
  unfold words.newWithExp PrivateKey.newWithExp
  rw [key 2]
  cases hg : generateMultiPrimeKeyWithExp G fuel s 2 bitSize e with
  | ok x =>
    obtain ⟨c, t⟩ := x
    simp only [Res.ok_bind]
    have hl : c.primes.length = 2 := by
      unfold generateMultiPrimeKeyWithExp at hg
      rw [if_neg (by omega)] at hg
      split at hg
      · cases hg
      exact (generateLoop_ok _ _ _ _ hg).1
    have := fromFactors_word8 c.n.toBoxedUint c.n.odd c.e c.d c.primes (by omega)
    have h1 : words.fromFactors c.atWord8.n c.atWord8.odd c.atWord8.e c.atWord8.d c.atWord8.primes =
      words.fromFactors c.n.toBoxedUint.atWord8 c.n.odd c.e.atWord8 c.d.atWord8 (c.primes.map BoxedUint.atWord8) := rfl
    rw [h1]
    have h2 : PrivateKey.fromComponents ⟨c.n.toBoxedUint, c.n.odd⟩ c.e c.d c.primes =
      PrivateKey.fromComponents c.n c.e c.d c.primes := rfl
    rw [h2] at this
    generalize words.fromFactors c.n.toBoxedUint.atWord8 c.n.odd c.e.atWord8 c.d.atWord8
      (c.primes.map BoxedUint.atWord8) = a at this ⊢
    generalize PrivateKey.fromComponents c.n c.e c.d c.primes = b at this ⊢
    cases a <;> cases b <;> simp_all
  | _ => rfl

/-! ### Any words -/

/-- What generation finds, and what becomes of it. -/
theorem words_generated (hw : 0 < w) {G : words.Search w σ} (hG : WordsPrimeSearch G) {np bitSize fuel : Nat}
    {e : words.Uint w} {s s' : σ} {c : words.Parts w} (h : words.generate G fuel s np bitSize e = .ok (c, s')) :
    (∃ t t', words.generatePrimes G np (if np ≥ 7 then bitSize + (np - 2) / 5 else bitSize) t = .ok (c.primes, t')) ∧
    c.primes.length = np ∧ c.n.val = (c.primes.map words.Uint.val).prod ∧ words.product c.primes = .ok c.n ∧
    c.n.val.size = bitSize ∧ c.e = e ∧
    c.d.val < (c.primes.map (fun p => p.val - 1)).prod ∧ e.val * c.d.val ≡ 1 [MOD (c.primes.map (fun p => p.val - 1)).prod] ∧
    (∀ K, words.fromFactors c.n c.odd c.e c.d c.primes = .ok K → K.pub = ⟨c.n, c.e, c.odd⟩ ∧ K.d = c.d ∧
      K.primes = c.primes ∧ K.precomputed.isSome ∧ WordsWellFormed K) ∧
    ((∃ K, words.fromFactors c.n c.odd c.e c.d c.primes = .ok K) ↔ PublicOk (8 * w * c.n.nlimbs) c.n.val c.e.val) := by
  unfold words.generate at h
  split at h
  · cases h
  next hnp =>
  split at h
  · cases h
  obtain ⟨t, t', h1, h2, h3, h4, h5, h6⟩ := words.generateLoop_ok _ _ _ _ h
  obtain ⟨hl, hall⟩ := words.generatePrimes_ok _ _ _ _ _ h1
  have hprime : ∀ p ∈ c.primes, p.val.Prime := by
    intro p hp
    obtain ⟨u, b, hb, rfl⟩ := hall p hp
    exact hG u b hb
  have hnd := ((words.hasDuplicate_iff c.primes []).mp h2).1
  obtain ⟨p, rest, hpr⟩ : ∃ p rest, c.primes = p :: rest := by
    cases hc : c.primes with
    | nil => rw [hc, List.length_nil] at hl; omega
    | cons p rest => exact ⟨p, rest, rfl⟩
  obtain ⟨n, hn, hnv, hnl⟩ := words.product_eq (ps := c.primes) (by rw [hpr]; simp)
  obtain rfl : c.n = n := Res.ok.inj (h3.symm.trans hn)
  rw [hpr] at h5
  obtain ⟨-, hdl, hdlt, hde⟩ := ((words.euler_spec hw (e := e) (by
    rw [hpr, List.length_cons] at hl; omega) (by rw [← hpr]; exact fun x hx => (hprime x hx).one_lt)).1 c.d).mp h5
  rw [← hpr] at hdl hdlt hde
  have hde' : c.d.val * c.e.val ≡ 1 [MOD (c.primes.map (fun p => p.val - 1)).prod] := by
    rw [h6, Nat.mul_comm]; exact hde
  obtain ⟨g1, g2⟩ := fromFactors_prime hw c.odd (e := c.e) (d := c.d) hprime hnd (by omega) hnv.symm
    (by rw [hnl, hdl]; omega)
    (fun x hx => (words.le_sum_nlimbs hx).trans (by rw [hdl]; omega))
    (by
      intro x hx
      refine mod_eq_one_of_modEq hde' (List.dvd_prod (List.mem_map.mpr ⟨x, hx, rfl⟩)) ?_
      have h2 := (hprime x hx).two_le
      have hodd : x.val % 2 = 1 := by
        have hdvd : x.val ∣ (c.primes.map words.Uint.val).prod := List.dvd_prod (List.mem_map_of_mem hx)
        exact Nat.odd_iff.mp (Odd.of_dvd_nat (Nat.odd_iff.mpr (by rw [← hnv]; exact c.odd)) hdvd)
      omega)
  exact ⟨⟨t, t', h1⟩, hl, hnv, hn, by rw [← words.Uint.bits_eq_size]; exact h4, h6, hdlt, hde, g1, g2⟩

theorem newWithExp_ok {G : words.Search w σ} {bitSize fuel : Nat} {e : words.Uint w} {s s' : σ} {K : PrivKey w}
    (h : words.newWithExp G fuel s bitSize e = .ok (K, s')) : ∃ c, words.generate G fuel s 2 bitSize e = .ok (c, s') ∧
      words.fromFactors c.n c.odd c.e c.d c.primes = .ok K := by
  unfold words.newWithExp at h
  rw [Res.bind_eq_ok] at h
  obtain ⟨⟨c, s1⟩, h1, h⟩ := h
  rw [Res.bind_eq_ok] at h
  obtain ⟨k, h2, h⟩ := h
  obtain ⟨rfl, rfl⟩ := Prod.mk.inj (Res.ok.inj h)
  exact ⟨c, h1, h2⟩

/-- C107: a generated key is well-formed on every machine, has the size asked for and the least private exponent. -/
theorem C107_key (hw : 0 < w) (G : words.Search w σ) (hG : WordsPrimeSearch G) (fuel : Nat) (s s' : σ) (bitSize : Nat)
    (e : words.Uint w) (K : PrivKey w) (h : words.newWithExp G fuel s bitSize e = .ok (K, s')) :
    WordsWellFormed K ∧ K.pub.n.val.size = bitSize ∧ K.pub.e = e ∧ K.primes.length = 2 ∧ K.precomputed.isSome ∧
      K.d.val < (K.primes.map (fun p => p.val - 1)).prod ∧
      e.val * K.d.val ≡ 1 [MOD (K.primes.map (fun p => p.val - 1)).prod] := by
  obtain ⟨c, h1, h2⟩ := newWithExp_ok h
  obtain ⟨-, hl, -, -, hs, he, hd, hm, g1, -⟩ := words_generated hw hG h1
  obtain ⟨k1, k2, k3, k4, k5⟩ := g1 K h2
  refine ⟨k5, ?_, ?_, ?_, k4, ?_, ?_⟩
  · rw [k1]; exact hs
  · rw [k1]; exact he
  · rw [k3]; exact hl
  · rw [k2, k3]; exact hd
  · rw [k2, k3]; exact hm

/-- C107: if the prime searches of two machines find the same numbers, generation finds the same components, in the same
turn, or ends in the same error or panic, for any number of primes. -/
theorem C107_components (hw : 0 < w) (hw' : 0 < w') (G : words.Search w σ) (G' : words.Search w' σ) (hs : WordsSameDraws G G')
    (hG : WordsPrimeSearch G) (np bitSize : Nat) (e : words.Uint w) (e' : words.Uint w') (ee : e'.val = e.val)
    (el : e.nlimbs ≤ np + 1) (el' : e'.nlimbs ≤ np + 1) (fuel : Nat) (s : σ) :
    WordsSameResult (fun a b => b.2 = a.2 ∧ b.1.n.val = a.1.n.val ∧ b.1.e.val = a.1.e.val ∧ b.1.d.val = a.1.d.val ∧
        b.1.primes.map words.Uint.val = a.1.primes.map words.Uint.val)
      (words.generate G fuel s np bitSize e) (words.generate G' fuel s np bitSize e') := by
  unfold words.generate
  split
  · rfl
  split
  · rfl
  exact words.generateLoop_same hw hw' hs hG (by omega) ee el el' fuel s

theorem checkPublic_vals (K : PubKey w) (K' : PubKey w') (hn : K'.n.val = K.n.val) (he : K'.e.val = K.e.val)
    (hp : K'.n.prec ≤ 4096 ↔ K.n.prec ≤ 4096) : words.checkPublic K' = words.checkPublic K := by
  unfold words.checkPublic words.checkPublicWithMaxSize
  have hm : maxSize = 4096 := rfl
  have h1 : K'.n.prec > maxSize ↔ K.n.prec > maxSize := by rw [hm]; omega
  by_cases h : K.n.prec > maxSize
  · rw [if_pos h, if_pos (h1.mpr h)]
  · rw [if_neg h, if_neg (fun h' => h (h1.mp h'))]
    have g1 : K'.e.ge K'.n = K.e.ge K.n := by unfold words.Uint.ge words.Uint.lt; rw [hn, he]
    have g2 : K'.n.isZero = K.n.isZero := by unfold words.Uint.isZero; rw [hn]
    rw [g1, g2, hn, he]

theorem fromFactors_err {n : words.Uint w} {hn : n.val % 2 = 1} {e d : words.Uint w} {primes : List (words.Uint w)}
    {er : Error} (h : words.checkPublic ⟨n, e, hn⟩ = .err er) : words.fromFactors n hn e d primes = .err er := by
  unfold words.fromFactors words.validate
  simp only [h]
  rfl

theorem divCeil_le_iff {m k a : Nat} (hm : 0 < m) : divCeil a m ≤ k ↔ a ≤ m * k := by
  unfold divCeil
  rw [← Nat.lt_succ_iff, Nat.div_lt_iff_lt_mul hm, Nat.succ_mul, Nat.mul_comm k m]
  omega

/-- The storage of two halves. -/
theorem halves_storage {m : Nat} (hm : m ∣ 2048) (b : Nat) :
    m * (divCeil (b / 2) m + divCeil (b - b / 2) m) ≤ 4096 ↔ b ≤ 4096 := by
  obtain ⟨k, hk⟩ := hm
  have hm0 : 0 < m := by rcases Nat.eq_zero_or_pos m with h | h <;> [(rw [h] at hk; omega); exact h]
  have e1 : (4096 : Nat) = m * (2 * k) := by rw [Nat.mul_left_comm, ← hk]
  have i1 := divCeil_le_iff (k := k) (a := b / 2) hm0
  have i2 := divCeil_le_iff (k := k) (a := b - b / 2) hm0
  have i3 := divCeil_le_iff (k := k - 1) (a := b / 2) hm0
  have hmk : m * (k - 1) = 2048 - m := by rw [Nat.mul_sub_one, ← hk]
  rw [← hk] at i1 i2
  rw [hmk] at i3
  have hk0 : 0 < k := by rcases Nat.eq_zero_or_pos k with h | h <;> [(rw [h] at hk; omega); exact h]
  constructor
  · intro h
    rw [e1] at h
    have h := Nat.le_of_mul_le_mul_left h hm0
    omega
  · intro h
    rw [e1]
    apply Nat.mul_le_mul_left
    omega

/-- C107: if the prime searches of two machines find the same numbers, of the bits asked for and stored without spare words,
`new_with_exp` makes the same key, in the same turn, or ends in the same error or panic. -/
theorem C107_same (hw : 8 * w ∣ 2048) (hw' : 8 * w' ∣ 2048) (G : words.Search w σ) (G' : words.Search w' σ)
    (hs : WordsSameDraws G G') (hG : WordsPrimeSearch G) (bitSize : Nat) (h32 : bitSize < 2 ^ 32)
    (hE : WordsExact G (bitSize / 2) ∧ WordsExact G (bitSize - bitSize / 2))
    (hE' : WordsExact G' (bitSize / 2) ∧ WordsExact G' (bitSize - bitSize / 2)) (e : words.Uint w) (e' : words.Uint w')
    (ee : e'.val = e.val) (el : e.nlimbs ≤ 3) (el' : e'.nlimbs ≤ 3) (fuel : Nat) (s : σ) :
    WordsSameResult (fun a b => b.2 = a.2 ∧ b.1.pub.n.val = a.1.pub.n.val ∧ b.1.pub.e.val = a.1.pub.e.val ∧
        b.1.d.val = a.1.d.val ∧ b.1.primes.map words.Uint.val = a.1.primes.map words.Uint.val)
      (words.newWithExp G fuel s bitSize e) (words.newWithExp G' fuel s bitSize e') := by
  have hw0 : 0 < w := by rcases Nat.eq_zero_or_pos w with h | h <;> [(subst h; simp at hw); exact h]
  have hw0' : 0 < w' := by rcases Nat.eq_zero_or_pos w' with h | h <;> [(subst h; simp at hw'); exact h]
  have hG' : WordsPrimeSearch G' := by
    intro t b hb; rw [(hs t b).1]; exact hG t b hb
  unfold words.newWithExp
  refine words.WordsSameResult_bind (C107_components hw0 hw0' G G' hs hG 2 bitSize e e' ee el el' fuel s) ?_
  rintro ⟨c, t⟩ ⟨c', t'⟩ hc hc' ⟨r1, r2, r3, r4, r5⟩
  simp only at r1 r2 r3 r4 r5 ⊢
  obtain ⟨⟨u, u', hps⟩, -, -, hpr, -, -, -, -, g1, g2⟩ := words_generated hw0 hG hc
  obtain ⟨⟨v, v', hps'⟩, -, -, hpr', -, -, -, -, g1', g2'⟩ := words_generated hw0' hG' hc'
  rw [if_neg (by omega)] at hps hps'
  obtain ⟨-, p, q, hpq, pl, ql⟩ := words.generatePrimes_two hE.1 hE.2 h32 hps
  obtain ⟨-, p', q', hpq', pl', ql'⟩ := words.generatePrimes_two hE'.1 hE'.2 h32 hps'
  have hn : c.n = p.mul q := by rw [hpq] at hpr; exact (Res.ok.inj hpr).symm
  have hn' : c'.n = p'.mul q' := by rw [hpq'] at hpr'; exact (Res.ok.inj hpr').symm
  have st : c.n.prec ≤ 4096 ↔ bitSize ≤ 4096 := by
    unfold words.Uint.prec
    rw [hn, (words.mul_vals p q).2, pl, ql]; exact halves_storage hw bitSize
  have st' : c'.n.prec ≤ 4096 ↔ bitSize ≤ 4096 := by
    unfold words.Uint.prec
    rw [hn', (words.mul_vals p' q').2, pl', ql']; exact halves_storage hw' bitSize
  have hcp := checkPublic_vals (⟨c.n, c.e, c.odd⟩ : PubKey w) (⟨c'.n, c'.e, c'.odd⟩ : PubKey w') r2 r3 (st'.trans st.symm)
  rcases words.checkPublic_cases (⟨c.n, c.e, c.odd⟩ : PubKey w) with hok | ⟨er, her⟩
  · rw [hok] at hcp
    obtain ⟨K, hK⟩ := g2.mpr ((words_checkPublic_ok _).mp hok)
    obtain ⟨K', hK'⟩ := g2'.mpr ((words_checkPublic_ok _).mp hcp)
    obtain ⟨k1, k2, k3, -⟩ := g1 K hK
    obtain ⟨k1', k2', k3', -⟩ := g1' K' hK'
    rw [hK, hK']
    show t' = t ∧ K'.pub.n.val = K.pub.n.val ∧ K'.pub.e.val = K.pub.e.val ∧ K'.d.val = K.d.val ∧
      K'.primes.map words.Uint.val = K.primes.map words.Uint.val
    rw [k1, k1', k2, k2', k3, k3']
    exact ⟨r1, r2, r3, r4, r5⟩
  · rw [her] at hcp
    rw [fromFactors_err her, fromFactors_err hcp]
    rfl

/-- C107: a key generated with `2 * b` bits signs, and the machine that generated it accepts its PKCS#1 v1.5 signatures
exactly if `b`, divided by the bits of a word, leaves no remainder or more than half a word. -/
theorem C107_own {τ : Type} (hw : 0 < w) (G : words.Search w σ) (hG : WordsPrimeSearch G) (b : Nat) (h32 : 2 * b < 2 ^ 32)
    (hE : WordsExact G b) (fuel : Nat) (s s' : σ) (e : words.Uint w) (K : PrivKey w)
    (hK : words.newWithExp G fuel s (2 * b) e = .ok (K, s')) (R : RngImpl τ) (f : Nat) (rng : Option τ)
    (hb : BlindingOk R K.pub.n.val f rng) (S : pkcs1v15.Pkcs1v15Sign) (hashed em : Bytes)
    (hl : ∀ l, S.hashLen = some l → hashed.length = l)
    (hem : emsaPkcs1v15 (S.pfx ++ hashed) (divCeil (2 * b) 8) = some em) :
    ∃ sig, words.pkcs1v15Sign R f rng K S.pfx hashed = .ok sig ∧
      (words.Pkcs1v15Sign.verify S K.pub hashed sig = .ok () ↔ b % (8 * w) = 0 ∨ 4 * w < b % (8 * w)) := by
  obtain ⟨c, h1, h2⟩ := newWithExp_ok hK
  obtain ⟨⟨u, u', hps⟩, -, -, hpr, hsz, -, -, -, g1, g2⟩ := words_generated hw hG h1
  obtain ⟨k1, k2, k3, -, k5⟩ := g1 K h2
  rw [if_neg (by omega)] at hps
  have hb2 : 2 * b / 2 = b := by omega
  have hb3 : 2 * b - b = b := by omega
  have := words.generatePrimes_two (bitSize := 2 * b) (by rw [hb2]; exact hE) (by rw [hb2, hb3]; exact hE) h32 hps
  rw [hb2, hb3] at this
  obtain ⟨h4, p, q, hpq, pl, ql⟩ := this
  have hn : c.n = p.mul q := by rw [hpq] at hpr; exact (Res.ok.inj hpr).symm
  have hKn : K.pub.n = p.mul q := by rw [k1]; exact hn
  have hsz' : K.pub.n.val.size = 2 * b := by rw [k1]; exact hsz
  have ho : octetLen K.pub.n.val = divCeil (2 * b) 8 := by
    unfold octetLen divCeil
    rw [hsz']
  have h4096 : 2 * b ≤ 4096 := by
    rw [← hsz]
    exact (Nat.size_le.mpr c.n.isLt).trans (g2.mp ⟨K, h2⟩).1
  exact C104_own hw R f rng k5 hb b (by omega) p q pl ql hKn
    (by rw [← (words.mul_vals p q).1, ← hKn]; exact hsz') (by rw [ho]; unfold divCeil; omega) S hashed em hl
    (by rw [ho]; exact hem)

/-! ### Examples -/

/-- A prime search alternating between two primes of 88 bits. -/
def Ex.wordsPair (w : Nat) : words.Search w Nat :=
  ⟨fun s _ => (if s % 2 = 0 then Ex.wordsP88 w 50551 else Ex.wordsP88 w 50671, s + 1)⟩

theorem Ex.wordsP88_val : ((Ex.wordsP88 4 50551).val = 50551 * 2 ^ 72 + 1 ∧ (Ex.wordsP88 4 50671).val = 50671 * 2 ^ 72 + 1) ∧
    ((Ex.wordsP88 8 50551).val = 50551 * 2 ^ 72 + 1 ∧ (Ex.wordsP88 8 50671).val = 50671 * 2 ^ 72 + 1) := by decide +kernel

theorem Ex.wordsPair_prime : WordsPrimeSearch (Ex.wordsPair 4) ∧ WordsPrimeSearch (Ex.wordsPair 8) := by
  constructor
  · intro s b _
    simp only [Ex.wordsPair]
    split
    · rw [Ex.wordsP88_val.1.1]; exact Ex.prime88a
    · rw [Ex.wordsP88_val.1.2]; exact Ex.prime88b
  · intro s b _
    simp only [Ex.wordsPair]
    split
    · rw [Ex.wordsP88_val.2.1]; exact Ex.prime88a
    · rw [Ex.wordsP88_val.2.2]; exact Ex.prime88b

theorem Ex.wordsPair_exact : WordsExact (Ex.wordsPair 4) 88 ∧ WordsExact (Ex.wordsPair 8) 88 := by
  refine ⟨⟨?_, ?_⟩, ⟨?_, ?_⟩⟩ <;> intro s <;> simp only [Ex.wordsPair] <;> split <;> decide +kernel

theorem Ex.wordsPair_same : WordsSameDraws (Ex.wordsPair 4) (Ex.wordsPair 8) := by
  intro s b
  simp only [Ex.wordsPair]
  split
  · exact ⟨by rw [Ex.wordsP88_val.1.1, Ex.wordsP88_val.2.1], trivial⟩
  · exact ⟨by rw [Ex.wordsP88_val.1.2, Ex.wordsP88_val.2.2], trivial⟩

/-- The call ended with a value and this state. -/
def Ex.endsIn {α : Type} (t : Nat) : Res (α × Nat) → Bool
  | .ok (_, t') => t' == t
  | _ => false

theorem Ex.endsIn_ok {α : Type} {t : Nat} : ∀ {r : Res (α × Nat)}, Ex.endsIn t r = true → ∃ a, r = .ok (a, t)
  | .ok (a, t'), h => ⟨a, by rw [show t' = t by simpa [Ex.endsIn] using h]⟩

theorem WordsSameResult.ok {α β : Type} {r : α → β → Prop} {a : α} : ∀ {y : Res β}, WordsSameResult r (.ok a) y →
    ∃ b, y = .ok b ∧ r a b
  | .ok b, h => ⟨b, rfl, h⟩

/-- On a 32-bit machine generation finds a key in the first turn. -/
theorem Ex.wordsPair_key : ∃ K, words.newWithExp (Ex.wordsPair 4) 1 0 176 (words.Uint.wrap 2 65537) = .ok (K, 2) :=
  Ex.endsIn_ok (by decide +kernel)

example := C107_word8 Ex.pair64 1 0 2 128 (BoxedUint.wrap 1 65537)
/-- The 64-bit machine of the rest of the model does find a key there. -/
example : ∃ k, PrivateKey.newWithExp Ex.pair64 1 0 128 (BoxedUint.wrap 1 65537) = .ok (k, 2) := by
  obtain ⟨k, h1, -⟩ := C54_first_usable_pair Ex.pair64 Ex.pair64_prime 128 Ex.pair64_top (by omega)
    (by omega) (BoxedUint.wrap 1 65537) (by decide) (by decide) (by decide) (by decide) 0 2 (BoxedUint.wrap 1 (1571 * 2 ^ 53 + 1))
    (BoxedUint.wrap 1 (1733 * 2 ^ 53 + 1)) 1 (.good 0 (by decide) (by decide +kernel)) 1 le_rfl
  exact ⟨k, h1⟩
example := C107_key (w := 4) (by norm_num) (Ex.wordsPair 4) Ex.wordsPair_prime.1 1 0 2 176 (words.Uint.wrap 2 65537) _
  Ex.wordsPair_key.choose_spec
example := C107_components (w := 4) (w' := 8) (by norm_num) (by norm_num) _ _ Ex.wordsPair_same Ex.wordsPair_prime.1 2 176
  (words.Uint.wrap 2 65537) (words.Uint.wrap 1 65537) (by decide +kernel) (by decide) (by decide)

theorem Ex.wordsPair_both {e : words.Uint 4} {e' : words.Uint 8} (ee : e'.val = e.val) (el : e.nlimbs ≤ 3)
    (el' : e'.nlimbs ≤ 3) {fuel s t : Nat} {K : PrivKey 4} (hK : words.newWithExp (Ex.wordsPair 4) fuel s 176 e = .ok (K, t)) :
    ∃ K', words.newWithExp (Ex.wordsPair 8) fuel s 176 e' = .ok (K', t) ∧ K'.pub.n.val = K.pub.n.val ∧
      K'.d.val = K.d.val := by
  have hs := C107_same (w := 4) (w' := 8) (by norm_num) (by norm_num) _ _ Ex.wordsPair_same Ex.wordsPair_prime.1 176
    (by norm_num) ⟨Ex.wordsPair_exact.1, Ex.wordsPair_exact.1⟩ ⟨Ex.wordsPair_exact.2, Ex.wordsPair_exact.2⟩ e e' ee el el'
    fuel s
  rw [hK] at hs
  obtain ⟨⟨K', t'⟩, h8, rfl, h1, -, h2, -⟩ := WordsSameResult.ok hs
  exact ⟨K', h8, h1, h2⟩

/-- Machines with words of four and of eight octets generate the same key of 176 bits; it accepts its own signatures on the
first and refuses them on the second. -/
example : ∃ K K', words.newWithExp (Ex.wordsPair 4) 1 0 176 (words.Uint.wrap 2 65537) = .ok (K, 2) ∧
    words.newWithExp (Ex.wordsPair 8) 1 0 176 (words.Uint.wrap 1 65537) = .ok (K', 2) ∧
    K'.pub.n.val = K.pub.n.val ∧ K'.d.val = K.d.val ∧
    (∃ s, words.pkcs1v15Sign Ex.countingRng 3 none K [9] [1, 2, 3, 4] = .ok s ∧
      words.Pkcs1v15Sign.verify ⟨some 4, [9]⟩ K.pub [1, 2, 3, 4] s = .ok ()) ∧
    (∃ s, words.pkcs1v15Sign Ex.countingRng 3 none K' [9] [1, 2, 3, 4] = .ok s ∧
      words.Pkcs1v15Sign.verify ⟨some 4, [9]⟩ K'.pub [1, 2, 3, 4] s ≠ .ok ()) := by
  obtain ⟨K, hK⟩ := Ex.wordsPair_key
  obtain ⟨K', h8, h1, h2⟩ := Ex.wordsPair_both (e' := words.Uint.wrap 1 65537) (by decide +kernel) (by decide) (by decide) hK
  refine ⟨K, K', hK, h8, h1, h2, ?_, ?_⟩
  · obtain ⟨s, h1, h2⟩ := C107_own (w := 4) (by norm_num) _ Ex.wordsPair_prime.1 88 (by norm_num) Ex.wordsPair_exact.1 1 0 2
      _ K hK Ex.countingRng 3 none trivial ⟨some 4, [9]⟩ [1, 2, 3, 4]
      ([0, 1] ++ List.replicate 14 255 ++ [0, 9, 1, 2, 3, 4]) (by decide) (by decide +kernel)
    exact ⟨s, h1, h2.mpr (by decide)⟩
  · obtain ⟨s, h1, h2⟩ := C107_own (w := 8) (by norm_num) _ Ex.wordsPair_prime.2 88 (by norm_num) Ex.wordsPair_exact.2 1 0 2
      _ K' h8 Ex.countingRng 3 none trivial ⟨some 4, [9]⟩ [1, 2, 3, 4]
      ([0, 1] ++ List.replicate 14 255 ++ [0, 9, 1, 2, 3, 4]) (by decide) (by decide +kernel)
    exact ⟨s, h1, fun h => absurd (h2.mp h) (by decide)⟩

end RSA
