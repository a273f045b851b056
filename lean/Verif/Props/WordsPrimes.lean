import Verif.Proof.WordsPrimes
import Verif.Props.WordsKey
import Verif.Spec.KeyErrors

/-! C106: keys built from primes on machines with words of other sizes. -/
namespace RSA
open Spec
open words (PubKey PrivKey)

variable {w w' : Nat}

theorem words_checkPublic_ok (K : PubKey w) : words.checkPublic K = .ok () ↔
    PublicOk (8 * w * K.n.nlimbs) K.n.val K.e.val := by
  rw [words_checkPublic_iff]
  unfold PublicOk
  have := K.odd
  constructor
  · rintro ⟨h1, h2, h3, h4, h5⟩
    exact ⟨h1, h2, this, h3, h4, h5⟩
  · rintro ⟨h1, h2, -, h3, h4, h5⟩
    exact ⟨h1, h2, h3, h4, h5⟩

/-- `from_components` with the product of distinct primes and an exponent that fits them. -/
theorem fromFactors_prime (hw : 0 < w) {n : words.Uint w} (hn : n.val % 2 = 1) {e d : words.Uint w}
    {primes : List (words.Uint w)} (hprime : ∀ p ∈ primes, p.val.Prime) (hnd : (primes.map words.Uint.val).Nodup)
    (h2 : 2 ≤ primes.length) (hprod : (primes.map words.Uint.val).prod = n.val) (hdl : n.nlimbs ≤ d.nlimbs)
    (hpl : ∀ p ∈ primes, p.nlimbs ≤ d.nlimbs) (hexp : ∀ p ∈ primes, d.val * e.val % (p.val - 1) = 1) :
    (∀ K, words.fromFactors n hn e d primes = .ok K → K.pub = ⟨n, e, hn⟩ ∧ K.d = d ∧ K.primes = primes ∧
      K.precomputed.isSome ∧ WordsWellFormed K) ∧
    ((∃ K, words.fromFactors n hn e d primes = .ok K) ↔ PublicOk (8 * w * n.nlimbs) n.val e.val) := by
  have hn1 : 1 ≤ n.nlimbs := words.Uint.nlimbs_pos n (by omega)
  have hd1 : 1 ≤ d.nlimbs := hn1.trans hdl
  have hwf : WordsWellFormed (⟨⟨n, e, hn⟩, d, primes, none⟩ : PrivKey w) := by
    refine ⟨⟨?_, hnd, by simpa using h2, hprod, ?_⟩, hdl, by intro pre h; cases h⟩
    · intro p hp
      obtain ⟨p', hp', rfl⟩ := List.mem_map.mp hp
      exact hprime p' hp'
    · intro p hp
      obtain ⟨p', hp', rfl⟩ := List.mem_map.mp hp
      exact hexp p' hp'
  have hiff := words_checkPublic_ok (⟨n, e, hn⟩ : PubKey w)
  rw [← hiff]
  unfold words.fromFactors
  rcases words.checkPublic_cases (⟨n, e, hn⟩ : PubKey w) with hc | ⟨er, hc⟩
  · have hen := words.checkPublic_lt hc
    have hv : words.validate (⟨⟨n, e, hn⟩, d, primes, none⟩ : PrivKey w) = .ok () := by
      rw [words.validate_ok_iff hw _ hd1]
      refine ⟨hc, ?_, ?_⟩
      · show (primes.map words.Uint.val).prod % 2 ^ (8 * w * n.nlimbs) = n.val
        rw [hprod, Nat.mod_eq_of_lt n.isLt]
      · intro p hp
        refine ⟨(hpl p hp).trans (by show d.nlimbs ≤ 2 * d.nlimbs; omega), (hprime p hp).one_lt, ?_⟩
        show d.val * e.val % 2 ^ (8 * w * (2 * d.nlimbs)) % (p.val - 1) = 1
        rw [Nat.mod_eq_of_lt (a := d.val * e.val)]
        · exact hexp p hp
        · rw [show 8 * w * (2 * d.nlimbs) = 8 * w * d.nlimbs + 8 * w * d.nlimbs by ring, pow_add]
          refine Nat.mul_lt_mul'' d.isLt (lt_of_lt_of_le (lt_trans hen n.isLt) ?_)
          exact Nat.pow_le_pow_right (by norm_num) (Nat.mul_le_mul_left _ hdl)
    obtain ⟨pre, hpre, hwf'⟩ := C104_precompute hw hwf hpl
    have hpre' : words.precomputeValues d primes = .ok pre := hpre
    simp only [hv, Res.ok_bind, hc, iff_true]
    unfold words.tryPrecompute
    simp only [Option.isSome_none, Bool.false_eq_true, if_false, hpre']
    refine ⟨?_, ⟨_, rfl⟩⟩
    intro K hK
    obtain rfl := Res.ok.inj hK
    exact ⟨rfl, rfl, rfl, rfl, hwf'⟩
  · have hv : words.validate (⟨⟨n, e, hn⟩, d, primes, none⟩ : PrivKey w) = .err er := by
      unfold words.validate
      simp only [hc]
      rfl
    simp only [hv, hc]
    refine ⟨fun K h => (by cases h), ⟨?_, fun h => (by cases h)⟩⟩
    rintro ⟨K, h⟩; cases h

/-- C106: `from_p_q` with two primes, on every machine. It makes a well-formed key exactly if the primes are different and
odd, the exponent is stored no wider than the product and invertible, and the public key acceptable; modulus and private
exponent then take as many words as the primes together. -/
theorem C106_from_p_q (hw : 0 < w) (p q e : words.Uint w) (hp : p.val.Prime) (hq : q.val.Prime) :
    (∀ K, words.fromPQ p q e = .ok K → K.pub.n = p.mul q ∧ K.pub.n.val = p.val * q.val ∧ K.pub.e = e ∧
      K.primes = [p, q] ∧ K.d.nlimbs = p.nlimbs + q.nlimbs ∧ K.d.val < Nat.lcm (p.val - 1) (q.val - 1) ∧
      e.val * K.d.val ≡ 1 [MOD Nat.lcm (p.val - 1) (q.val - 1)] ∧ K.precomputed.isSome ∧ WordsWellFormed K) ∧
    ((∃ K, words.fromPQ p q e = .ok K) ↔ p.val ≠ q.val ∧ p.val * q.val % 2 = 1 ∧ e.nlimbs ≤ p.nlimbs + q.nlimbs ∧
      Nat.Coprime e.val (Nat.lcm (p.val - 1) (q.val - 1)) ∧
      PublicOk (8 * w * (p.nlimbs + q.nlimbs)) (p.val * q.val) e.val) := by
  obtain ⟨hspec, hex⟩ := words.carmichael_spec hw (e := e) hp.one_lt hq.one_lt
  obtain ⟨mv, ml⟩ := words.mul_vals p q
  unfold words.fromPQ
  by_cases hpq : p.val = q.val
  · have hb : p.beq q = true := by simp [words.Uint.beq, hpq]
    rw [if_pos hb]
    refine ⟨fun K h => (by cases h), ⟨?_, fun h => absurd hpq h.1⟩⟩
    rintro ⟨K, h⟩; cases h
  have hb : ¬ p.beq q = true := by simp [words.Uint.beq, hpq]
  rw [if_neg hb]
  cases hd : words.carmichaelExponent p q e with
  | ok d =>
    obtain ⟨hel, hdl, hdlt, hde⟩ := (hspec d).mp hd
    obtain ⟨-, hco⟩ := hex.mp ⟨d, hd⟩
    have hpr : words.product [p, q] = .ok (p.mul q) := rfl
    simp only [Res.ok_bind, hpr]
    by_cases ho : p.val * q.val % 2 = 1
    · have ho' : (p.mul q).val % 2 = 1 := by rw [mv]; exact ho
      rw [dif_pos ho']
      have odds := Nat.odd_mul.mp (Nat.odd_iff.mpr ho)
      have hp3 : 1 < p.val - 1 := by
        have := hp.two_le
        have := Nat.odd_iff.mp odds.1
        omega
      have hq3 : 1 < q.val - 1 := by
        have := hq.two_le
        have := Nat.odd_iff.mp odds.2
        omega
      have hde' : d.val * e.val ≡ 1 [MOD Nat.lcm (p.val - 1) (q.val - 1)] := by rw [Nat.mul_comm]; exact hde
      obtain ⟨g1, g2⟩ := fromFactors_prime hw ho' (e := e) (d := d) (primes := [p, q])
        (by
          intro x hx
          rcases List.mem_cons.mp hx with rfl | hx
          · exact hp
          · obtain rfl : x = q := by simpa using hx
            exact hq)
        (by simpa using hpq) le_rfl (by rw [mv]; simp) (by rw [ml, hdl])
        (by
          intro x hx
          rcases List.mem_cons.mp hx with rfl | hx
          · omega
          · obtain rfl : x = q := by simpa using hx
            omega)
        (by
          intro x hx
          rcases List.mem_cons.mp hx with rfl | hx
          · exact mod_eq_one_of_modEq hde' (Nat.dvd_lcm_left _ _) hp3
          · obtain rfl : x = q := by simpa using hx
            exact mod_eq_one_of_modEq hde' (Nat.dvd_lcm_right _ _) hq3)
      refine ⟨?_, ?_⟩
      · intro K hK
        obtain ⟨k1, k2, k3, k4, k5⟩ := g1 K hK
        rw [k1, k2, k3]
        exact ⟨rfl, mv, rfl, rfl, hdl, hdlt, hde, k4, k5⟩
      · rw [g2, mv, ml]
        constructor
        · exact fun h => ⟨hpq, ho, hel, hco, h⟩
        · exact fun h => h.2.2.2.2
    · rw [dif_neg (by rw [mv]; exact ho)]
      refine ⟨fun K h => (by cases h), ⟨?_, fun h => absurd h.2.1 ho⟩⟩
      rintro ⟨K, h⟩; cases h
  | err er =>
    refine ⟨fun K h => (by cases h), ⟨?_, fun h => ?_⟩⟩
    · rintro ⟨K, h⟩; cases h
    · obtain ⟨d, hd'⟩ := hex.mpr ⟨h.2.2.1, h.2.2.2.1⟩
      rw [hd] at hd'; cases hd'
  | panic r =>
    refine ⟨fun K h => (by cases h), ⟨?_, fun h => ?_⟩⟩
    · rintro ⟨K, h⟩; cases h
    · obtain ⟨d, hd'⟩ := hex.mpr ⟨h.2.2.1, h.2.2.2.1⟩
      rw [hd] at hd'; cases hd'
  | loop =>
    refine ⟨fun K h => (by cases h), ⟨?_, fun h => ?_⟩⟩
    · rintro ⟨K, h⟩; cases h
    · obtain ⟨d, hd'⟩ := hex.mpr ⟨h.2.2.1, h.2.2.2.1⟩
      rw [hd] at hd'; cases hd'

/-- C106: `from_primes` on every machine. -/
theorem C106_from_primes (hw : 0 < w) (primes : List (words.Uint w)) (e : words.Uint w)
    (hprime : ∀ p ∈ primes, p.val.Prime) :
    (∀ K, words.fromPrimes primes e = .ok K →
      K.pub.n.val = (primes.map words.Uint.val).prod ∧ K.pub.n.nlimbs = (primes.map words.Uint.nlimbs).sum ∧
      K.pub.e = e ∧ K.primes = primes ∧ K.d.val < (primes.map (fun p => p.val - 1)).prod ∧
      e.val * K.d.val ≡ 1 [MOD (primes.map (fun p => p.val - 1)).prod] ∧ K.precomputed.isSome ∧ WordsWellFormed K) ∧
    ((∃ K, words.fromPrimes primes e = .ok K) ↔ ∃ p rest, primes = p :: rest ∧ rest ≠ [] ∧
      (primes.map words.Uint.val).Nodup ∧ (primes.map words.Uint.val).prod % 2 = 1 ∧
      e.nlimbs ≤ p.nlimbs + (primes.map words.Uint.nlimbs).sum ∧
      Nat.Coprime e.val (primes.map (fun p => p.val - 1)).prod ∧
      PublicOk (8 * w * (primes.map words.Uint.nlimbs).sum) (primes.map words.Uint.val).prod e.val) := by
  unfold words.fromPrimes
  by_cases hlen : primes.length < 2
  · rw [if_pos hlen]
    refine ⟨fun K h => (by cases h), ⟨?_, ?_⟩⟩
    · rintro ⟨K, h⟩; cases h
    · rintro ⟨p, rest, rfl, hr, -⟩
      rw [List.length_cons] at hlen
      have := List.length_pos_of_ne_nil hr
      omega
  rw [if_neg hlen]
  obtain ⟨p, rest, rfl⟩ : ∃ p rest, primes = p :: rest := by
    cases primes with
    | nil => simp at hlen
    | cons p rest => exact ⟨p, rest, rfl⟩
  have hr1 : 1 ≤ rest.length := by rw [List.length_cons] at hlen; omega
  have hr : rest ≠ [] := by rintro rfl; simp at hr1
  by_cases hdup : words.hasDuplicate [] (p :: rest) = true
  · rw [if_pos hdup]
    refine ⟨fun K h => (by cases h), ⟨?_, ?_⟩⟩
    · rintro ⟨K, h⟩; cases h
    · rintro ⟨p', rest', heq, -, hnd, -⟩
      have := (words.hasDuplicate_iff (p :: rest) []).mpr ⟨hnd, by simp⟩
      rw [hdup] at this; cases this
  rw [if_neg hdup]
  have hnd := ((words.hasDuplicate_iff (p :: rest) []).mp (by simpa using hdup)).1
  obtain ⟨n, hn, hnv, hnl⟩ := words.product_eq (ps := p :: rest) (by simp)
  rw [hn, Res.ok_bind]
  obtain ⟨hspec, hex⟩ := words.euler_spec hw (e := e) hr1 (fun x hx => (hprime x hx).one_lt)
  by_cases ho : ((p :: rest).map words.Uint.val).prod % 2 = 1
  · have ho' : n.val % 2 = 1 := by rw [hnv]; exact ho
    rw [dif_pos ho']
    cases hd : words.eulerExponent (p :: rest) e with
    | ok d =>
      obtain ⟨hel, hdl, hdlt, hde⟩ := (hspec d).mp hd
      obtain ⟨-, hco⟩ := hex.mp ⟨d, hd⟩
      simp only [Res.ok_bind]
      have hde' : d.val * e.val ≡ 1 [MOD ((p :: rest).map (fun p => p.val - 1)).prod] := by rw [Nat.mul_comm]; exact hde
      obtain ⟨g1, g2⟩ := fromFactors_prime hw ho' (e := e) (d := d) hprime hnd (by rw [List.length_cons]; omega) hnv.symm
        (by rw [hnl, hdl]; omega)
        (fun x hx => (words.le_sum_nlimbs hx).trans (by rw [hdl]; omega))
        (by
          intro x hx
          refine mod_eq_one_of_modEq hde' (List.dvd_prod (List.mem_map.mpr ⟨x, hx, rfl⟩)) ?_
          have h2 := (hprime x hx).two_le
          have hodd : x.val % 2 = 1 := by
            have hdvd : x.val ∣ ((p :: rest).map words.Uint.val).prod := List.dvd_prod (List.mem_map_of_mem hx)
            exact Nat.odd_iff.mp (Odd.of_dvd_nat (Nat.odd_iff.mpr ho) hdvd)
          omega)
      refine ⟨?_, ?_⟩
      · intro K hK
        obtain ⟨k1, k2, k3, k4, k5⟩ := g1 K hK
        rw [k1, k2, k3]
        exact ⟨hnv, hnl, rfl, rfl, hdlt, hde, k4, k5⟩
      · rw [g2, hnv, hnl]
        constructor
        · exact fun h => ⟨p, rest, rfl, hr, hnd, ho, hel, hco, h⟩
        · rintro ⟨p', rest', heq, -, -, -, -, -, h⟩
          exact h
    | err er =>
      refine ⟨fun K h => (by cases h), ⟨?_, ?_⟩⟩
      · rintro ⟨K, h⟩; cases h
      · rintro ⟨p', rest', heq, -, -, -, h1, h2, -⟩
        obtain ⟨rfl, rfl⟩ := List.cons.inj heq
        obtain ⟨d, hd'⟩ := hex.mpr ⟨h1, h2⟩
        rw [hd] at hd'; cases hd'
    | panic r =>
      refine ⟨fun K h => (by cases h), ⟨?_, ?_⟩⟩
      · rintro ⟨K, h⟩; cases h
      · rintro ⟨p', rest', heq, -, -, -, h1, h2, -⟩
        obtain ⟨rfl, rfl⟩ := List.cons.inj heq
        obtain ⟨d, hd'⟩ := hex.mpr ⟨h1, h2⟩
        rw [hd] at hd'; cases hd'
    | loop =>
      refine ⟨fun K h => (by cases h), ⟨?_, ?_⟩⟩
      · rintro ⟨K, h⟩; cases h
      · rintro ⟨p', rest', heq, -, -, -, h1, h2, -⟩
        obtain ⟨rfl, rfl⟩ := List.cons.inj heq
        obtain ⟨d, hd'⟩ := hex.mpr ⟨h1, h2⟩
        rw [hd] at hd'; cases hd'
  · rw [dif_neg (by rw [hnv]; exact ho)]
    refine ⟨fun K h => (by cases h), ⟨?_, ?_⟩⟩
    · rintro ⟨K, h⟩; cases h
    · rintro ⟨p', rest', -, -, -, h, -⟩
      exact absurd h ho

/-! ### Words of eight octets -/

theorem sub_word8 (x y : BoxedUint) : x.atWord8.sub y.atWord8 = (x.sub y >>= fun z => .ok z.atWord8) := by
  unfold words.Uint.sub BoxedUint.sub
  have h1 : x.atWord8.val = x.val := rfl
  have h2 : y.atWord8.val = y.val := rfl
  rw [h1, h2]
  split
  · rfl
  · rfl

theorem expectNonZero_word8 (y : BoxedUint) : words.expectNonZero y.atWord8 =
    (expectNonZero y >>= fun x => .ok x.atWord8) := by
  unfold words.expectNonZero expectNonZero BoxedUint.nonZero
  have hv : y.atWord8.val = y.val := rfl
  rw [hv]
  by_cases h : y.val = 0
  · simp [h]
  · simp [h]

theorem invMod_word8 (x t : BoxedUint) : x.atWord8.invMod t.atWord8 = (x.invMod t).map BoxedUint.atWord8 := by
  unfold words.Uint.invMod BoxedUint.invMod
  have h1 : x.atWord8.val = x.val := rfl
  have h2 : t.atWord8.val = t.val := rfl
  rw [h1, h2]
  cases BoxedUint.natInvMod x.val t.val <;> rfl

theorem carmichael_word8 (p q e : BoxedUint) : words.carmichaelExponent p.atWord8 q.atWord8 e.atWord8 =
    (computePrivateExponentCarmichael p q e >>= fun d => .ok d.atWord8) := by
  unfold words.carmichaelExponent computePrivateExponentCarmichael
  have ho : (words.Uint.one : words.Uint 8) = BoxedUint.one.atWord8 := rfl
  rw [ho, sub_word8, sub_word8]
  cases p.sub BoxedUint.one with
  | ok p1 =>
    simp only [Res.ok_bind]
    cases q.sub BoxedUint.one with
    | ok q1 =>
      simp only [Res.ok_bind]
      have hg : p1.atWord8.gcd q1.atWord8 = (p1.gcd q1).atWord8 := rfl
      rw [hg, expectNonZero_word8]
      cases expectNonZero (p1.gcd q1) with
      | ok g =>
        simp only [Res.ok_bind]
        have hm : (p1.atWord8.div g.atWord8).mul q1.atWord8 = ((p1.div g).mul q1).atWord8 := rfl
        rw [hm]
        generalize (p1.div g).mul q1 = t
        have hp : t.atWord8.prec = t.prec := rfl
        rw [hp, widen_word8]
        cases e.widen t.prec with
        | ok x =>
          simp only [Res.ok_bind, invMod_word8]
          cases x.invMod t <;> rfl
        | _ => rfl
      | _ => rfl
    | _ => rfl
  | _ => rfl

theorem totientLoop_word8 : ∀ (ps : List BoxedUint) (t : BoxedUint),
    words.totientLoop (ps.map BoxedUint.atWord8) t.atWord8 = (totientLoop ps t >>= fun x => .ok x.atWord8) := by
  intro ps
  induction ps with
  | nil => intro t; rfl
  | cons p ps ih =>
    intro t
    rw [List.map_cons, words.totientLoop, totientLoop]
    have ho : (words.Uint.one : words.Uint 8) = BoxedUint.one.atWord8 := rfl
    rw [ho, sub_word8]
    cases p.sub BoxedUint.one with
    | ok p1 =>
      simp only [Res.ok_bind]
      exact ih (t.mul p1)
    | _ => rfl

theorem euler_word8 (ps : List BoxedUint) (e : BoxedUint) : words.eulerExponent (ps.map BoxedUint.atWord8) e.atWord8 =
    (computePrivateExponentEulerTotient ps e >>= fun d => .ok d.atWord8) := by
  unfold words.eulerExponent computePrivateExponentEulerTotient
  rw [List.length_map]
  by_cases h : ps.length < 2
  · rw [if_pos h, if_pos h]; rfl
  rw [if_neg h, if_neg h, primeAt_word8]
  cases primeAt ps 0 with
  | ok p0 =>
    simp only [Res.ok_bind]
    have ho : words.Uint.oneWithPrecision (w := 8) p0.atWord8.prec = (BoxedUint.oneWithPrecision p0.prec).atWord8 := rfl
    rw [ho, totientLoop_word8]
    cases totientLoop ps (BoxedUint.oneWithPrecision p0.prec) with
    | ok t =>
      simp only [Res.ok_bind]
      have hp : t.atWord8.prec = t.prec := rfl
      rw [hp, widen_word8]
      cases e.widen t.prec with
      | ok x =>
        simp only [Res.ok_bind, invMod_word8]
        cases x.invMod t <;> rfl
      | _ => rfl
    | _ => rfl
  | _ => rfl

theorem foldl_mul_word8 : ∀ (ps : List BoxedUint) (x : BoxedUint),
    (ps.map BoxedUint.atWord8).foldl words.Uint.mul x.atWord8 = (ps.foldl BoxedUint.mul x).atWord8 := by
  intro ps
  induction ps with
  | nil => intro x; rfl
  | cons p ps ih => intro x; exact ih (x.mul p)

theorem hasDuplicate_word8 : ∀ (ps seen : List BoxedUint),
    words.hasDuplicate (seen.map BoxedUint.atWord8) (ps.map BoxedUint.atWord8) = PrivateKey.hasDuplicate seen ps := by
  intro ps
  induction ps with
  | nil => intro seen; rfl
  | cons p ps ih =>
    intro seen
    rw [List.map_cons, words.hasDuplicate, PrivateKey.hasDuplicate, List.any_map]
    have : seen.map BoxedUint.atWord8 ++ [p.atWord8] = (seen ++ [p]).map BoxedUint.atWord8 := by simp
    rw [this, ih]
    rfl

theorem fromFactors_word8 (n : BoxedUint) (hn : n.val % 2 = 1) (e d : BoxedUint) (ps : List BoxedUint)
    (h2 : 2 ≤ ps.length) :
    (words.fromFactors n.atWord8 hn e.atWord8 d.atWord8 (ps.map BoxedUint.atWord8) >>= fun K => .ok K.parts) =
      (PrivateKey.fromComponents ⟨n, hn⟩ e d ps >>= fun k => .ok k.parts8) := by
  match ps, h2 with
  | p :: q :: ps, _ =>
    unfold words.fromFactors PrivateKey.fromComponents
    have hz : n.nonZero = some n := by
      unfold BoxedUint.nonZero
      have : n.val ≠ 0 := by intro h0; rw [h0] at hn; cases hn
      simp [this]
    simp only [hz, Res.ok_bind]
    have hv := validate_word8
      { pub := { n := n, e := e, nParams := ⟨⟨n, hn⟩⟩ }, d := d, primes := p :: q :: ps, precomputed := none } hn
    have hk : PrivateKey.atWord8
        { pub := { n := n, e := e, nParams := ⟨⟨n, hn⟩⟩ }, d := d, primes := p :: q :: ps, precomputed := none } hn =
      { pub := ⟨n.atWord8, e.atWord8, hn⟩, d := d.atWord8, primes := (p :: q :: ps).map BoxedUint.atWord8,
        precomputed := none } := rfl
    rw [hk] at hv
    rw [hv]
    cases PrivateKey.validate
      { pub := { n := n, e := e, nParams := ⟨⟨n, hn⟩⟩ }, d := d, primes := p :: q :: ps, precomputed := none } with
    | ok u =>
      simp only [Res.ok_bind]
      unfold words.tryPrecompute PrivateKey.tryPrecompute PrivateKey.precompute
      have hp := C104_word8_precompute d (p :: q :: ps)
      simp only [hp, Option.isSome_none, Bool.false_eq_true, if_false]
      cases PrivateKey.precomputeValues d (p :: q :: ps) <;> rfl
    | _ => rfl

/-- C106: with words of eight octets the parametrised functions are those of the rest of the model. -/
theorem C106_word8 (p q e : BoxedUint) (ps : List BoxedUint) :
    (words.fromPQ p.atWord8 q.atWord8 e.atWord8 >>= fun K => .ok K.parts) =
      (PrivateKey.fromPQ p q e >>= fun k => .ok k.parts8) ∧
    (words.fromPrimes (ps.map BoxedUint.atWord8) e.atWord8 >>= fun K => .ok K.parts) =
      (PrivateKey.fromPrimes ps e >>= fun k => .ok k.parts8) := by
  constructor
  · unfold words.fromPQ PrivateKey.fromPQ
    have hb : p.atWord8.beq q.atWord8 = p.beq q := rfl
    rw [hb]
    by_cases h : p.beq q = true
    · rw [if_pos h, if_pos h]; rfl
    rw [if_neg h, if_neg h, carmichael_word8]
    cases computePrivateExponentCarmichael p q e with
    | ok d =>
      simp only [Res.ok_bind]
      have hpr : words.product [p.atWord8, q.atWord8] = .ok (p.mul q).atWord8 := rfl
      rw [hpr]
      simp only [Res.ok_bind]
      unfold computeModulus
      simp only [List.foldl_cons, List.foldl_nil]
      rcases OddUint_new_cases (p.mul q) with ⟨ho, hn⟩ | ⟨ho, hn⟩
      · rw [dif_pos (show (p.mul q).atWord8.val % 2 = 1 from ho), hn]
        exact fromFactors_word8 (p.mul q) ho e d [p, q] le_rfl
      · rw [dif_neg (show ¬ (p.mul q).atWord8.val % 2 = 1 from ho), hn]; rfl
    | _ => rfl
  · unfold words.fromPrimes PrivateKey.fromPrimes
    rw [List.length_map]
    by_cases h : ps.length < 2
    · rw [if_pos h, if_pos h]; rfl
    rw [if_neg h, if_neg h]
    have hd := hasDuplicate_word8 ps []
    rw [List.map_nil] at hd
    rw [hd]
    by_cases hdup : PrivateKey.hasDuplicate [] ps = true
    · rw [if_pos hdup, if_pos hdup]; rfl
    rw [if_neg hdup, if_neg hdup]
    match ps, h with
    | x :: xs, h =>
      have hpr : words.product ((x :: xs).map BoxedUint.atWord8) = .ok (xs.foldl BoxedUint.mul x).atWord8 := by
        rw [← foldl_mul_word8]; rfl
      rw [hpr]
      simp only [Res.ok_bind]
      rcases OddUint_new_cases (xs.foldl BoxedUint.mul x) with ⟨ho, hn⟩ | ⟨ho, hn⟩
      · have hc : computeModulus (x :: xs) = .ok ⟨_, ho⟩ := by
          unfold computeModulus
          simp only [hn]
        rw [dif_pos (show (xs.foldl BoxedUint.mul x).atWord8.val % 2 = 1 from ho), hc, euler_word8]
        simp only [Res.ok_bind]
        cases computePrivateExponentEulerTotient (x :: xs) e with
        | ok d =>
          simp only [Res.ok_bind]
          exact fromFactors_word8 (xs.foldl BoxedUint.mul x) ho e d (x :: xs) (by omega)
        | _ => rfl
      · have hc : computeModulus (x :: xs) = .panic .unwrap := by
          unfold computeModulus
          simp only [hn]
        rw [dif_neg (show ¬ (xs.foldl BoxedUint.mul x).atWord8.val % 2 = 1 from ho), hc]; rfl

/-! ### Two machines -/

/-- C106: where two machines both make a key from the same two primes and exponent, it is the same key. -/
theorem C106_same_p_q (hw : 0 < w) (hw' : 0 < w') {p q e : words.Uint w} {p' q' e' : words.Uint w'} (hp : p.val.Prime)
    (hq : q.val.Prime) (ep : p'.val = p.val) (eq : q'.val = q.val) (ee : e'.val = e.val) {K : PrivKey w} {K' : PrivKey w'}
    (hK : words.fromPQ p q e = .ok K) (hK' : words.fromPQ p' q' e' = .ok K') :
    K'.pub.n.val = K.pub.n.val ∧ K'.pub.e.val = K.pub.e.val ∧ K'.d.val = K.d.val ∧
      K'.primes.map words.Uint.val = K.primes.map words.Uint.val := by
  obtain ⟨-, n1, e1, p1, -, l1, m1, -⟩ := (C106_from_p_q hw p q e hp hq).1 K hK
  obtain ⟨-, n2, e2, p2, -, l2, m2, -⟩ := (C106_from_p_q hw' p' q' e' (ep ▸ hp) (eq ▸ hq)).1 K' hK'
  rw [n1, n2, e1, e2, p1, p2, ee]
  rw [ep, eq] at l2 m2
  rw [ee] at m2
  refine ⟨by rw [ep, eq], rfl, ?_, by simp [ep, eq]⟩
  have hco : Nat.Coprime e.val (Nat.lcm (p.val - 1) (q.val - 1)) := Nat.coprime_of_mul_modEq_one _ m1
  have hm : e.val * K'.d.val ≡ e.val * K.d.val [MOD Nat.lcm (p.val - 1) (q.val - 1)] := m2.trans m1.symm
  have := Nat.ModEq.cancel_left_of_coprime hco.symm hm
  exact Nat.ModEq.eq_of_lt_of_lt this l2 l1

/-- C106: the same for lists of primes. -/
theorem C106_same_primes (hw : 0 < w) (hw' : 0 < w') {ps : List (words.Uint w)} {e : words.Uint w}
    {ps' : List (words.Uint w')} {e' : words.Uint w'} (hprime : ∀ p ∈ ps, p.val.Prime)
    (ep : ps'.map words.Uint.val = ps.map words.Uint.val) (ee : e'.val = e.val) {K : PrivKey w} {K' : PrivKey w'}
    (hK : words.fromPrimes ps e = .ok K) (hK' : words.fromPrimes ps' e' = .ok K') :
    K'.pub.n.val = K.pub.n.val ∧ K'.pub.e.val = K.pub.e.val ∧ K'.d.val = K.d.val ∧
      K'.primes.map words.Uint.val = K.primes.map words.Uint.val := by
  have hprime' : ∀ p ∈ ps', p.val.Prime := by
    intro p hp
    have : p.val ∈ ps.map words.Uint.val := ep ▸ List.mem_map_of_mem hp
    obtain ⟨x, hx, hxe⟩ := List.mem_map.mp this
    exact hxe ▸ hprime x hx
  obtain ⟨n1, -, e1, p1, l1, m1, -⟩ := (C106_from_primes hw ps e hprime).1 K hK
  obtain ⟨n2, -, e2, p2, l2, m2, -⟩ := (C106_from_primes hw' ps' e' hprime').1 K' hK'
  have ht : (ps'.map (fun p => p.val - 1)).prod = (ps.map (fun p => p.val - 1)).prod := by
    have h1 : ps'.map (fun p => p.val - 1) = (ps'.map words.Uint.val).map (fun x => x - 1) := by simp
    have h2 : ps.map (fun p => p.val - 1) = (ps.map words.Uint.val).map (fun x => x - 1) := by simp
    rw [h1, h2, ep]
  rw [n1, n2, e1, e2, p1, p2, ee, ep]
  rw [ht] at l2 m2
  rw [ee] at m2
  refine ⟨rfl, rfl, ?_, rfl⟩
  have hco := Nat.coprime_of_mul_modEq_one _ m1
  have hm := m2.trans m1.symm
  exact Nat.ModEq.eq_of_lt_of_lt (Nat.ModEq.cancel_left_of_coprime hco.symm hm) l2 l1

/-- C106: of primes of `b` bits stored without spare words, `from_p_q` makes a key that signs; the machine on which it was
made accepts its PKCS#1 v1.5 signatures exactly if `b`, divided by the bits of a word, leaves no remainder or more than half
a word. -/
theorem C106_own {σ : Type} (hw : 0 < w) (R : RngImpl σ) (fuel : Nat) (rng : Option σ) (b : Nat) (h0 : 0 < b)
    (p q e : words.Uint w) (hp : p.val.Prime) (hq : q.val.Prime) (lp : p.nlimbs = divCeil b (8 * w))
    (lq : q.nlimbs = divCeil b (8 * w)) (hbits : (p.val * q.val).size = 2 * b) {K : PrivKey w}
    (hK : words.fromPQ p q e = .ok K) (hb : BlindingOk R (p.val * q.val) fuel rng) (S : pkcs1v15.Pkcs1v15Sign)
    (hashed em : Bytes) (hl : ∀ l, S.hashLen = some l → hashed.length = l)
    (hem : emsaPkcs1v15 (S.pfx ++ hashed) (octetLen (p.val * q.val)) = some em) :
    ∃ s, words.pkcs1v15Sign R fuel rng K S.pfx hashed = .ok s ∧
      (words.Pkcs1v15Sign.verify S K.pub hashed s = .ok () ↔ b % (8 * w) = 0 ∨ 4 * w < b % (8 * w)) := by
  obtain ⟨g1, g2⟩ := C106_from_p_q hw p q e hp hq
  obtain ⟨k1, k2, -, -, -, -, -, -, k5⟩ := g1 K hK
  obtain ⟨-, -, -, -, hpub⟩ := g2.mp ⟨K, hK⟩
  have h29 : octetLen K.pub.n.val < 2 ^ 29 := by
    rw [k2]
    unfold PublicOk at hpub
    have hlt : p.val * q.val < 2 ^ 4096 := by
      have := (p.mul q).isLt
      rw [(words.mul_vals p q).1, (words.mul_vals p q).2] at this
      exact lt_of_lt_of_le this (Nat.pow_le_pow_right (by norm_num) hpub.1)
    have := Nat.size_le.mpr hlt
    unfold octetLen
    omega
  exact C104_own hw R fuel rng k5 (by rw [k2]; exact hb) b h0 p q lp lq k1 hbits h29 S hashed em hl (by rw [k2]; exact hem)

/-! ### Examples -/

/-- A 32-bit machine makes its example key from the primes and 65537; the exponent takes seven words. -/
example : ∃ K, words.fromPQ (w := 4) (words.Uint.wrap 3 (2 ^ 89 - 1)) (words.Uint.wrap 4 (2 ^ 127 - 1))
    (words.Uint.wrap 1 65537) = .ok K ∧ K.d.nlimbs = 7 ∧ K.pub.n.nlimbs = 7 ∧ WordsWellFormed K := by
  have h89 : (words.Uint.wrap (w := 4) 3 (2 ^ 89 - 1)).val = 2 ^ 89 - 1 := by decide +kernel
  have h127 : (words.Uint.wrap (w := 4) 4 (2 ^ 127 - 1)).val = 2 ^ 127 - 1 := by decide +kernel
  obtain ⟨g1, g2⟩ := C106_from_p_q (w := 4) (by norm_num) (words.Uint.wrap 3 (2 ^ 89 - 1)) (words.Uint.wrap 4 (2 ^ 127 - 1))
    (words.Uint.wrap 1 65537) (by rw [h89]; exact Ex.prime89) (by rw [h127]; exact Ex.prime127)
  obtain ⟨K, hK⟩ := g2.mpr (by unfold PublicOk; decide +kernel)
  obtain ⟨k1, -, -, -, k4, -, -, -, k5⟩ := g1 K hK
  exact ⟨K, hK, by rw [k4]; rfl, by rw [k1]; rfl, k5⟩

/-- Such a key is refused if the exponent is stored wider than the primes together, and if it is not invertible. -/
example : words.fromPQ (w := 4) (words.Uint.wrap 3 (2 ^ 89 - 1)) (words.Uint.wrap 4 (2 ^ 127 - 1))
      (words.Uint.wrap 8 65537) = .panic .precision ∧
    words.fromPQ (w := 4) (words.Uint.wrap 3 (2 ^ 89 - 1)) (words.Uint.wrap 4 (2 ^ 127 - 1)) (words.Uint.wrap 1 3) =
      .err .invalidPrime := by decide +kernel

example := C106_word8 (BoxedUint.wrap 2 (2 ^ 89 - 1)) (BoxedUint.wrap 2 (2 ^ 127 - 1)) (BoxedUint.wrap 1 65537)
  [BoxedUint.wrap 1 (2 ^ 31 - 1), BoxedUint.wrap 1 (2 ^ 61 - 1), BoxedUint.wrap 2 (2 ^ 89 - 1)]
/-- Both sides are the example key. -/
example : (words.fromPQ (BoxedUint.wrap 2 (2 ^ 89 - 1)).atWord8 (BoxedUint.wrap 2 (2 ^ 127 - 1)).atWord8
    (BoxedUint.wrap 1 65537).atWord8 >>= fun K => .ok K.parts) = .ok Ex.key.parts8 := by
  have h : PrivateKey.fromPQ (BoxedUint.wrap 2 (2 ^ 89 - 1)) (BoxedUint.wrap 2 (2 ^ 127 - 1)) (BoxedUint.wrap 1 65537) =
    .ok Ex.key := by decide +kernel
  rw [(C106_word8 _ _ _ []).1, h]
  rfl

/-- Three primes with words of `w` octets. -/
def Ex.wordsThree (w : Nat) : List (words.Uint w) := [words.Uint.wrap (divCeil 31 (8 * w)) (2 ^ 31 - 1),
  words.Uint.wrap (divCeil 61 (8 * w)) (2 ^ 61 - 1), words.Uint.wrap (divCeil 89 (8 * w)) (2 ^ 89 - 1)]

theorem Ex.wordsThree_prime : (∀ p ∈ Ex.wordsThree 4, p.val.Prime) ∧ (∀ p ∈ Ex.wordsThree 8, p.val.Prime) := by
  have h4 : (Ex.wordsThree 4).map words.Uint.val = [2 ^ 31 - 1, 2 ^ 61 - 1, 2 ^ 89 - 1] := by decide +kernel
  have h8 : (Ex.wordsThree 8).map words.Uint.val = [2 ^ 31 - 1, 2 ^ 61 - 1, 2 ^ 89 - 1] := by decide +kernel
  have hall : ∀ v ∈ ([2 ^ 31 - 1, 2 ^ 61 - 1, 2 ^ 89 - 1] : List Nat), v.Prime := by
    intro v hv
    simp only [List.mem_cons, List.not_mem_nil, or_false] at hv
    rcases hv with h | h | h
    · rw [h]; exact Ex.prime31
    · rw [h]; exact Ex.prime61
    · rw [h]; exact Ex.prime89
  constructor
  · intro p hp; exact hall _ (h4 ▸ List.mem_map_of_mem hp)
  · intro p hp; exact hall _ (h8 ▸ List.mem_map_of_mem hp)

/-- Machines with words of four and of eight octets make the same key of the three primes, the one on six words and the
other on four. -/
example : ∃ K K', words.fromPrimes (Ex.wordsThree 4) (words.Uint.wrap 1 65537) = .ok K ∧
    words.fromPrimes (Ex.wordsThree 8) (words.Uint.wrap 1 65537) = .ok K' ∧ K'.d.val = K.d.val ∧
    K.pub.n.nlimbs = 6 ∧ K'.pub.n.nlimbs = 4 := by
  obtain ⟨K, hK⟩ := (C106_from_primes (w := 4) (by norm_num) (Ex.wordsThree 4) (words.Uint.wrap 1 65537) Ex.wordsThree_prime.1).2.mpr
    ⟨_, _, rfl, by simp, by decide +kernel, by decide +kernel, by decide +kernel, by decide +kernel, by
      unfold PublicOk; decide +kernel⟩
  obtain ⟨K', hK'⟩ := (C106_from_primes (w := 8) (by norm_num) (Ex.wordsThree 8) (words.Uint.wrap 1 65537) Ex.wordsThree_prime.2).2.mpr
    ⟨_, _, rfl, by simp, by decide +kernel, by decide +kernel, by decide +kernel, by decide +kernel, by
      unfold PublicOk; decide +kernel⟩
  have hs := C106_same_primes (w := 4) (w' := 8) (by norm_num) (by norm_num) Ex.wordsThree_prime.1 (by decide +kernel)
    (by decide +kernel) hK hK'
  refine ⟨K, K', hK, hK', hs.2.2.1, ?_, ?_⟩
  · rw [((C106_from_primes (w := 4) (by norm_num) _ _ Ex.wordsThree_prime.1).1 K hK).2.1]; decide
  · rw [((C106_from_primes (w := 8) (by norm_num) _ _ Ex.wordsThree_prime.2).1 K' hK').2.1]; decide

/-- A prime of 88 bits without spare words. -/
def Ex.wordsP88 (w c : Nat) : words.Uint w := words.Uint.wrap (divCeil 88 (8 * w)) (c * 2 ^ 72 + 1)

/-- Two primes of 88 bits make the same key on machines with words of four and of eight octets; it accepts its own
signatures on the first and refuses them on the second. -/
example : ∃ K K', words.fromPQ (Ex.wordsP88 4 50551) (Ex.wordsP88 4 50671) (words.Uint.wrap 1 65537) = .ok K ∧
    words.fromPQ (Ex.wordsP88 8 50551) (Ex.wordsP88 8 50671) (words.Uint.wrap 1 65537) = .ok K' ∧ K'.d.val = K.d.val ∧
    (∃ s, words.pkcs1v15Sign Ex.countingRng 3 none K [9] [1, 2, 3, 4] = .ok s ∧
      words.Pkcs1v15Sign.verify ⟨some 4, [9]⟩ K.pub [1, 2, 3, 4] s = .ok ()) ∧
    (∃ s, words.pkcs1v15Sign Ex.countingRng 3 none K' [9] [1, 2, 3, 4] = .ok s ∧
      words.Pkcs1v15Sign.verify ⟨some 4, [9]⟩ K'.pub [1, 2, 3, 4] s ≠ .ok ()) := by
  have a4 : (Ex.wordsP88 4 50551).val = 50551 * 2 ^ 72 + 1 := by decide +kernel
  have b4 : (Ex.wordsP88 4 50671).val = 50671 * 2 ^ 72 + 1 := by decide +kernel
  have a8 : (Ex.wordsP88 8 50551).val = 50551 * 2 ^ 72 + 1 := by decide +kernel
  have b8 : (Ex.wordsP88 8 50671).val = 50671 * 2 ^ 72 + 1 := by decide +kernel
  have pa4 : (Ex.wordsP88 4 50551).val.Prime := by rw [a4]; exact Ex.prime88a
  have pb4 : (Ex.wordsP88 4 50671).val.Prime := by rw [b4]; exact Ex.prime88b
  have pa8 : (Ex.wordsP88 8 50551).val.Prime := by rw [a8]; exact Ex.prime88a
  have pb8 : (Ex.wordsP88 8 50671).val.Prime := by rw [b8]; exact Ex.prime88b
  obtain ⟨K, hK⟩ := (C106_from_p_q (w := 4) (by norm_num) _ _ (words.Uint.wrap 1 65537) pa4 pb4).2.mpr
    (by unfold PublicOk; decide +kernel)
  obtain ⟨K', hK'⟩ := (C106_from_p_q (w := 8) (by norm_num) _ _ (words.Uint.wrap 1 65537) pa8 pb8).2.mpr
    (by unfold PublicOk; decide +kernel)
  have hs := C106_same_p_q (w := 4) (w' := 8) (by norm_num) (by norm_num) pa4 pb4 (by rw [a4, a8]) (by rw [b4, b8])
    (by decide +kernel) hK hK'
  have ho : octetLen ((50551 * 2 ^ 72 + 1) * (50671 * 2 ^ 72 + 1)) = 22 := by
    have hv : (Ex.key88 8 (by decide +kernel)).pub.n.val = (50551 * 2 ^ 72 + 1) * (50671 * 2 ^ 72 + 1) := by
      decide +kernel
    rw [← hv, ← PubKey.size_eq]; decide +kernel
  refine ⟨K, K', hK, hK', hs.2.2.1, ?_, ?_⟩
  · obtain ⟨s, h1, h2⟩ := C106_own (w := 4) (by norm_num) Ex.countingRng 3 none 88 (by norm_num) _ _ _ pa4 pb4 rfl rfl
      (by rw [a4, b4]; decide +kernel) hK trivial ⟨some 4, [9]⟩ [1, 2, 3, 4]
      ([0, 1] ++ List.replicate 14 255 ++ [0, 9, 1, 2, 3, 4]) (by decide) (by rw [a4, b4, ho]; decide +kernel)
    exact ⟨s, h1, h2.mpr (by decide)⟩
  · obtain ⟨s, h1, h2⟩ := C106_own (w := 8) (by norm_num) Ex.countingRng 3 none 88 (by norm_num) _ _ _ pa8 pb8 rfl rfl
      (by rw [a8, b8]; decide +kernel) hK' trivial ⟨some 4, [9]⟩ [1, 2, 3, 4]
      ([0, 1] ++ List.replicate 14 255 ++ [0, 9, 1, 2, 3, 4]) (by decide) (by rw [a8, b8, ho]; decide +kernel)
    exact ⟨s, h1, fun h => absurd (h2.mp h) (by decide)⟩

end RSA
