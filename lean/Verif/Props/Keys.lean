import Verif.Props.Raw
import Verif.Proof.FromPrimes
import Mathlib.Tactic.NormNum.Prime

/-
C26 - C30, C33 - C35, C51 - C53: keys (src/key.rs, src/algorithms/rsa.rs:recover_primes, compute_*).
-/
namespace RSA
open BoxedUint

/-! ### C26 -/

/-- C26: `RsaPublicKey::new_with_max_size` (and `new`, with limit 4096) accepts exactly the documented pairs, stores them
unchanged, and every rejection has the documented error in the documented order. It never panics. -/
theorem C26_public_key_acceptance (n e : BoxedUint) (maxSz : Nat) :
    (∀ k, PublicKey.newWithMaxSize n e maxSz = .ok k ↔
      (n.prec ≤ maxSz ∧ e.val < n.val ∧ n.val % 2 = 1 ∧ e.val % 2 = 1 ∧ 2 ≤ e.val ∧ e.val ≤ 2 ^ 33 - 1) ∧
        k.n = n ∧ k.e = e ∧ k.Coherent) ∧
    (PublicKey.newWithMaxSize n e maxSz = .err .modulusTooLarge ↔ maxSz < n.prec) ∧
    (PublicKey.newWithMaxSize n e maxSz = .err .invalidModulus ↔ n.prec ≤ maxSz ∧ (n.val ≤ e.val ∨ n.val % 2 = 0)) ∧
    (PublicKey.newWithMaxSize n e maxSz = .err .invalidExponent ↔
      n.prec ≤ maxSz ∧ e.val < n.val ∧ n.val % 2 = 1 ∧ e.val % 2 = 0) ∧
    (PublicKey.newWithMaxSize n e maxSz = .err .publicExponentTooSmall ↔
      n.prec ≤ maxSz ∧ e.val < n.val ∧ n.val % 2 = 1 ∧ e.val = 1) ∧
    (PublicKey.newWithMaxSize n e maxSz = .err .publicExponentTooLarge ↔
      n.prec ≤ maxSz ∧ e.val < n.val ∧ n.val % 2 = 1 ∧ e.val % 2 = 1 ∧ 2 ^ 33 - 1 < e.val) ∧
    (PublicKey.newWithMaxSize n e maxSz).Returns ∧
    PublicKey.new n e = PublicKey.newWithMaxSize n e 4096 := by
  have hmin : (ofU64 minPubExponent).val = 2 := by decide
  have hmax : (ofU64 maxPubExponent).val = 2 ^ 33 - 1 := by decide
  have hall : (PublicKey.newWithMaxSize n e maxSz = .err .modulusTooLarge ∧ maxSz < n.prec) ∨
      (PublicKey.newWithMaxSize n e maxSz = .err .invalidModulus ∧ n.prec ≤ maxSz ∧ (n.val ≤ e.val ∨ n.val % 2 = 0)) ∨
      (PublicKey.newWithMaxSize n e maxSz = .err .invalidExponent ∧
        n.prec ≤ maxSz ∧ e.val < n.val ∧ n.val % 2 = 1 ∧ e.val % 2 = 0) ∨
      (PublicKey.newWithMaxSize n e maxSz = .err .publicExponentTooSmall ∧
        n.prec ≤ maxSz ∧ e.val < n.val ∧ n.val % 2 = 1 ∧ e.val = 1) ∨
      (PublicKey.newWithMaxSize n e maxSz = .err .publicExponentTooLarge ∧
        n.prec ≤ maxSz ∧ e.val < n.val ∧ n.val % 2 = 1 ∧ e.val % 2 = 1 ∧ 2 ^ 33 - 1 < e.val) ∨
      (∃ h : n.val % 2 = 1, PublicKey.newWithMaxSize n e maxSz = .ok ⟨n, e, ⟨⟨n, h⟩⟩⟩ ∧
        n.prec ≤ maxSz ∧ e.val < n.val ∧ e.val % 2 = 1 ∧ 2 ≤ e.val ∧ e.val ≤ 2 ^ 33 - 1) := by
    unfold PublicKey.newWithMaxSize checkPublicWithMaxSize
    by_cases h1 : n.prec > maxSz
    · rw [if_pos h1]; exact Or.inl ⟨rfl, h1⟩
    rw [if_neg h1]
    by_cases h2 : e.val < n.val
    · by_cases h3 : n.val % 2 = 1
      · have hb : (e.ge n || n.isEven || n.isZero) = false := by
          simp [ge, lt, isEven, isZero, h2, h3]; omega
        rw [hb]
        simp only [Bool.false_eq_true, if_false]
        by_cases h4 : e.val % 2 = 0
        · have : e.isEven = true := by simp [isEven, h4]
          rw [this]
          exact Or.inr (Or.inr (Or.inl ⟨rfl, by omega, h2, h3, h4⟩))
        · have : e.isEven = false := by simp [isEven]; omega
          rw [this]
          simp only [Bool.false_eq_true, if_false]
          by_cases h5 : e.val < 2
          · have : e.lt (ofU64 minPubExponent) = true := by unfold lt; rw [hmin]; simpa using h5
            rw [this]
            exact Or.inr (Or.inr (Or.inr (Or.inl ⟨rfl, by omega, h2, h3, by omega⟩)))
          · have : e.lt (ofU64 minPubExponent) = false := by unfold lt; rw [hmin]; exact decide_eq_false (by omega)
            rw [this]
            simp only [Bool.false_eq_true, if_false]
            by_cases h6 : 2 ^ 33 - 1 < e.val
            · have : e.gt (ofU64 maxPubExponent) = true := by unfold gt lt; rw [hmax]; simpa using h6
              rw [this]
              exact Or.inr (Or.inr (Or.inr (Or.inr (Or.inl ⟨rfl, by omega, h2, h3, by omega, h6⟩))))
            · have : e.gt (ofU64 maxPubExponent) = false := by
                unfold gt lt; rw [hmax]; simpa using (by omega : e.val ≤ 2 ^ 33 - 1)
              rw [this]
              simp only [Bool.false_eq_true, if_false, Res.ok_bind]
              refine Or.inr (Or.inr (Or.inr (Or.inr (Or.inr ⟨h3, ?_, by omega, h2, by omega, by omega, by omega⟩))))
              simp only [OddUint.new, h3, dif_pos]
              rw [expectNonZero_of_ne (by omega)]
              rfl
      · have hb : (e.ge n || n.isEven || n.isZero) = true := by
          have : n.isEven = true := by simp [isEven]; omega
          rw [this]; simp
        rw [hb]
        exact Or.inr (Or.inl ⟨rfl, by omega, Or.inr (by omega)⟩)
    · have hb : (e.ge n || n.isEven || n.isZero) = true := by
        have : e.ge n = true := by simp [ge, lt]; omega
        rw [this]; simp
      rw [hb]
      exact Or.inr (Or.inl ⟨rfl, by omega, Or.inl (by omega)⟩)
  have hR : (PublicKey.newWithMaxSize n e maxSz).Returns := by
    rcases hall with ⟨h, _⟩ | ⟨h, _⟩ | ⟨h, _⟩ | ⟨h, _⟩ | ⟨h, _⟩ | ⟨_, h, _⟩ <;> rw [h] <;> trivial
  refine ⟨?_, ?_, ?_, ?_, ?_, ?_, hR, rfl⟩
  · intro k
    rcases hall with ⟨h, h'⟩ | ⟨h, h'⟩ | ⟨h, h'⟩ | ⟨h, h'⟩ | ⟨h, h'⟩ | ⟨ho, h, h'⟩ <;> rw [h]
    · exact ⟨fun h => (by cases h), fun h => (by omega)⟩
    · exact ⟨fun h => (by cases h), fun h => (by omega)⟩
    · exact ⟨fun h => (by cases h), fun h => (by omega)⟩
    · exact ⟨fun h => (by cases h), fun h => (by omega)⟩
    · exact ⟨fun h => (by cases h), fun h => (by omega)⟩
    · constructor
      · intro hk
        obtain rfl := Res.ok.inj hk
        exact ⟨⟨h'.1, h'.2.1, ho, h'.2.2.1, h'.2.2.2.1, h'.2.2.2.2⟩, rfl, rfl, rfl⟩
      · rintro ⟨_, rfl, rfl, hc⟩
        rcases k with ⟨kn, ke, ⟨⟨m, hm⟩⟩⟩
        have hc' : m = kn := hc
        subst hc'
        rfl
  all_goals
    rcases hall with ⟨h, h'⟩ | ⟨h, h'⟩ | ⟨h, h'⟩ | ⟨h, h'⟩ | ⟨h, h'⟩ | ⟨ho, h, h'⟩ <;> rw [h] <;> constructor <;> intro hh <;>
      first | exact h' | rfl | (exfalso; omega) | (cases hh)

/-- Each outcome of C26 occurs. -/
example : (PublicKey.new (wrap 4 ((2 ^ 89 - 1) * (2 ^ 127 - 1))) (wrap 1 65537)) = .ok Ex.pub := by decide +kernel
example : PublicKey.newWithMaxSize (wrap 3 15) (wrap 1 3) 128 = .err .modulusTooLarge := by decide
example : PublicKey.new (wrap 1 16) (wrap 1 3) = .err .invalidModulus := by decide
example : PublicKey.new (wrap 1 15) (wrap 1 15) = .err .invalidModulus := by decide
example : PublicKey.new (wrap 1 15) (wrap 1 4) = .err .invalidExponent := by decide
example : PublicKey.new (wrap 1 15) (wrap 1 1) = .err .publicExponentTooSmall := by decide
example : PublicKey.new (wrap 1 (2 ^ 60 + 1)) (wrap 1 (2 ^ 33 + 1)) = .err .publicExponentTooLarge := by decide

/-- C26, `new_unchecked`: stores any pair with an odd modulus, panics on an even one. -/
theorem C26_new_unchecked (n e : BoxedUint) :
    (n.val % 2 = 1 → ∃ k, PublicKey.newUnchecked n e = .ok k ∧ k.n = n ∧ k.e = e ∧ k.Coherent) ∧
    (n.val % 2 = 0 → (PublicKey.newUnchecked n e).Panics) := by
  constructor
  · intro h
    refine ⟨⟨n, e, ⟨⟨n, h⟩⟩⟩, ?_, rfl, rfl, rfl⟩
    simp only [PublicKey.newUnchecked, OddUint.new, h, dif_pos]
    rw [expectNonZero_of_ne (by omega)]; rfl
  · intro h
    have : ¬ n.val % 2 = 1 := by omega
    simp only [PublicKey.newUnchecked, OddUint.new, this, dif_neg, not_false_iff]
    trivial

example : (wrap 1 15).val % 2 = 1 ∧ (wrap 1 16).val % 2 = 0 := by decide

/-! ### C27 -/

/-- C27: exactly which key objects `validate` accepts: the public part is acceptable, the product of the factors agrees
with `n` modulo `2 ^ (precision of n)`, every factor exceeds 1 and fits twice the width of `d`, and `d e` leaves
remainder 1 modulo every factor minus 1.
Missing for the full claim: the product need not *equal* `n` (see `C27_product_wraps`). -/
theorem C27_validate_partial (k : PrivateKey) (hl : 1 ≤ k.pub.n.nlimbs) (hd : 1 ≤ k.d.nlimbs) :
    (k.validate = .ok () ↔
      (k.pub.n.prec ≤ 4096 ∧ k.pub.e.val < k.pub.n.val ∧ k.pub.n.val % 2 = 1 ∧ k.pub.e.val % 2 = 1 ∧ 2 ≤ k.pub.e.val ∧
        k.pub.e.val ≤ 2 ^ 33 - 1) ∧
      (k.primes.map BoxedUint.val).prod % 2 ^ k.pub.n.prec = k.pub.n.val ∧
      ∀ p ∈ k.primes, p.prec ≤ 2 * k.d.prec ∧ 1 < p.val ∧ k.d.val * k.pub.e.val % (p.val - 1) = 1) ∧
    (k.validate = .ok () → (k.primes.map BoxedUint.val).prod < 2 ^ k.pub.n.prec →
      (k.primes.map BoxedUint.val).prod = k.pub.n.val) := by
  have hlf : 64 * limbsFor (2 * k.d.prec) = 2 * k.d.prec := by unfold limbsFor prec; omega
  have h := PrivateKey.validate_ok_iff k hl
  rw [checkPublic_ok, hlf] at h
  refine ⟨h, fun hv hlt => ?_⟩
  rw [h] at hv
  rw [← hv.2.1, Nat.mod_eq_of_lt hlt]

/-- A two-prime and a three-prime key that validate. -/
example : Ex.key.validate = .ok () ∧ 1 ≤ Ex.key.pub.n.nlimbs ∧ 1 ≤ Ex.key.d.nlimbs := by decide +kernel
example : Ex.key3.validate = .ok () := by decide +kernel

/-- C27, keys from `from_components`: two or more factors, the components are stored unchanged, the object validates,
and CRT values are cached only if computed from it. -/
theorem C27_from_components (n : OddUint) (e d : BoxedUint) (primes : List BoxedUint) (hne : primes ≠ [])
    (k : PrivateKey) (h : PrivateKey.fromComponents n e d primes = .ok k) :
    k.pub.n = n.toBoxedUint ∧ k.pub.e = e ∧ k.pub.Coherent ∧ k.d = d ∧ k.primes = primes ∧ 2 ≤ k.primes.length ∧
      k.validate = .ok () ∧
      (n.toBoxedUint.nlimbs ≤ d.nlimbs → (∀ p ∈ primes, p.val.Prime) → (primes.map BoxedUint.val).Nodup →
        (primes.map BoxedUint.val).prod = n.toBoxedUint.val → Spec.WellFormed k) := by
  obtain ⟨h1, h2, h3, h4, h5, h6, h7, _⟩ := PrivateKey.fromComponents_ok hne h
  refine ⟨h1, h2, ?_, h4, h5, by rw [h5]; exact h6, h7, ?_⟩
  · unfold PublicKey.Coherent; rw [h3, h1]
  · intro hw hp hn hprod
    exact PrivateKey.fromComponents_wf h hp hn hne hprod hw

example : PrivateKey.fromComponents Ex.nOdd (wrap 1 65537) (wrap 4 Ex.dVal) [wrap 2 (2 ^ 89 - 1), wrap 2 (2 ^ 127 - 1)]
    = .ok Ex.key := by decide +kernel

namespace Ex
/-- The low 64 bits of `(2^31 - 1)(2^61 - 1)`. -/
def wrapN : OddUint := ⟨wrap 1 ((2 ^ 31 - 1) * (2 ^ 61 - 1)), by decide⟩
def wrapD : BoxedUint := wrap 2 1690970304802162823
def wrapPrimes : List BoxedUint := [wrap 1 (2 ^ 31 - 1), wrap 1 (2 ^ 61 - 1)]
end Ex

/-- C27 fails: `from_components` accepts two primes whose product is not `n` (it is computed modulo `2^64` here), and
the resulting key does not decrypt: the ciphertext of 2 is rejected by the private operation. -/
theorem C27_product_wraps :
    ∃ k, PrivateKey.fromComponents Ex.wrapN (wrap 1 65537) Ex.wrapD Ex.wrapPrimes = .ok k ∧
      (∀ p ∈ k.primes, p.val.Prime) ∧ (k.primes.map BoxedUint.val).prod ≠ k.pub.n.val ∧
      ∃ c, rsaEncrypt k.pub (wrap 1 2) = .ok c ∧
        rsaDecryptAndCheck Ex.countingRng 1 k none c = .err .internal := by
  have hex : (match PrivateKey.fromComponents Ex.wrapN (wrap 1 65537) Ex.wrapD Ex.wrapPrimes with
      | .ok k => decide ((k.primes.map BoxedUint.val).prod ≠ k.pub.n.val) &&
          (match rsaEncrypt k.pub (wrap 1 2) with
            | .ok c => decide (rsaDecryptAndCheck Ex.countingRng 1 k none c = .err .internal)
            | _ => false)
      | _ => false) = true := by decide +kernel
  cases hk : PrivateKey.fromComponents Ex.wrapN (wrap 1 65537) Ex.wrapD Ex.wrapPrimes with
  | ok k =>
    rw [hk] at hex
    simp only [Bool.and_eq_true, decide_eq_true_eq] at hex
    refine ⟨k, rfl, ?_, hex.1, ?_⟩
    · intro p hp
      have : k.primes = Ex.wrapPrimes := (PrivateKey.fromComponents_ok (by decide) hk).2.2.2.2.1
      rw [this] at hp
      rcases List.mem_cons.mp hp with rfl | hp
      · exact Ex.prime31
      · obtain rfl : p = wrap 1 (2 ^ 61 - 1) := by simpa using hp
        exact Ex.prime61
    · cases hc : rsaEncrypt k.pub (wrap 1 2) with
      | ok c => rw [hc] at hex; exact ⟨c, rfl, by simpa using hex.2⟩
      | err _ => rw [hc] at hex; simp at hex
      | panic _ => rw [hc] at hex; simp at hex
      | loop => rw [hc] at hex; simp at hex
  | err _ => rw [hk] at hex; simp at hex
  | panic _ => rw [hk] at hex; simp at hex
  | loop => rw [hk] at hex; simp at hex

/-! ### C51 -/

/-- C51, what is checked about the factors given to `from_components`: they are odd, exceed 1, and `d e ≡ 1` modulo each
minus 1. Missing for the full claim: nothing makes them prime or distinct. -/
theorem C51_factors_partial (n : OddUint) (e d : BoxedUint) (primes : List BoxedUint) (hne : primes ≠ [])
    (k : PrivateKey) (h : PrivateKey.fromComponents n e d primes = .ok k) :
    ∀ p ∈ primes, p.val % 2 = 1 ∧ 1 < p.val ∧ d.val * e.val % (p.val - 1) = 1 := by
  obtain ⟨h1, h2, _, h4, h5, _, h7, _⟩ := PrivateKey.fromComponents_ok hne h
  have hl : 1 ≤ k.pub.n.nlimbs := by rw [h1]; exact n.nlimbs_pos
  obtain ⟨_, hprod, hx⟩ := (PrivateKey.validate_ok_iff k hl).mp h7
  intro p hp
  rw [h5, h1] at hprod
  rw [h5, h4, h2] at hx
  obtain ⟨_, hp1, hp2⟩ := hx p hp
  refine ⟨?_, hp1, hp2⟩
  by_contra hc
  have hdvd : p.val ∣ (primes.map BoxedUint.val).prod := List.dvd_prod (List.mem_map.mpr ⟨p, hp, rfl⟩)
  have h2d : 2 ∣ (primes.map BoxedUint.val).prod := dvd_trans (by omega) hdvd
  have h2p : 2 ∣ 2 ^ n.toBoxedUint.prec := dvd_pow_self 2 (by
    have := n.nlimbs_pos; unfold prec; omega)
  have : 2 ∣ n.toBoxedUint.val := by rw [← hprod]; exact (Nat.dvd_mod_iff h2p).mpr h2d
  have := n.odd
  omega

example : (PrivateKey.fromComponents Ex.nOdd (wrap 1 65537) (wrap 4 Ex.dVal)
    [wrap 2 (2 ^ 89 - 1), wrap 2 (2 ^ 127 - 1)]).Returns := by decide +kernel

/-- C51 fails: a repeated prime is accepted (`n = 49 = 7 * 7`), and then 7 encrypts to a ciphertext that decrypts,
without any error, to 0. -/
theorem C51_repeated_prime_accepted :
    ∃ k, PrivateKey.fromComponents ⟨wrap 1 49, by decide⟩ (wrap 1 5) (wrap 1 5) [wrap 1 7, wrap 1 7] = .ok k ∧
      rsaEncrypt k.pub (wrap 1 7) = .ok (wrap 1 0) ∧
      rsaDecryptAndCheck Ex.countingRng 1 k none (wrap 1 0) = .ok (wrap 1 0, none) :=
  ⟨⟨⟨wrap 1 49, wrap 1 5, ⟨⟨wrap 1 49, by decide⟩⟩⟩, wrap 1 5, [wrap 1 7, wrap 1 7], none⟩,
    by decide +kernel, by decide +kernel, by decide +kernel⟩

/-- C51 fails: a composite factor is accepted (`n = 45 = 9 * 5`), and then 3 encrypts to 27, which decrypts, without any
error, to 18. -/
theorem C51_composite_accepted :
    ∃ k, PrivateKey.fromComponents ⟨wrap 1 45, by decide⟩ (wrap 1 3) (wrap 1 3) [wrap 1 9, wrap 1 5] = .ok k ∧
      rsaEncrypt k.pub (wrap 1 3) = .ok (wrap 1 27) ∧
      rsaDecryptAndCheck Ex.countingRng 1 k none (wrap 1 27) = .ok (wrap 1 18, none) := by
  have hex : (match PrivateKey.fromComponents ⟨wrap 1 45, by decide⟩ (wrap 1 3) (wrap 1 3) [wrap 1 9, wrap 1 5] with
      | .ok k => decide (rsaEncrypt k.pub (wrap 1 3) = .ok (wrap 1 27) ∧
          rsaDecryptAndCheck Ex.countingRng 1 k none (wrap 1 27) = .ok (wrap 1 18, none))
      | _ => false) = true := by decide +kernel
  cases hk : PrivateKey.fromComponents ⟨wrap 1 45, by decide⟩ (wrap 1 3) (wrap 1 3) [wrap 1 9, wrap 1 5] with
  | ok k => rw [hk] at hex; exact ⟨k, rfl, by simpa using hex⟩
  | err _ => rw [hk] at hex; simp at hex
  | panic _ => rw [hk] at hex; simp at hex
  | loop => rw [hk] at hex; simp at hex

/-! ### C28 -/

/-- C28, `validate` and `from_components` with factors supplied: they return, Ok or Err, if no factor is 1 and no factor
is stored wider than `d` (twice as wide suffices for `validate`). Missing for the full claim: the other inputs, which
can panic (theorems below). -/
theorem C28_returns_partial :
    (∀ k : PrivateKey, (∀ p ∈ k.primes, p.val ≠ 1 ∧ p.prec ≤ 2 * k.d.prec) → k.validate.Returns) ∧
    (∀ (n : OddUint) (e d : BoxedUint) (primes : List BoxedUint), primes ≠ [] → 1 ≤ d.nlimbs →
      (∀ p ∈ primes, p.val ≠ 1 ∧ p.prec ≤ d.prec) → (PrivateKey.fromComponents n e d primes).Returns) ∧
    (∀ (n : OddUint) (e d : BoxedUint), e.val ≤ 65536 → (PrivateKey.fromComponents n e d []).Returns) := by
  refine ⟨?_, ?_, ?_⟩
  · intro k h
    rcases PrivateKey.validate_returns k h with h | ⟨er, h⟩ <;> rw [h] <;> trivial
  · intro n e d primes hne hd h
    match primes, hne, h with
    | [p], _, _ =>
      have hnz : n.toBoxedUint.nonZero = some n.toBoxedUint := by
        have := n.pos
        unfold nonZero; rw [if_neg (by omega)]
      unfold PrivateKey.fromComponents
      simp only [hnz]
      trivial
    | p :: q :: rest, _, h =>
      have hv := PrivateKey.validate_returns ⟨⟨n.toBoxedUint, e, ⟨n⟩⟩, d, p :: q :: rest, none⟩ (by
        intro x hx
        obtain ⟨h1, h2⟩ := h x hx
        exact ⟨h1, by show x.prec ≤ 2 * d.prec; omega⟩)
      have hpl := (h p (by simp)).2
      have hql := (h q (by simp)).2
      unfold prec at hpl hql
      rcases hv with hv | ⟨er, hv⟩
      · obtain ⟨k, hk⟩ := PrivateKey.fromComponents_ok_of_validate hd (by omega) (by omega) hv
        rw [hk]; trivial
      · have hnz : n.toBoxedUint.nonZero = some n.toBoxedUint := by
          have := n.pos
          unfold nonZero; rw [if_neg (by omega)]
        unfold PrivateKey.fromComponents
        simp only [hnz, Res.ok_bind]
        rw [hv]; trivial
  · intro n e d he
    have hnz : n.toBoxedUint.nonZero = some n.toBoxedUint := by
      have := n.pos
      unfold nonZero; rw [if_neg (by omega)]
    unfold PrivateKey.fromComponents
    simp only [hnz]
    rw [recoverPrimes_small _ _ _ he]
    trivial

example : ∀ p ∈ Ex.key.primes, p.val ≠ 1 ∧ p.prec ≤ Ex.key.d.prec := by decide

/-- C28 fails: for every acceptable public key, `from_components` with the factors `1, n` panics, whatever `d` is (the
check is `prime < 1`, and `prime - 1` is then unwrapped as non-zero). -/
theorem C28_factor_one_panics (n : OddUint) (e d : BoxedUint)
    (hok : checkPublicWithMaxSize n.toBoxedUint e maxSize = .ok ()) :
    (PrivateKey.fromComponents n e d [BoxedUint.one, n.toBoxedUint]).Panics := by
  have hnz : n.toBoxedUint.nonZero = some n.toBoxedUint := by
    have := n.pos
    unfold nonZero; rw [if_neg (by omega)]
  unfold PrivateKey.fromComponents
  simp only [hnz, Res.ok_bind]
  unfold PrivateKey.validate
  have hc : checkPublic ⟨n.toBoxedUint, e, ⟨n⟩⟩ = .ok () := hok
  have he : e.val ≤ 2 ^ 33 - 1 := ((checkPublic_ok _).mp hc).2.2.2.2.2
  simp only
  rw [hc, Res.ok_bind, PrivateKey.validateProduct_eq, if_pos (by
    intro p hp
    rcases List.mem_cons.mp hp with rfl | hp
    · exact le_rfl
    · obtain rfl : p = n.toBoxedUint := by simpa using hp
      exact n.pos), Res.ok_bind]
  have hbeq : (wrap (oneWithPrecision n.toBoxedUint.prec).nlimbs ((oneWithPrecision n.toBoxedUint.prec).val *
      (([BoxedUint.one, n.toBoxedUint] : List BoxedUint).map BoxedUint.val).prod)).beq n.toBoxedUint = true := by
    have h1 : (oneWithPrecision n.toBoxedUint.prec).val = 1 := by
      unfold oneWithPrecision; rw [limbsFor_prec _ n.nlimbs_pos]
      exact wrap_val_of_lt (Nat.one_lt_two_pow (by have := n.nlimbs_pos; omega))
    have h2 : (oneWithPrecision n.toBoxedUint.prec).nlimbs = n.toBoxedUint.nlimbs := limbsFor_prec _ n.nlimbs_pos
    have h3 : (([BoxedUint.one, n.toBoxedUint] : List BoxedUint).map BoxedUint.val).prod = n.toBoxedUint.val := by
      simp [one_val]
    rw [h1, h2, h3, one_mul, wrap_self]
    simp [beq]
  rw [hbeq]
  simp only [Bool.not_true, Bool.false_eq_true, if_false]
  obtain ⟨d', hd1, hd2, _⟩ := PrivateKey.de_val d e he
  rw [hd1, Res.ok_bind]
  unfold PrivateKey.validateExponents
  have hw : BoxedUint.one.prec ≤ d'.prec := by
    rw [hd2]; show 64 * 1 ≤ _; unfold limbsFor prec; omega
  rw [widen_of_le hw, Res.ok_bind]
  have hv : (wrap (limbsFor d'.prec) BoxedUint.one.val).val = 1 := widen_val hw
  rw [expectNonZero_of_eq (by rw [wrappingSub_one_val _ (by omega), hv])]
  trivial

example : checkPublicWithMaxSize (wrap 1 15) (wrap 1 3) maxSize = .ok () := by decide

/-- C28 fails: a private exponent stored in fewer limbs than the first factor makes the CRT computation panic, for every
key that passes validation. -/
theorem C28_narrow_d_panics (n : OddUint) (e d p q : BoxedUint) (rest : List BoxedUint)
    (hv : PrivateKey.validate ⟨⟨n.toBoxedUint, e, ⟨n⟩⟩, d, p :: q :: rest, none⟩ = .ok ()) (hw : d.nlimbs < p.nlimbs) :
    (PrivateKey.fromComponents n e d (p :: q :: rest)).Panics := by
  have hnz : n.toBoxedUint.nonZero = some n.toBoxedUint := by
    have := n.pos
    unfold nonZero; rw [if_neg (by omega)]
  unfold PrivateKey.fromComponents
  simp only [hnz, Res.ok_bind]
  rw [hv, Res.ok_bind]
  unfold PrivateKey.tryPrecompute PrivateKey.precompute PrivateKey.precomputeValues
  simp only [Option.isSome_none, Bool.false_eq_true, if_false, primeAt, List.getElem?_cons_zero, Res.ok_bind]
  rw [widen_panic (x := p) (by unfold prec; omega)]
  trivial

/-- The genuine key `n = 3 * 11` with its primes stored in two limbs and `d` in one. -/
example : PrivateKey.validate ⟨⟨wrap 1 33, wrap 1 3, ⟨⟨wrap 1 33, by decide⟩⟩⟩, wrap 1 7, [wrap 2 3, wrap 2 11], none⟩ = .ok () ∧
    (wrap 1 7).nlimbs < (wrap 2 3).nlimbs := by decide +kernel

/-- C28 fails: without factors and with `d = 0`, `from_components` panics for every exponent above 65536. -/
theorem C28_zero_d_panics (n : OddUint) (e d : BoxedUint) (he : 65536 < e.val) (hd : d.val = 0) :
    (PrivateKey.fromComponents n e d []).Panics := by
  have hnz : n.toBoxedUint.nonZero = some n.toBoxedUint := by
    have := n.pos
    unfold nonZero; rw [if_neg (by omega)]
  unfold PrivateKey.fromComponents
  simp only [hnz]
  obtain ⟨x, hx⟩ := recoverPrimes_panics n.toBoxedUint e d he (by omega)
  rw [hx]; trivial

example : 65536 < (wrap 1 65537).val ∧ (wrap 1 0).val = 0 := by decide

/-! ### C30 -/

/-- C30, soundness: any pair `recover_primes` returns multiplies to `n`, larger factor first. -/
theorem C30_recovery_sound (n e d p q : BoxedUint) (h : recoverPrimes n e d = .ok (p, q)) :
    p.val * q.val = n.val ∧ q.val ≤ p.val := by
  by_cases he : 65536 < e.val
  · by_cases hw : e.prec ≤ 2 * d.prec ∧ n.prec ≤ 2 * d.prec ∧ 0 < d.val ∧ 0 < n.val
    · rcases recoverPrimes_eq n e d he hw.1 hw.2.1 hw.2.2.1 hw.2.2.2 with ⟨_, h'⟩ | ⟨p', q', h1, _, _, h'⟩
      · rw [h] at h'; cases h'
      · rw [h] at h'
        obtain ⟨rfl, rfl⟩ := Prod.mk.inj (Res.ok.inj h')
        exact recoverNat_sound h1
    · obtain ⟨x, hx⟩ := recoverPrimes_panics n e d he hw
      rw [hx] at h; cases h
  · rw [recoverPrimes_small n e d (by omega)] at h; cases h

/-- C30, completeness: for `n = p q` with `q < p`, `d e ≡ 1` modulo `lcm(p-1, q-1)`, `e > 65536`, storage no wider than
twice that of `d`, and `u (p + q - 1) ≤ n` where `u = (de-1) gcd(n-1, de-1) / ((p-1)(q-1))` (the range in which the
method of NIST SP 800-56B C.2 works), the two factors are returned. -/
theorem C30_recovery_complete (n e d : BoxedUint) (p q : Nat) (hn : p * q = n.val) (hq : 1 < q) (hqp : q < p)
    (he : 65536 < e.val) (hd : 0 < d.val) (hep : e.prec ≤ 2 * d.prec) (hnp : n.prec ≤ 2 * d.prec)
    (hde : d.val * e.val ≡ 1 [MOD Nat.lcm (p - 1) (q - 1)])
    (hrange : (d.val * e.val - 1) * Nat.gcd (n.val - 1) (d.val * e.val - 1) / ((p - 1) * (q - 1)) * (p + q - 1) ≤ n.val) :
    ∃ p' q', recoverPrimes n e d = .ok (p', q') ∧ p'.val = p ∧ q'.val = q := by
  have hnpos : 0 < n.val := by rw [← hn]; exact Nat.mul_pos (by omega) (by omega)
  have hphi : 0 < (p - 1) * (q - 1) := Nat.mul_pos (by omega) (by omega)
  have hde1 : 65536 < d.val * e.val := lt_of_lt_of_le he (Nat.le_mul_of_pos_left _ hd)
  have hdvd : Nat.lcm (p - 1) (q - 1) ∣ d.val * e.val - 1 := (Nat.modEq_iff_dvd' (by omega)).mp hde.symm
  obtain ⟨u, hu⟩ := totient_dvd hn (by omega) (by omega) hdvd
  have hapos : 0 < (d.val * e.val - 1) * Nat.gcd (n.val - 1) (d.val * e.val - 1) :=
    Nat.mul_pos (by omega) (Nat.gcd_pos_of_pos_right _ (by omega))
  rw [hu, Nat.mul_div_cancel_left _ hphi] at hrange
  have hupos : 0 < u := by
    rcases Nat.eq_zero_or_pos u with h0 | h0
    · rw [hu, h0] at hapos; omega
    · exact h0
  have hrec := recoverNat_complete hn (by omega) hqp hupos hrange
  rcases recoverPrimes_eq n e d he hep hnp hd hnpos with ⟨h1, _⟩ | ⟨p', q', h1, _, _, h2⟩
  · rw [hu, mul_comm, hrec] at h1; cases h1
  · rw [hu, mul_comm, hrec] at h1
    obtain ⟨h3, h4⟩ := Prod.mk.inj (Option.some.inj h1)
    exact ⟨p', q', h2, h3.symm, h4.symm⟩

/-- The 216-bit example key is in that range. -/
example : 65536 < (65537 : Nat) ∧ Ex.dVal * 65537 % Nat.lcm (2 ^ 127 - 2) (2 ^ 89 - 2) = 1 ∧
    (Ex.dVal * 65537 - 1) * Nat.gcd ((2 ^ 127 - 1) * (2 ^ 89 - 1) - 1) (Ex.dVal * 65537 - 1) / ((2 ^ 127 - 2) * (2 ^ 89 - 2))
      * (2 ^ 127 - 1 + (2 ^ 89 - 1) - 1) ≤ (2 ^ 127 - 1) * (2 ^ 89 - 1) := by decide +kernel

/-- C30, remaining outcomes: the error for small exponents, and a panic for zero `d` or too wide `n` or `e`; in all other
cases the function returns. -/
theorem C30_recovery_outcomes (n e d : BoxedUint) (hn : 0 < n.val) :
    (e.val ≤ 65536 → recoverPrimes n e d = .err .invalidArguments) ∧
    (65536 < e.val → ((recoverPrimes n e d).Panics ↔ 2 * d.prec < e.prec ∨ 2 * d.prec < n.prec ∨ d.val = 0)) ∧
    recoverPrimes n e d ≠ .loop := by
  refine ⟨recoverPrimes_small n e d, fun he => ?_, ?_⟩
  · by_cases hw : e.prec ≤ 2 * d.prec ∧ n.prec ≤ 2 * d.prec ∧ 0 < d.val ∧ 0 < n.val
    · refine ⟨fun h => ?_, fun h => by omega⟩
      rcases recoverPrimes_eq n e d he hw.1 hw.2.1 hw.2.2.1 hw.2.2.2 with ⟨_, h'⟩ | ⟨p', q', h1, _, _, h'⟩ <;>
        rw [h'] at h <;> exact h.elim
    · obtain ⟨x, hx⟩ := recoverPrimes_panics n e d he hw
      rw [hx]
      exact ⟨fun _ => by omega, fun _ => trivial⟩
  · by_cases he : 65536 < e.val
    · by_cases hw : e.prec ≤ 2 * d.prec ∧ n.prec ≤ 2 * d.prec ∧ 0 < d.val ∧ 0 < n.val
      · rcases recoverPrimes_eq n e d he hw.1 hw.2.1 hw.2.2.1 hw.2.2.2 with ⟨_, h'⟩ | ⟨p', q', h1, _, _, h'⟩ <;>
          rw [h'] <;> intro hh <;> cases hh
      · obtain ⟨x, hx⟩ := recoverPrimes_panics n e d he hw
        rw [hx]; intro hh; cases hh
    · rw [recoverPrimes_small n e d (by omega)]; intro hh; cases hh

example : (recoverPrimes Ex.nOdd.toBoxedUint (wrap 1 65537) (wrap 4 Ex.dVal)).Returns := by decide +kernel

/-! ### C52 -/

/-- C52 fails: `from_components` without factors never succeeds. When the recovery of the factors succeeds they are
stored 16 times as wide as `validate` can widen to. -/
theorem C52_never_succeeds (n : OddUint) (e d : BoxedUint) (k : PrivateKey) :
    PrivateKey.fromComponents n e d [] ≠ .ok k := by
  intro h
  have hnz : n.toBoxedUint.nonZero = some n.toBoxedUint := by
    have := n.pos
    unfold nonZero; rw [if_neg (by omega)]
  unfold PrivateKey.fromComponents at h
  simp only [hnz] at h
  by_cases he : 65536 < e.val
  · by_cases hw : e.prec ≤ 2 * d.prec ∧ n.toBoxedUint.prec ≤ 2 * d.prec ∧ 0 < d.val ∧ 0 < n.toBoxedUint.val
    · have hdl := nlimbs_pos_of_val_pos d hw.2.2.1
      rcases recoverPrimes_eq n.toBoxedUint e d he hw.1 hw.2.1 hw.2.2.1 hw.2.2.2 with ⟨_, h'⟩ | ⟨p, q, _, hpl, _, h'⟩
      · rw [h'] at h; cases h
      · rw [h'] at h
        simp only [Res.ok_bind] at h
        rw [Res.bind_eq_ok] at h
        obtain ⟨_, hv, _⟩ := h
        have := ((PrivateKey.validate_ok_iff _ n.nlimbs_pos).mp hv).2.2 p (by simp)
        have hle := this.1
        simp only at hle
        unfold prec limbsFor at hle
        omega
    · obtain ⟨x, hx⟩ := recoverPrimes_panics n.toBoxedUint e d he hw
      rw [hx] at h; cases h
  · rw [recoverPrimes_small _ e d (by omega)] at h; cases h

/-- C52 fails even for a genuine key whose factors are recovered: the construction panics. -/
theorem C52_genuine_key_panics :
    (∃ p q, recoverPrimes Ex.nOdd.toBoxedUint (wrap 1 65537) (wrap 4 Ex.dVal) = .ok (p, q) ∧
      p.val = 2 ^ 127 - 1 ∧ q.val = 2 ^ 89 - 1) ∧
    (PrivateKey.fromComponents Ex.nOdd (wrap 1 65537) (wrap 4 Ex.dVal) []).Panics := by
  refine ⟨?_, by decide +kernel⟩
  exact C30_recovery_complete _ _ _ (2 ^ 127 - 1) (2 ^ 89 - 1) (by decide) (by norm_num) (by norm_num) (by decide)
    (by decide) (by decide) (by decide) (by decide +kernel) (by decide +kernel)

/-! ### C29 -/

/-- C29, `from_p_q`: equal factors are rejected; a key returned for two primes is well-formed with `n = p q` and `d` the
inverse of `e` modulo `lcm(p-1, q-1)` reduced below it; with distinct odd primes, an exponent coprime to
`lcm(p-1, q-1)`, acceptable to `RsaPublicKey::new` and no wider than the product, and a size within limits a key with
cached CRT values is returned. -/
theorem C29_from_p_q (p q e : BoxedUint) :
    (p.val = q.val → PrivateKey.fromPQ p q e = .err .invalidPrime) ∧
    (p.val.Prime → q.val.Prime → ∀ k, PrivateKey.fromPQ p q e = .ok k →
      Spec.WellFormed k ∧ k.pub.n.val = p.val * q.val ∧ k.pub.e = e ∧ k.primes = [p, q] ∧ k.precomputed ≠ none ∧
      k.d.val < Nat.lcm (p.val - 1) (q.val - 1) ∧ e.val * k.d.val ≡ 1 [MOD Nat.lcm (p.val - 1) (q.val - 1)]) ∧
    (p.val.Prime → q.val.Prime → p.val ≠ q.val → p.val ≠ 2 → q.val ≠ 2 →
      Nat.Coprime e.val (Nat.lcm (p.val - 1) (q.val - 1)) → p.prec + q.prec ≤ 4096 → e.prec ≤ p.prec + q.prec →
      2 ≤ e.val → e.val ≤ 2 ^ 33 - 1 → e.val < p.val * q.val → ∃ k, PrivateKey.fromPQ p q e = .ok k) := by
  refine ⟨?_, ?_, ?_⟩
  · intro h
    have : p.beq q = true := by simp [beq, h]
    simp [PrivateKey.fromPQ, this]
  · intro hp hq k h
    have hpq : p.val ≠ q.val := by
      intro he
      have : p.beq q = true := by simp [beq, he]
      simp [PrivateKey.fromPQ, this] at h
    have hb : p.beq q = false := by simp [beq, hpq]
    unfold PrivateKey.fromPQ at h
    rw [hb] at h
    simp only [Bool.false_eq_true, if_false] at h
    rw [Res.bind_eq_ok] at h
    obtain ⟨d, hd, h⟩ := h
    rw [Res.bind_eq_ok] at h
    obtain ⟨n, hn, h⟩ := h
    obtain ⟨hnv, hnl⟩ := computeModulus_ok hn
    obtain ⟨hd1, hd2, hd3⟩ := (carmichael_spec hp.one_lt hq.one_lt).1 d hd
    have hne : [p, q] ≠ [] := by simp
    obtain ⟨h1, h2, h3, h4, h5, h6, h7, h8, h9⟩ := PrivateKey.fromComponents_ok hne h
    have hpl := nlimbs_pos_of_val_pos p hp.pos
    have hql := nlimbs_pos_of_val_pos q hq.pos
    have hwf : Spec.WellFormed k := by
      refine PrivateKey.fromComponents_wf h ?_ ?_ hne ?_ ?_
      · intro x hx
        rcases List.mem_cons.mp hx with rfl | hx
        · exact hp
        · obtain rfl : x = q := by simpa using hx
          exact hq
      · simp [hpq]
      · rw [hnv]
      · rw [hnl, hd3]; simp
    have hnv' : k.pub.n.val = p.val * q.val := by rw [h1, hnv]; simp
    refine ⟨hwf, hnv', h2, h5, ?_, by rw [h4]; exact hd1, by rw [h4]; exact hd2⟩
    intro hnone
    obtain ⟨er, her⟩ := h9 hnone
    have hodd : p.val * q.val % 2 = 1 := by rw [← hnv']; exact coherent_odd hwf.coherent
    have hpo : p.val % 2 = 1 := by
      by_contra hc
      have h0 : p.val % 2 = 0 := by omega
      rw [Nat.mul_mod, h0] at hodd; simp at hodd
    have hqo : q.val % 2 = 1 := by
      by_contra hc
      have h0 : q.val % 2 = 0 := by omega
      rw [Nat.mul_mod, h0] at hodd; simp at hodd
    obtain ⟨pre, hpre⟩ := precomputeValues_exists (d := d) (p := p) (q := q) (rest := []) (by omega) (by omega) (by omega)
      hpo hqo hp.one_lt hq.one_lt ((Nat.coprime_primes hq hp).mpr (Ne.symm hpq))
    rw [hpre] at her; cases her
  · intro hp hq hpq hp2 hq2 hco hsz hew he2 hemax hen
    have hb : p.beq q = false := by simp [beq, hpq]
    have hpl := nlimbs_pos_of_val_pos p hp.pos
    have hql := nlimbs_pos_of_val_pos q hq.pos
    have hpo := hp.eq_two_or_odd.resolve_left hp2
    have hqo := hq.eq_two_or_odd.resolve_left hq2
    have hpge : 3 ≤ p.val := by have := hp.two_le; omega
    have hqge : 3 ≤ q.val := by have := hq.two_le; omega
    obtain ⟨d, hd⟩ := (carmichael_spec hp.one_lt hq.one_lt).2.1 (by unfold prec at *; omega) hco
    obtain ⟨hd1, hd2, hd3⟩ := (carmichael_spec hp.one_lt hq.one_lt).1 d hd
    obtain ⟨n, hn⟩ := computeModulus_exists (ps := [p, q]) (by simp) (by simp [Nat.mul_mod, hpo, hqo])
    obtain ⟨hnv, hnl⟩ := computeModulus_ok hn
    have hnv' : n.toBoxedUint.val = p.val * q.val := by rw [hnv]; simp
    have hnl' : n.toBoxedUint.nlimbs = p.nlimbs + q.nlimbs := by rw [hnl]; simp
    unfold PrivateKey.fromPQ
    rw [hb]
    simp only [Bool.false_eq_true, if_false]
    rw [hd, Res.ok_bind, hn, Res.ok_bind]
    apply PrivateKey.fromComponents_ok_of_validate (by omega) (by omega) (by omega)
    refine (PrivateKey.validate_ok_iff _ n.nlimbs_pos).mpr ⟨(checkPublic_ok _).mpr ?_, ?_, ?_⟩
    · have heo : e.val % 2 = 1 := by
        by_contra hc
        have h2e : 2 ∣ e.val := by omega
        have h2l : 2 ∣ Nat.lcm (p.val - 1) (q.val - 1) :=
          dvd_trans (by omega : 2 ∣ p.val - 1) (Nat.dvd_lcm_left _ _)
        have := Nat.eq_one_of_dvd_coprimes hco h2e h2l
        omega
      refine ⟨?_, by rw [hnv']; exact hen, n.odd, heo, he2, hemax⟩
      show 64 * n.toBoxedUint.nlimbs ≤ 4096
      rw [hnl']; unfold prec at hsz; omega
    · show ([p, q].map BoxedUint.val).prod % 2 ^ n.toBoxedUint.prec = n.toBoxedUint.val
      rw [← hnv]
      exact Nat.mod_eq_of_lt n.toBoxedUint.isLt
    · have hlf : 64 * limbsFor (2 * d.prec) = 2 * d.prec := by unfold limbsFor prec; omega
      have hx : ∀ x : BoxedUint, 3 ≤ x.val → x.nlimbs ≤ d.nlimbs → (x.val - 1) ∣ Nat.lcm (p.val - 1) (q.val - 1) →
          x.prec ≤ 64 * limbsFor (2 * d.prec) ∧ 1 < x.val ∧ d.val * e.val % (x.val - 1) = 1 := by
        intro x hx hxl hdv
        refine ⟨by rw [hlf]; unfold prec; omega, by omega, ?_⟩
        rw [mul_comm]
        exact mod_eq_one_of_modEq hd2 hdv (by omega)
      intro x hx'
      rcases List.mem_cons.mp hx' with rfl | hx'
      · exact hx _ hpge (by omega) (Nat.dvd_lcm_left _ _)
      · obtain rfl : x = q := by simpa using hx'
        exact hx _ hqge (by omega) (Nat.dvd_lcm_right _ _)

/-- Two primes meeting every hypothesis. -/
example : (wrap 2 (2 ^ 89 - 1)).val.Prime ∧ (wrap 2 (2 ^ 127 - 1)).val.Prime ∧
    Nat.Coprime 65537 (Nat.lcm (2 ^ 89 - 2) (2 ^ 127 - 2)) ∧
    PrivateKey.fromPQ (wrap 2 (2 ^ 89 - 1)) (wrap 2 (2 ^ 127 - 1)) (wrap 1 65537) = .ok Ex.key :=
  ⟨Ex.prime89, Ex.prime127, by decide +kernel, by decide +kernel⟩

/-- C29, `from_primes`: fewer than two or repeated factors are rejected; a key returned for primes is well-formed with
`n` their product and `d` the inverse of `e` modulo the product of all `p - 1` reduced below it; with distinct odd
primes, an exponent coprime to that product, acceptable to `RsaPublicKey::new` and no wider than the product, and a
size within limits a key is returned. -/
theorem C29_from_primes (primes : List BoxedUint) (e : BoxedUint) :
    (primes.length < 2 → PrivateKey.fromPrimes primes e = .err .nprimesTooSmall) ∧
    (2 ≤ primes.length → ¬ (primes.map BoxedUint.val).Nodup → PrivateKey.fromPrimes primes e = .err .invalidPrime) ∧
    ((∀ p ∈ primes, p.val.Prime) → ∀ k, PrivateKey.fromPrimes primes e = .ok k →
      Spec.WellFormed k ∧ k.pub.n.val = (primes.map BoxedUint.val).prod ∧ k.pub.e = e ∧ k.primes = primes ∧
      k.precomputed ≠ none ∧ k.d.val < (primes.map (fun p => p.val - 1)).prod ∧
      e.val * k.d.val ≡ 1 [MOD (primes.map (fun p => p.val - 1)).prod]) ∧
    (2 ≤ primes.length → (∀ p ∈ primes, p.val.Prime ∧ p.val ≠ 2) → (primes.map BoxedUint.val).Nodup →
      Nat.Coprime e.val (primes.map (fun p => p.val - 1)).prod →
      (primes.map BoxedUint.prec).sum ≤ 4096 → e.prec ≤ (primes.map BoxedUint.prec).sum →
      2 ≤ e.val → e.val ≤ 2 ^ 33 - 1 → e.val < (primes.map BoxedUint.val).prod →
      ∃ k, PrivateKey.fromPrimes primes e = .ok k) := by
  have hsum : (primes.map BoxedUint.prec).sum = 64 * (primes.map BoxedUint.nlimbs).sum := by
    have : ∀ l : List BoxedUint, (l.map BoxedUint.prec).sum = 64 * (l.map BoxedUint.nlimbs).sum := by
      intro l; induction l with
      | nil => rfl
      | cons x l ih =>
        rw [List.map_cons, List.sum_cons, ih, List.map_cons, List.sum_cons]
        show 64 * x.nlimbs + _ = _
        omega
    exact this primes
  refine ⟨?_, ?_, ?_, ?_⟩
  · intro h; unfold PrivateKey.fromPrimes; rw [if_pos h]
  · intro h2 hd
    unfold PrivateKey.fromPrimes
    rw [if_neg (by omega)]
    have : PrivateKey.hasDuplicate [] primes = true := by
      by_contra hc
      rw [Bool.not_eq_true, PrivateKey.hasDuplicate_iff] at hc
      exact hd hc.1
    rw [if_pos this]
  · intro hp k h
    have h2 : ¬ primes.length < 2 := by
      intro h2; unfold PrivateKey.fromPrimes at h; rw [if_pos h2] at h; cases h
    unfold PrivateKey.fromPrimes at h
    rw [if_neg h2] at h
    cases hd : PrivateKey.hasDuplicate [] primes with
    | true => rw [if_pos hd] at h; cases h
    | false =>
      rw [if_neg (by rw [hd]; simp)] at h
      have hnd := ((PrivateKey.hasDuplicate_iff _ _).mp hd).1
      rw [Res.bind_eq_ok] at h
      obtain ⟨n, hn, h⟩ := h
      rw [Res.bind_eq_ok] at h
      obtain ⟨d, hd', h⟩ := h
      obtain ⟨hnv, hnl⟩ := computeModulus_ok hn
      obtain ⟨hd1, hd2, hd3⟩ := (euler_spec (by omega) (fun p hp' => (hp p hp').pos)).1 d hd'
      have hne : primes ≠ [] := by intro h0; rw [h0] at h2; exact h2 (by simp)
      obtain ⟨h1, he, h3, h4, h5, h6, h7, h8, h9⟩ := PrivateKey.fromComponents_ok hne h
      have hwf : Spec.WellFormed k :=
        PrivateKey.fromComponents_wf h hp hnd hne hnv.symm (by rw [hnl]; exact hd3)
      refine ⟨hwf, by rw [h1, hnv], he, h5, ?_, by rw [h4]; exact hd1, by rw [h4]; exact hd2⟩
      intro hnone
      obtain ⟨er, her⟩ := h9 hnone
      match primes, h6 with
      | p :: q :: rest, _ =>
        have hmem : ∀ x ∈ (p :: q :: rest), x.val % 2 = 1 := fun x hx =>
          (C51_factors_partial n e d _ hne k h x hx).1
        have hpp := hp p (by simp)
        have hqq := hp q (by simp)
        have hpq : q.val ≠ p.val := by
          intro he; simp [he] at hnd
        obtain ⟨pre, hpre⟩ := precomputeValues_exists (d := d) (p := p) (q := q) (rest := rest)
          (by have := nlimbs_pos_of_val_pos p hpp.pos; have := le_sum_nlimbs (ps := p :: q :: rest) (p := p) (by simp); omega)
          (le_trans (le_sum_nlimbs (by simp)) hd3) (le_trans (le_sum_nlimbs (by simp)) hd3)
          (hmem p (by simp)) (hmem q (by simp)) hpp.one_lt hqq.one_lt ((Nat.coprime_primes hqq hpp).mpr hpq)
        rw [hpre] at her; cases her
  · intro h2 hp hnd hco hsz hew he2 hemax hen
    have hge : ∀ p ∈ primes, 3 ≤ p.val ∧ p.val % 2 = 1 := by
      intro p hpm
      have ho := (hp p hpm).1.eq_two_or_odd.resolve_left (hp p hpm).2
      have := (hp p hpm).1.two_le
      exact ⟨by omega, ho⟩
    have hne : primes ≠ [] := by intro h0; rw [h0] at h2; simp at h2
    rw [hsum] at hsz hew
    have hTpos : 0 < (primes.map (fun p => p.val - 1)).prod := by
      apply prod_pos
      intro x hx
      obtain ⟨p, hpm, rfl⟩ := List.mem_map.mp hx
      have := (hge p hpm).1
      omega
    obtain ⟨n, hn⟩ := computeModulus_exists hne (prod_odd _ (by
      intro x hx
      obtain ⟨p, hpm, rfl⟩ := List.mem_map.mp hx
      exact (hge p hpm).2))
    obtain ⟨hnv, hnl⟩ := computeModulus_ok hn
    have hpos : ∀ p ∈ primes, 0 < p.val := fun p hpm => (hp p hpm).1.pos
    obtain ⟨d, hd⟩ := (euler_spec h2 hpos).2.1 hew hTpos hco
    obtain ⟨hd1, hd2, hd3⟩ := (euler_spec h2 hpos).1 d hd
    unfold PrivateKey.fromPrimes
    rw [if_neg (by omega)]
    have hdup : PrivateKey.hasDuplicate [] primes = false :=
      (PrivateKey.hasDuplicate_iff _ _).mpr ⟨hnd, by simp⟩
    rw [if_neg (by rw [hdup]; simp), hn, Res.ok_bind, hd, Res.ok_bind]
    obtain ⟨p, q, rest, rfl⟩ : ∃ p q rest, primes = p :: q :: rest := by
      match primes, h2 with
      | p :: q :: rest, _ => exact ⟨p, q, rest, rfl⟩
    have hpl := nlimbs_pos_of_val_pos p (hpos p (by simp))
    have hle : ∀ x ∈ (p :: q :: rest), x.nlimbs ≤ d.nlimbs := fun x hx => le_trans (le_sum_nlimbs hx) hd3
    have hdl : 1 ≤ d.nlimbs := le_trans hpl (hle p (by simp))
    apply PrivateKey.fromComponents_ok_of_validate hdl (hle p (by simp)) (hle q (by simp))
    refine (PrivateKey.validate_ok_iff _ n.nlimbs_pos).mpr ⟨(checkPublic_ok _).mpr ?_, ?_, ?_⟩
    · have heo : e.val % 2 = 1 := by
        by_contra hc
        have h2e : 2 ∣ e.val := by omega
        have h2l : 2 ∣ ((p :: q :: rest).map (fun p => p.val - 1)).prod := by
          refine dvd_trans ?_ (List.dvd_prod (List.mem_map.mpr ⟨p, by simp, rfl⟩))
          have := (hge p (by simp)).2
          omega
        have := Nat.eq_one_of_dvd_coprimes hco h2e h2l
        omega
      refine ⟨?_, by show e.val < n.toBoxedUint.val; rw [hnv]; exact hen, n.odd, heo, he2, hemax⟩
      show 64 * n.toBoxedUint.nlimbs ≤ 4096
      rw [hnl]; exact hsz
    · show ((p :: q :: rest).map BoxedUint.val).prod % 2 ^ n.toBoxedUint.prec = n.toBoxedUint.val
      rw [← hnv]
      exact Nat.mod_eq_of_lt n.toBoxedUint.isLt
    · have hlf : 64 * limbsFor (2 * d.prec) = 2 * d.prec := by unfold limbsFor prec; omega
      intro x hx
      have hx' : x ∈ p :: q :: rest := hx
      have h3 := (hge x hx').1
      refine ⟨by show x.prec ≤ 64 * limbsFor (2 * d.prec); rw [hlf]; have := hle x hx'; unfold prec; omega, by omega, ?_⟩
      show d.val * e.val % (x.val - 1) = 1
      rw [mul_comm]
      exact mod_eq_one_of_modEq hd2 (List.dvd_prod (List.mem_map.mpr ⟨x, hx', rfl⟩)) (by omega)

/-- Three primes meeting every hypothesis. -/
example : (PrivateKey.fromPrimes [wrap 1 (2 ^ 31 - 1), wrap 1 (2 ^ 61 - 1), wrap 2 (2 ^ 89 - 1)] (wrap 1 65537)).Returns ∧
    Nat.Coprime 65537 (([wrap 1 (2 ^ 31 - 1), wrap 1 (2 ^ 61 - 1), wrap 2 (2 ^ 89 - 1)] : List BoxedUint).map
      (fun p => p.val - 1)).prod := by decide +kernel

/-! ### C53 -/

/-- C53, `from_p_q` returns for odd factors above 1 when the exponent is stored no wider than the product.
Missing for the full claim: even factors, factors 0 and 1 and wider exponents, which panic (`C53_even_panics`,
`C53_zero_panics`, `C53_wide_exponent_panics`). -/
theorem C53_from_p_q_partial (p q e : BoxedUint) (hp : 1 < p.val) (hq : 1 < q.val) (hpo : p.val % 2 = 1)
    (hqo : q.val % 2 = 1) (he : e.prec ≤ p.prec + q.prec) : (PrivateKey.fromPQ p q e).Returns := by
  unfold PrivateKey.fromPQ
  split
  · trivial
  · have hpl := nlimbs_pos_of_val_pos p (by omega)
    have hql := nlimbs_pos_of_val_pos q (by omega)
    have hspec := carmichael_spec (e := e) hp hq
    have he' : e.prec ≤ 64 * (p.nlimbs + q.nlimbs) := by unfold prec at *; omega
    by_cases hco : Nat.Coprime e.val (Nat.lcm (p.val - 1) (q.val - 1))
    · obtain ⟨d, hd⟩ := hspec.2.1 he' hco
      obtain ⟨_, _, hdl⟩ := hspec.1 d hd
      obtain ⟨n, hn⟩ := computeModulus_exists (ps := [p, q]) (by simp) (by simp [Nat.mul_mod, hpo, hqo])
      rw [hd, Res.ok_bind]
      simp only
      rw [hn, Res.ok_bind]
      refine C28_returns_partial.2.1 n e d [p, q] (by simp) (by omega) ?_
      intro x hx
      rcases List.mem_cons.mp hx with rfl | hx
      · exact ⟨by omega, by unfold prec; omega⟩
      · obtain rfl : x = q := by simpa using hx
        exact ⟨by omega, by unfold prec; omega⟩
    · rw [hspec.2.2 he' hco]; trivial

example : 1 < (wrap 1 7).val ∧ 1 < (wrap 1 15).val ∧ (wrap 1 7).val % 2 = 1 ∧ (wrap 1 15).val % 2 = 1 ∧
    (wrap 1 3).prec ≤ (wrap 1 7).prec + (wrap 1 15).prec := by decide

/-- C53 fails: an even product panics whenever the exponent has an inverse. -/
theorem C53_even_panics (p q e : BoxedUint) (hp : 1 < p.val) (hq : 1 < q.val) (hpq : p.val ≠ q.val)
    (heven : p.val * q.val % 2 = 0) (he : e.prec ≤ p.prec + q.prec)
    (hco : Nat.Coprime e.val (Nat.lcm (p.val - 1) (q.val - 1))) : (PrivateKey.fromPQ p q e).Panics := by
  have hb : p.beq q = false := by simp [beq, hpq]
  unfold PrivateKey.fromPQ
  rw [hb]
  simp only [Bool.false_eq_true, if_false]
  obtain ⟨d, hd⟩ := (carmichael_spec (e := e) hp hq).2.1 (by unfold prec at *; omega) hco
  rw [hd, Res.ok_bind, computeModulus_even (by simpa using heven)]
  trivial

example : 1 < (wrap 1 2).val ∧ 1 < (wrap 1 7).val ∧ Nat.Coprime 5 (Nat.lcm (2 - 1) (7 - 1)) := by decide

/-- C53 fails: a zero factor panics, in `from_p_q` and in `from_primes`. -/
theorem C53_zero_panics (p q e : BoxedUint) (h0 : p.val = 0) (hq : q.val ≠ 0) :
    (PrivateKey.fromPQ p q e).Panics ∧ (PrivateKey.fromPrimes [p, q] e).Panics := by
  have hb : p.beq q = false := by simp [beq, h0]; omega
  have hb' : q.beq p = false := by simp [beq, h0]; omega
  constructor
  · unfold PrivateKey.fromPQ computePrivateExponentCarmichael
    rw [hb]
    simp only [Bool.false_eq_true, if_false]
    rw [sub_panic (by rw [one_val]; omega)]
    trivial
  · unfold PrivateKey.fromPrimes
    rw [if_neg (by simp)]
    have : PrivateKey.hasDuplicate [] [p, q] = false := by simp [PrivateKey.hasDuplicate, hb']
    rw [if_neg (by rw [this]; simp), computeModulus_even (by simp [h0])]
    trivial

example : (wrap 1 0).val = 0 ∧ (wrap 1 7).val ≠ 0 := by decide

/-- C53 fails: an exponent stored wider than the product panics, even for genuine primes and
`e = 65537`. -/
theorem C53_wide_exponent_panics (p q e : BoxedUint) (hp : 1 < p.val) (hq : 1 < q.val) (hpq : p.val ≠ q.val)
    (he : p.prec + q.prec < e.prec) : (PrivateKey.fromPQ p q e).Panics := by
  have hb : p.beq q = false := by simp [beq, hpq]
  have hpl := nlimbs_pos_of_val_pos p (by omega)
  have hql := nlimbs_pos_of_val_pos q (by omega)
  have h1l : BoxedUint.one.nlimbs = 1 := rfl
  obtain ⟨p1, h1, h1v, hp1l⟩ := sub_exists (x := p) (y := BoxedUint.one) (by rw [one_val]; omega)
  obtain ⟨q1, h2, h2v, hq1l⟩ := sub_exists (x := q) (y := BoxedUint.one) (by rw [one_val]; omega)
  unfold PrivateKey.fromPQ computePrivateExponentCarmichael
  rw [hb]
  simp only [Bool.false_eq_true, if_false]
  rw [h1, Res.ok_bind, h2, Res.ok_bind]
  have hg : (p1.gcd q1).val ≠ 0 := by
    rw [gcd_val, h1v, one_val]
    exact Nat.pos_iff_ne_zero.mp (Nat.gcd_pos_of_pos_left _ (by omega))
  rw [expectNonZero_of_ne hg, Res.ok_bind]
  rw [widen_panic (x := e) (by
    show 64 * (p1.nlimbs + q1.nlimbs) < _
    unfold prec at he; unfold prec; omega)]
  trivial

example : 1 < (wrap 1 (2 ^ 31 - 1)).val ∧ 1 < (wrap 1 (2 ^ 61 - 1)).val ∧
    (wrap 1 (2 ^ 31 - 1)).prec + (wrap 1 (2 ^ 61 - 1)).prec < (wrap 3 65537).prec := by decide

/-! ### C33 -/

theorem vecEq_iff : ∀ (a b : List BoxedUint), vecEq a b = true ↔ a.map BoxedUint.val = b.map BoxedUint.val := by
  intro a
  induction a with
  | nil => intro b; cases b <;> simp [vecEq]
  | cons x xs ih =>
    intro b
    cases b with
    | nil => simp [vecEq]
    | cons y ys =>
      simp only [vecEq, Bool.and_eq_true, ih, List.map_cons, List.cons.injEq]
      simp [beq]

theorem pub_eq_iff (a b : PublicKey) : a.eq b = true ↔ a.n.val = b.n.val ∧ a.e.val = b.e.val := by
  simp [PublicKey.eq, beq]

theorem priv_eq_iff (a b : PrivateKey) : a.eq b = true ↔ a.pub.n.val = b.pub.n.val ∧ a.pub.e.val = b.pub.e.val ∧
    a.d.val = b.d.val ∧ a.primes.map BoxedUint.val = b.primes.map BoxedUint.val := by
  unfold PrivateKey.eq
  rw [Bool.and_eq_true, Bool.and_eq_true, pub_eq_iff, vecEq_iff]
  simp [beq, and_assoc]

/-- C33: key equality is an equivalence relation that ignores the cache, and equal keys hash equally when their moduli
and exponents are stored in the same number of limbs. Missing for the full claim: keys equal in value but stored at
different precisions (`C33_equal_keys_hash_differently`). -/
theorem C33_eq_hash_partial :
    (∀ a : PublicKey, a.eq a = true) ∧ (∀ a b : PublicKey, a.eq b = true → b.eq a = true) ∧
    (∀ a b c : PublicKey, a.eq b = true → b.eq c = true → a.eq c = true) ∧
    (∀ a : PrivateKey, a.eq a = true) ∧ (∀ a b : PrivateKey, a.eq b = true → b.eq a = true) ∧
    (∀ a b c : PrivateKey, a.eq b = true → b.eq c = true → a.eq c = true) ∧
    (∀ (a : PrivateKey) pre, a.eq { a with precomputed := pre } = true) ∧
    (∀ a b : PrivateKey, a.eq b = true → a.pub.eq b.pub = true) ∧
    (∀ a b : PublicKey, a.eq b = true → a.n.nlimbs = b.n.nlimbs → a.e.nlimbs = b.e.nlimbs →
      a.hashItems = b.hashItems) ∧
    (∀ a b : PrivateKey, a.eq b = true → a.pub.n.nlimbs = b.pub.n.nlimbs → a.pub.e.nlimbs = b.pub.e.nlimbs →
      a.hashItems = b.hashItems) := by
  have hh : ∀ a b : PublicKey, a.eq b = true → a.n.nlimbs = b.n.nlimbs → a.e.nlimbs = b.e.nlimbs →
      a.hashItems = b.hashItems := by
    intro a b h h1 h2
    rw [pub_eq_iff] at h
    unfold PublicKey.hashItems
    rw [ext_val h1 h.1, ext_val h2 h.2]
  have hp : ∀ a b : PrivateKey, a.eq b = true → a.pub.eq b.pub = true := by
    intro a b h
    rw [priv_eq_iff] at h
    exact (pub_eq_iff _ _).mpr ⟨h.1, h.2.1⟩
  refine ⟨?_, ?_, ?_, ?_, ?_, ?_, ?_, hp, hh, ?_⟩
  · intro a; rw [pub_eq_iff]; simp
  · intro a b h; rw [pub_eq_iff] at *; exact ⟨h.1.symm, h.2.symm⟩
  · intro a b c h h'; rw [pub_eq_iff] at *; exact ⟨h.1.trans h'.1, h.2.trans h'.2⟩
  · intro a; rw [priv_eq_iff]; simp
  · intro a b h; rw [priv_eq_iff] at *; exact ⟨h.1.symm, h.2.1.symm, h.2.2.1.symm, h.2.2.2.symm⟩
  · intro a b c h h'; rw [priv_eq_iff] at *
    exact ⟨h.1.trans h'.1, h.2.1.trans h'.2.1, h.2.2.1.trans h'.2.2.1, h.2.2.2.trans h'.2.2.2⟩
  · intro a pre; rw [priv_eq_iff]; simp
  · intro a b h h1 h2
    unfold PrivateKey.hashItems
    rw [hh _ _ (hp a b h) h1 h2]

/-- C33, equality distinguishes keys that differ in any component value. -/
theorem C33_eq_distinguishes (a b : PrivateKey) : a.eq b = true ↔ a.pub.n.val = b.pub.n.val ∧
    a.pub.e.val = b.pub.e.val ∧ a.d.val = b.d.val ∧ a.primes.map BoxedUint.val = b.primes.map BoxedUint.val :=
  priv_eq_iff a b

example : Ex.key.eq Ex.keyNoCrt = true ∧ Ex.key.eq Ex.key3 = false := by decide +kernel

/-- C33 fails: the same public key with its modulus stored in one more limb is equal but hashes differently. Both are
obtained from `RsaPublicKey::new`. -/
theorem C33_equal_keys_hash_differently :
    ∃ a b : PublicKey, PublicKey.new (wrap 1 15) (wrap 1 3) = .ok a ∧ PublicKey.new (wrap 2 15) (wrap 1 3) = .ok b ∧
      a.eq b = true ∧ a.hashItems ≠ b.hashItems :=
  ⟨⟨wrap 1 15, wrap 1 3, ⟨⟨wrap 1 15, by decide⟩⟩⟩, ⟨wrap 2 15, wrap 1 3, ⟨⟨wrap 2 15, by decide⟩⟩⟩,
    by decide, by decide, by decide, by decide⟩

/-! ### C34 -/

/-- C34: two keys with the same public part that agree on whether CRT values are cached have the same Debug text. -/
theorem C34_debug_noninterference (a b : PrivateKey) (h : a.pub = b.pub)
    (hc : a.precomputed.isSome = b.precomputed.isSome) : a.debugFields = b.debugFields := by
  unfold PrivateKey.debugFields
  rw [h, hc]

/-- Two keys with different secrets and the same public part. -/
example : Ex.keyNoCrt.pub = ({ Ex.keyNoCrt with d := wrap 1 7, primes := [] } : PrivateKey).pub ∧
    Ex.keyNoCrt.d ≠ wrap 1 7 := by decide +kernel

/-! ### C35 -/

/-- C35: when a key is dropped every limb of `d`, of each prime and of the cached `dp`, `dq` has been overwritten with
zero (the buffers keep their lengths), and nothing else has changed.
Missing for the full claim: the other cached values (`C35_crt_values_survive`). -/
theorem C35_erased_partial (k : PrivateKey) :
    (k.dropped.d.nlimbs = k.d.nlimbs ∧ k.dropped.d.val = 0) ∧
    List.Forall₂ (fun old new : BoxedUint => new.nlimbs = old.nlimbs ∧ new.val = 0) k.primes k.dropped.primes ∧
    (k.precomputed = none → k.dropped.precomputed = none) ∧
    (∀ old, k.precomputed = some old → ∃ new, k.dropped.precomputed = some new ∧
      (new.dp.nlimbs = old.dp.nlimbs ∧ new.dp.val = 0) ∧ (new.dq.nlimbs = old.dq.nlimbs ∧ new.dq.val = 0) ∧
      new.qinv = old.qinv ∧ new.pParams = old.pParams ∧ new.qParams = old.qParams) ∧
    k.dropped.pub = k.pub := by
  have hz : ∀ x : BoxedUint, x.zeroize.nlimbs = x.nlimbs ∧ x.zeroize.val = 0 := by
    intro x; simp [BoxedUint.zeroize, wrap]
  refine ⟨hz _, ?_, ?_, ?_, rfl⟩
  · unfold PrivateKey.dropped
    simp only
    induction k.primes with
    | nil => exact .nil
    | cons p ps ih => exact .cons (hz p) ih
  · intro h
    simp [PrivateKey.dropped, h]
  · intro old h
    exact ⟨old.zeroize, by simp [PrivateKey.dropped, h], hz _, hz _, rfl, rfl, rfl⟩

/-- A key whose `d`, primes and cached values are not zero. -/
example : Ex.key.d.val ≠ 0 ∧ (∀ p ∈ Ex.key.primes, p.val ≠ 0) ∧ Ex.key.precomputed = some Ex.pre ∧ Ex.pre.dp.val ≠ 0 ∧
    Ex.pre.dq.val ≠ 0 := by decide +kernel

/-- C35 fails: for every well-formed key with cached CRT values both primes and the CRT coefficient are still in memory
after the drop. -/
theorem C35_crt_values_survive {k : PrivateKey} (hk : Spec.WellFormed k) {pre : Precomputed}
    (hp : k.precomputed = some pre) :
    ∃ pre' p q rest, k.dropped.precomputed = some pre' ∧ k.primes = p :: q :: rest ∧
      pre'.pParams.modulus.toBoxedUint.val = p.val ∧ pre'.qParams.modulus.toBoxedUint.val = q.val ∧
      pre'.qinv.res * q.val % p.val = 1 := by
  obtain ⟨⟨p, q, rest, h1, _, _, h2, h3, h4⟩, _, _, _⟩ := hk.cache pre hp
  refine ⟨pre.zeroize, p, q, rest, ?_, h1, h2, h3, h4⟩
  unfold PrivateKey.dropped
  simp [hp]

example : Spec.WellFormed Ex.key ∧ Ex.key.precomputed = some Ex.pre := ⟨Ex.key_wf, rfl⟩

end RSA
