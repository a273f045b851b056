import Verif.Proof.LeakKeyRes
import Verif.Props.ExampleKeys

/-
C89: what building and generating a private key shows of the key, for an observer of every test, every index and every
call into the bignum crate with the storage sizes of its operands.
-/
namespace RSA
open BoxedUint Spec

/-- C89: recording the observations does not change what is computed. -/
theorem C89_same_program :
    (∀ n e sz, (leak.checkPublicWithMaxSize n e sz).res = checkPublicWithMaxSize n e sz) ∧
    (∀ k, (leak.validate k).res = k.validate) ∧
    (∀ k, (leak.precompute k).res = k.precompute) ∧
    (∀ n e d, (leak.recoverPrimes n e d).res = recoverPrimes n e d) ∧
    (∀ ps, (leak.computeModulus ps).res = computeModulus ps) ∧
    (∀ ps e, (leak.computePrivateExponentEulerTotient ps e).res = computePrivateExponentEulerTotient ps e) ∧
    (∀ p q e, (leak.computePrivateExponentCarmichael p q e).res = computePrivateExponentCarmichael p q e) ∧
    (∀ n e d ps, (leak.fromComponents n e d ps).res = PrivateKey.fromComponents n e d ps) ∧
    (∀ p q e, (leak.fromPQ p q e).res = PrivateKey.fromPQ p q e) ∧
    (∀ ps e, (leak.fromPrimes ps e).res = PrivateKey.fromPrimes ps e) ∧
    (∀ {σ : Type} (G : PrimeGen σ) fuel s np bs e,
      (leak.generateMultiPrimeKeyWithExp G fuel s np bs e).res = generateMultiPrimeKeyWithExp G fuel s np bs e) ∧
    (∀ {σ : Type} (G : PrimeGen σ) fuel s bs e,
      (leak.newWithExp G fuel s bs e).res = PrivateKey.newWithExp G fuel s bs e) :=
  ⟨leak.checkPublicWithMaxSize_res, leak.validate_res, leak.precompute_res, leak.recoverPrimes_res, leak.computeModulus_res,
    leak.euler_res, leak.carmichael_res, leak.fromComponents_res, leak.fromPQ_res, leak.fromPrimes_res,
    leak.generateMulti_res, leak.newWithExp_res⟩

/-- C89: validating a key shows a trace that is a function of sizes alone, all of it if the key is valid and otherwise that
same trace up to the check that failed. -/
theorem C89_validate (k : PrivateKey) :
    let full := validateTrace k.pub.n.nlimbs k.pub.e.nlimbs k.d.nlimbs (k.primes.map (·.nlimbs))
    CutOff full (leak.validate k).ev ∧ (k.validate = .ok () → (leak.validate k).ev = full) := by
  have h := leak.validate_along k
  exact ⟨h.seen, fun hv => (h.ok () (by rw [leak.validate_res, hv])).1⟩

/-- C89: the cached values likewise. -/
theorem C89_precompute (k k' : PrivateKey) (p q : BoxedUint) (ps : List BoxedUint) (hk : k.primes = p :: q :: ps)
    (hn : k.precomputed = none) :
    let full := precomputeTrace k.d.nlimbs (ps.length + 2) p.nlimbs q.nlimbs
    CutOff full (leak.precompute k).ev ∧ (k.precompute = .ok k' → (leak.precompute k).ev = full) := by
  have h := leak.precompute_along k p q ps hk hn
  exact ⟨h.seen, fun hv => (h.ok k' (by rw [leak.precompute_res, hv])).1⟩

/-- C89: recovering the factors likewise. -/
theorem C89_recover (n e d p q : BoxedUint) :
    let full := recoverTrace n.nlimbs e.nlimbs d.nlimbs
    CutOff full (leak.recoverPrimes n e d).ev ∧ (recoverPrimes n e d = .ok (p, q) → (leak.recoverPrimes n e d).ev = full) := by
  have h := leak.recoverPrimes_along n e d
  exact ⟨h.seen, fun hv => (h.ok (p, q) (by rw [leak.recoverPrimes_res, hv])).1⟩

/-- C89: building a key, in each of the three ways, shows a trace that is a function of sizes alone: all of it if a key with
cached values comes out, and in all other cases that same trace up to the check that failed. -/
theorem C89_build :
    (∀ n e d ps, let full := buildTrace n.toBoxedUint.nlimbs e.nlimbs d.nlimbs (ps.map (·.nlimbs))
      CutOff full (leak.fromComponents n e d ps).ev ∧
        ∀ k, PrivateKey.fromComponents n e d ps = .ok k → k.precomputed.isSome →
          (leak.fromComponents n e d ps).ev = full) ∧
    (∀ p q e, let full := fromTwoTrace p.nlimbs q.nlimbs e.nlimbs
      CutOff full (leak.fromPQ p q e).ev ∧
        ∀ k, PrivateKey.fromPQ p q e = .ok k → k.precomputed.isSome → (leak.fromPQ p q e).ev = full) ∧
    (∀ ps e, let full := fromPrimesTrace (ps.map (·.nlimbs)) e.nlimbs
      CutOff full (leak.fromPrimes ps e).ev ∧
        ∀ k, PrivateKey.fromPrimes ps e = .ok k → k.precomputed.isSome → (leak.fromPrimes ps e).ev = full) := by
  refine ⟨fun n e d ps => ?_, fun p q e => ?_, fun ps e => ?_⟩
  · have h := leak.fromComponents_mostly n e d ps
    exact ⟨h.seen, fun k hk hp => (h.ok k (by rw [leak.fromComponents_res, hk]) hp).1⟩
  · have h := leak.fromPQ_mostly p q e
    exact ⟨h.seen, fun k hk hp => (h.ok k (by rw [leak.fromPQ_res, hk]) hp).1⟩
  · have h := leak.fromPrimes_mostly ps e
    exact ⟨h.seen, fun k hk hp => (h.ok k (by rw [leak.fromPrimes_res, hk]) hp).1⟩

/-- C89: two keys built from factors stored alike cannot be told apart by how they were built. -/
theorem C89_alike (p q e p' q' e' : BoxedUint) (k k' : PrivateKey) (hp : p.nlimbs = p'.nlimbs) (hq : q.nlimbs = q'.nlimbs)
    (he : e.nlimbs = e'.nlimbs) (hk : PrivateKey.fromPQ p q e = .ok k) (hk' : PrivateKey.fromPQ p' q' e' = .ok k')
    (hc : k.precomputed.isSome) (hc' : k'.precomputed.isSome) : (leak.fromPQ p q e).ev = (leak.fromPQ p' q' e').ev := by
  rw [(C89_build.2.1 p q e).2 k hk hc, (C89_build.2.1 p' q' e').2 k' hk' hc', hp, hq, he]

/-- C89: generating the components of a key with any number of primes. If the prime search returns numbers of the length
asked for, then what is shown is, for each turn that was given up, the trace of a turn up to the check that failed, and for
the last turn all of it; that trace is a function of the number of primes, the size of the key and the storage of the
exponent. -/
theorem C89_components {σ : Type} (G : PrimeGen σ) (hG : ExactBits G) (fuel : Nat) (s s' : σ) (nprimes bitSize : Nat)
    (e : BoxedUint) (c : Components) (h : generateMultiPrimeKeyWithExp G fuel s nprimes bitSize e = .ok (c, s')) :
    ∃ turns : List (List Ev), turns.length < fuel ∧ (∀ t ∈ turns, CutOff (turnTrace nprimes bitSize e.nlimbs) t) ∧
      (leak.generateMultiPrimeKeyWithExp G fuel s nprimes bitSize e).ev =
        [.branch false, .branch (decide (bitSize < 64)), .branch false] ++ turns.flatten ++
          turnTrace nprimes bitSize e.nlimbs := by
  rw [← leak.generateMulti_res] at h
  exact (leak.generateMulti_shows hG fuel s s' nprimes bitSize e c h).2

/-- C89: generating a key. What is shown is the same up to turns that were given up, and these are each the trace of a turn
up to the check that failed; all traces are functions of the size of the key and the storage of the exponent. -/
theorem C89_generate {σ : Type} (G : PrimeGen σ) (hG : ExactBits G) (fuel : Nat) (s s' : σ) (bitSize : Nat) (e : BoxedUint)
    (k : PrivateKey) (h : PrivateKey.newWithExp G fuel s bitSize e = .ok (k, s')) (hk : k.precomputed.isSome) :
    ∃ turns : List (List Ev), turns.length < fuel ∧ (∀ t ∈ turns, CutOff (turnTrace 2 bitSize e.nlimbs) t) ∧
      (leak.newWithExp G fuel s bitSize e).ev = generateTrace bitSize e.nlimbs turns := by
  rw [← leak.newWithExp_res] at h
  exact leak.newWithExp_shows hG fuel s s' bitSize e k h hk

/-! ### Examples -/

/-- Two keys with other factors and another exponent: the same 83 observations. -/
example :
    let a := leak.fromPQ (ofU64 61) (ofU64 53) (ofU64 17)
    let b := leak.fromPQ (ofU64 11) (ofU64 23) (ofU64 7)
    a.ev = b.ev ∧ a.ev = fromTwoTrace 1 1 1 ∧ a.ev.length = 83 ∧
      (∃ k, a.res = .ok k ∧ k.precomputed.isSome) ∧ (∃ k, b.res = .ok k ∧ k.precomputed.isSome) := by
  refine ⟨by decide +kernel, by decide +kernel, by decide +kernel, ?_, ?_⟩
  · exact ⟨match (leak.fromPQ (ofU64 61) (ofU64 53) (ofU64 17)).res with | .ok k => k | _ => Ex.key, by decide +kernel⟩
  · exact ⟨match (leak.fromPQ (ofU64 11) (ofU64 23) (ofU64 7)).res with | .ok k => k | _ => Ex.key, by decide +kernel⟩

/-- Equal factors: two observations, the second a test coming out the other way. An exponent that has no inverse: cut off at
that test. -/
example :
    (leak.fromPQ (ofU64 61) (ofU64 61) (ofU64 17)).ev = [.bignum "eq" [1, 1], .branch true] ∧
      (leak.fromPQ (ofU64 61) (ofU64 53) (ofU64 3)).ev = (fromTwoTrace 1 1 1).take 11 ++ [.branch false] := by
  decide +kernel

/-- A prime search that returns numbers of exactly the length asked for; of six bits it returns 61, but 59 at the fourth
draw. -/
def Ex.exact : PrimeGen Nat :=
  ⟨fun s b => (wrap (words b) (if b = 6 then (if s = 3 then 59 else 61) else 2 ^ b - 1), s + 1)⟩

theorem Ex.exact_bits : ExactBits Ex.exact := by
  intro s b hb
  have hw : 2 ^ b ≤ 2 ^ (64 * words b) := Nat.pow_le_pow_right (by norm_num) (by unfold words; omega)
  have hv : (if b = 6 then (if s = 3 then 59 else 61) else 2 ^ b - 1) < 2 ^ b ∧
      2 ^ (b - 1) ≤ (if b = 6 then (if s = 3 then 59 else 61) else 2 ^ b - 1) := by
    by_cases h6 : b = 6
    · subst h6
      rw [if_pos rfl]
      split <;> norm_num
    · rw [if_neg h6]
      obtain ⟨c, rfl⟩ : ∃ c, b = c + 1 := ⟨b - 1, by omega⟩
      have : 0 < 2 ^ c := Nat.two_pow_pos c
      rw [Nat.pow_succ, Nat.add_sub_cancel]
      omega
  refine ⟨?_, ?_, rfl⟩
  · show _ ≤ _ % 2 ^ (64 * words b)
    rw [Nat.mod_eq_of_lt (by omega)]
    exact hv.2
  · show _ % 2 ^ (64 * words b) < _
    rw [Nat.mod_eq_of_lt (by omega)]
    exact hv.1

/-- A 12-bit key: the first turn draws the same prime twice and is given up, the second gives 61 and 59. -/
example :
    let r := leak.newWithExp Ex.exact 5 0 12 (ofU64 7)
    (∃ k, r.res = .ok (k, 4) ∧ k.precomputed.isSome ∧ k.primes.map (·.val) = [61, 59]) ∧
      r.ev = generateTrace 12 1 [[.branch false, .bignum "sieve_and_find" [6], .bignum "bits" [1], .branch true,
        .bignum "sieve_and_find" [6], .bignum "bits" [1], .branch true, .bignum "eq" [1, 1], .branch true]] := by
  refine ⟨⟨match (leak.newWithExp Ex.exact 5 0 12 (ofU64 7)).res with | .ok (k, _) => k | _ => Ex.key, ?_⟩, ?_⟩
  · decide +kernel
  · decide +kernel

example := C89_components Ex.exact Ex.exact_bits 5 0 4 2 12 (ofU64 7)

end RSA
