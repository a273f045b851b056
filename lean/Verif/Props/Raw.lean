import Verif.Props.ExampleKeys
import Verif.Proof.Precompute
import Verif.Proof.Pad

/-
C01 - C05, C25, C47, C48: the raw RSA operations (src/algorithms/rsa.rs, src/algorithms/pad.rs).
-/
namespace RSA
open BoxedUint

/-! ### C01 -/

/-- C01: for a well-formed key of any number of primes, with or without CRT values, and any `m < n` (coprime to `n` or
not), the public operation succeeds and the checked private operation takes its result back to `m`: without an RNG, and
with an RNG whose draws eventually give a usable blinding factor. -/
theorem C01_raw_inversion {σ : Type} (R : RngImpl σ) {k : PrivateKey} (hk : Spec.WellFormed k) (m : BoxedUint)
    (hm : m.val < k.pub.n.val) :
    ∃ c, rsaEncrypt k.pub m = .ok c ∧ c.val = m.val ^ k.pub.e.val % k.pub.n.val ∧
      (∀ fuel, ∃ m', rsaDecryptAndCheck R fuel k none c = .ok (m', none) ∧ m'.val = m.val) ∧
      (∀ s s' j fuel, Spec.Draws R k.pub.n.val s (some s') j → j ≤ fuel →
        ∃ m', rsaDecryptAndCheck R fuel k (some s) c = .ok (m', some s') ∧ m'.val = m.val) := by
  have hco : k.pub.Coherent := hk.coherent
  have hn := coherent_pos hco
  have hmlt : m.val < 2 ^ k.pub.n.prec := lt_trans hm k.pub.n.isLt
  set c := wrap k.pub.n.nlimbs (m.val ^ k.pub.e.val % k.pub.n.val) with hc
  have hcv : c.val = m.val ^ k.pub.e.val % k.pub.n.val := wrap_mod_val _ hn _
  have hclt : c.val < k.pub.n.val := by rw [hcv]; exact Nat.mod_lt _ hn
  have hback : c.val ^ k.d.val % k.pub.n.val = m.val := by
    rw [hcv, ← Nat.pow_mod, ← pow_mul, mul_comm]
    rw [wf_rsa hk m.val, Nat.mod_eq_of_lt hm]
  have hcheck : rsaEncrypt k.pub (wrap k.pub.n.nlimbs m.val) = .ok c := by
    rw [rsaEncrypt_lt _ hco _ (by rw [wrap_lt_val hm]; exact hmlt), wrap_lt_val hm]
  have hbeq : c.beq c = true := by simp [beq]
  refine ⟨c, rsaEncrypt_lt _ hco m hmlt, hcv, ?_, ?_⟩
  · intro fuel
    refine ⟨wrap k.pub.n.nlimbs m.val, ?_, wrap_lt_val hm⟩
    unfold rsaDecryptAndCheck
    rw [rsaDecrypt_none R fuel hk c hk.width hclt, hback]
    simp only [Res.ok_bind, hcheck, hbeq]
    rfl
  · intro s s' j fuel hd hj
    refine ⟨wrap k.pub.n.nlimbs m.val, ?_, wrap_lt_val hm⟩
    obtain ⟨r, ir, hl⟩ := (blindLoop_draws R k.pub.n hn hd fuel hj).1 s' rfl
    unfold rsaDecryptAndCheck
    rw [rsaDecrypt_some R fuel s hk c rfl hclt, hback, hl]
    simp only [Res.ok_bind, hcheck, hbeq]
    rfl

/-- Two-prime key with CRT values, `m = 2^200 < n`. -/
example : Spec.WellFormed Ex.key ∧ (wrap 4 (2 ^ 200)).val < Ex.key.pub.n.val := ⟨Ex.key_wf, by decide⟩
/-- Three-prime key, and a message sharing a factor with `n`. -/
example : Spec.WellFormed Ex.key3 ∧ (wrap 3 (2 ^ 61 - 1)).val < Ex.key3.pub.n.val ∧
    ¬ Nat.Coprime (2 ^ 61 - 1) Ex.key3.pub.n.val := ⟨Ex.key3_wf, by decide, by decide⟩
/-- A generator whose first draw already works, and one whose second draw works (2^61 - 1 divides `n`). -/
example : Spec.Draws Ex.countingRng Ex.key.pub.n.val 5 (some 6) 1 := .good 5 5 (by decide) (Or.inr (by decide))
example : Spec.Draws Ex.countingRng Ex.key3.pub.n.val (2 ^ 61 - 1) (some (2 ^ 61 + 1)) 2 :=
  .again _ (2 ^ 61 - 1) _ 1 (by decide) (by decide) (by decide) (.good _ (2 ^ 61) (by decide) (Or.inr (by decide)))

/-! ### C02 -/

/-- The two cache operations of the public API. -/
inductive CacheOp
  | precompute
  | clear

/-- Run a history of cache operations; `precompute` errors leave the key as it was (src/key.rs:404-457). -/
def runCacheOps : List CacheOp → PrivateKey → Res PrivateKey
  | [], k => .ok k
  | .precompute :: ops, k => do runCacheOps ops (← k.tryPrecompute)
  | .clear :: ops, k => runCacheOps ops k.clearPrecomputed

/-- Keys that differ in nothing but the cache. -/
theorem eq_of_same {a b : PrivateKey} (h1 : a.pub = b.pub) (h2 : a.d = b.d) (h3 : a.primes = b.primes) :
    a.eq b = true := by
  have hv : ∀ l, vecEq l l = true := by
    intro l; induction l with
    | nil => rfl
    | cons x xs ih => simp [vecEq, ih, beq]
  unfold PrivateKey.eq PublicKey.eq
  rw [h1, h2, h3, hv]; simp [beq]

theorem wf_without_cache {k : PrivateKey} (hk : Spec.WellFormed k) : Spec.WellFormed { k with precomputed := none } :=
  ⟨hk.coherent, hk.numbers, hk.width, by intro pre h; cases h⟩

/-- `precompute` succeeds on a well-formed key whose first two primes fit the width of `d`. -/
theorem precompute_wf {k : PrivateKey} (hk : Spec.WellFormed k) (hw : ∀ p ∈ k.primes, p.nlimbs ≤ k.d.nlimbs) :
    ∃ pre, k.precompute = .ok { k with precomputed := some pre } ∧
      Spec.WellFormed { k with precomputed := some pre } := by
  cases hpre : k.precomputed with
  | some pre =>
    refine ⟨pre, ?_, ?_⟩
    · unfold PrivateKey.precompute
      simp only [hpre, Option.isSome_some, if_true]
      rw [← hpre]
    · rw [← hpre]; exact hk
  | none =>
    have hd : 1 ≤ k.d.nlimbs := le_trans (coherent_nlimbs_pos hk.coherent) hk.width
    have hnum := hk.numbers
    obtain ⟨p, q, rest, hpr⟩ : ∃ p q rest, k.primes = p :: q :: rest := by
      have := hnum.two
      rw [List.length_map] at this
      match hp : k.primes, this with
      | p :: q :: rest, _ => exact ⟨p, q, rest, rfl⟩
    have hpm : p.val ∈ k.primes.map BoxedUint.val := by simp [hpr]
    have hqm : q.val ∈ k.primes.map BoxedUint.val := by simp [hpr]
    have hodd : ∀ x ∈ k.primes.map BoxedUint.val, x % 2 = 1 := by
      intro x hx
      rcases (hnum.prime x hx).eq_two_or_odd with h | h
      · have := hnum.exp x hx
        rw [h] at this; omega
      · exact h
    have hcop : Nat.Coprime q.val p.val := by
      rw [Nat.coprime_primes (hnum.prime _ hqm) (hnum.prime _ hpm)]
      have := hnum.nodup
      rw [hpr] at this
      intro h
      simp [h] at this
    obtain ⟨pre, hv⟩ := precomputeValues_exists (rest := rest) hd (hw p (by simp [hpr])) (hw q (by simp [hpr]))
      (hodd _ hpm) (hodd _ hqm) (hnum.prime _ hpm).one_lt (hnum.prime _ hqm).one_lt hcop
    refine ⟨pre, ?_, ?_⟩
    · unfold PrivateKey.precompute
      simp only [hpre, Option.isSome_none, Bool.false_eq_true, if_false]
      rw [hpr, hv]; rfl
    · refine ⟨hk.coherent, hk.numbers, hk.width, ?_⟩
      intro pre' h
      obtain rfl : pre = pre' := Option.some.inj h
      obtain ⟨p', q', rest', hp', _, _, _, _, _, _, h1, h2, h3, h4, h5, h6, h7, h8⟩ := precomputeValues_ok hd hv
      obtain ⟨rfl, rfl, rfl⟩ : p = p' ∧ q = q' ∧ rest = rest' := by simpa using hp'
      exact ⟨⟨p, q, rest, hpr, h1, h2, h3, h4, h5⟩, h6, h7, h8⟩

/-- Two well-formed keys with the same components decrypt identically, whatever is cached. -/
theorem decrypt_cache_irrelevant {σ : Type} (R : RngImpl σ) (fuel : Nat) (rng : Option σ) {a b : PrivateKey}
    (ha : Spec.WellFormed a) (hb : Spec.WellFormed b) (h1 : a.pub = b.pub) (h2 : a.d = b.d) (c : BoxedUint) :
    rsaDecryptAndCheck R fuel a rng c = rsaDecryptAndCheck R fuel b rng c := by
  have key : rsaDecrypt R fuel rng a c = rsaDecrypt R fuel rng b c := by
    by_cases hc : c.val < a.pub.n.val
    · cases rng with
      | none =>
        by_cases hw : c.nlimbs ≤ a.d.nlimbs
        · rw [rsaDecrypt_none R fuel ha c hw hc, rsaDecrypt_none R fuel hb c (h2 ▸ hw) (h1 ▸ hc), h1, h2]
        · have hge : c.ge a.pub.n = false := by simp [ge, lt, hc]
          have hp : ¬ c.prec ≤ a.d.prec := by unfold prec; omega
          unfold rsaDecrypt
          simp only [← h1, ← h2, hge, widen, hp, if_false, Bool.false_eq_true, Res.panic_bind]
      | some s =>
        by_cases hw : c.nlimbs = a.pub.n.nlimbs
        · rw [rsaDecrypt_some R fuel s ha c hw hc, rsaDecrypt_some R fuel s hb c (h1 ▸ hw) (h1 ▸ hc), h1, h2]
        · have hge : c.ge a.pub.n = false := by simp [ge, lt, hc]
          have hco : a.pub.Coherent := ha.coherent
          have hbl : ∀ x, blind R fuel s a.pub c a.pub.nParams ≠ .ok x := by
            intro x hx
            unfold blind at hx
            split at hx
            · cases hx
            · simp only at hx
              rw [Res.bind_eq_ok] at hx
              obtain ⟨⟨⟨r, ir⟩, s1⟩, _, hx⟩ := hx
              rw [Res.bind_eq_ok] at hx
              obtain ⟨y, _, hx⟩ := hx
              rw [Res.bind_eq_ok] at hx
              obtain ⟨z, hz, _⟩ := hx
              have := (mulModParams_ok hz).1
              rw [coherent_prec hco] at this
              unfold prec at this; omega
          unfold rsaDecrypt
          simp only [← h1, ← h2, hge, if_false, Bool.false_eq_true]
          rcases hx : blind R fuel s a.pub c a.pub.nParams with x | e | p | _
          · exact absurd hx (hbl x)
          · rfl
          · rfl
          · rfl
    · rw [rsaDecrypt_ge R fuel rng a c (by omega), rsaDecrypt_ge R fuel rng b c (by rw [← h1]; omega)]
  unfold rsaDecryptAndCheck
  rw [key, h1]

/-- C02: whatever history of `precompute` / `clear_precomputed` is applied to a well-formed key (whose primes are stored
no wider than `d`, as in every key the constructors of the crate return), every step succeeds, the resulting key compares
equal to the original one, and every private operation on every `c`, blinded or not, has the same outcome. -/
theorem C02_crt_unobservable {k : PrivateKey} (hk : Spec.WellFormed k) (hw : ∀ p ∈ k.primes, p.nlimbs ≤ k.d.nlimbs)
    (ops : List CacheOp) :
    ∃ k', runCacheOps ops k = .ok k' ∧ k.eq k' = true ∧
      ∀ (σ : Type) (R : RngImpl σ) (fuel : Nat) (rng : Option σ) (c : BoxedUint),
        rsaDecryptAndCheck R fuel k' rng c = rsaDecryptAndCheck R fuel k rng c := by
  have gen : ∀ (ops : List CacheOp) (a : PrivateKey), Spec.WellFormed a → a.pub = k.pub → a.d = k.d →
      a.primes = k.primes → ∃ k', runCacheOps ops a = .ok k' ∧ Spec.WellFormed k' ∧ k'.pub = k.pub ∧ k'.d = k.d ∧
        k'.primes = k.primes := by
    intro ops
    induction ops with
    | nil => intro a ha h1 h2 h3; exact ⟨a, rfl, ha, h1, h2, h3⟩
    | cons op ops ih =>
      intro a ha h1 h2 h3
      cases op with
      | precompute =>
        obtain ⟨pre, hp, hwf⟩ := precompute_wf ha (by rw [h3, h2]; exact hw)
        have : a.tryPrecompute = .ok { a with precomputed := some pre } := by
          unfold PrivateKey.tryPrecompute; rw [hp]
        simp only [runCacheOps, this, Res.ok_bind]
        exact ih _ hwf h1 h2 h3
      | clear =>
        simp only [runCacheOps]
        exact ih _ (wf_without_cache ha) h1 h2 h3
  obtain ⟨k', hr, hwf, h1, h2, h3⟩ := gen ops k hk rfl rfl rfl
  exact ⟨k', hr, eq_of_same h1.symm h2.symm h3.symm,
    fun σ R fuel rng c => decrypt_cache_irrelevant R fuel rng hwf hk h1 h2 c⟩

example : Spec.WellFormed Ex.keyNoCrt ∧ ∀ p ∈ Ex.keyNoCrt.primes, p.nlimbs ≤ Ex.keyNoCrt.d.nlimbs :=
  ⟨Ex.keyNoCrt_wf, by decide⟩

/-! ### C03 -/

/-- C03: with a well-formed key and `c < n` (stored at the width of `n`, as all callers in the crate do), a blinded
decryption either reports the generator's failure, is still drawing, or returns exactly what the unblinded one returns;
and once the draws of the generator are usable it does return. -/
theorem C03_blinding_unobservable {σ : Type} (R : RngImpl σ) (fuel : Nat) (s : σ) {k : PrivateKey}
    (hk : Spec.WellFormed k) (c : BoxedUint) (hw : c.nlimbs = k.pub.n.nlimbs) (hc : c.val < k.pub.n.val) :
    (∃ m, rsaDecrypt R fuel none k c = .ok (m, none) ∧
      ((∃ s', rsaDecrypt R fuel (some s) k c = .ok (m, some s')) ∨ rsaDecrypt R fuel (some s) k c = .err .rng ∨
        rsaDecrypt R fuel (some s) k c = .loop) ∧
      (∀ s' j, Spec.Draws R k.pub.n.val s (some s') j → j ≤ fuel →
        rsaDecrypt R fuel (some s) k c = .ok (m, some s'))) ∧
    (∀ j, Spec.Draws R k.pub.n.val s none j → j ≤ fuel → rsaDecrypt R fuel (some s) k c = .err .rng) := by
  have hn := coherent_pos (k := k.pub) hk.coherent
  have hsome := rsaDecrypt_some R fuel s hk c hw hc
  refine ⟨⟨_, rsaDecrypt_none R fuel hk c (by have := hk.width; omega) hc, ?_, ?_⟩, ?_⟩
  · rcases blindLoop_outcomes R k.pub.n fuel s with ⟨r, ir, s', h⟩ | h | h
    · exact Or.inl ⟨s', by rw [hsome, h]; rfl⟩
    · exact Or.inr (Or.inl (by rw [hsome, h]; rfl))
    · exact Or.inr (Or.inr (by rw [hsome, h]; rfl))
  · intro s' j hd hj
    obtain ⟨r, ir, hl⟩ := (blindLoop_draws R k.pub.n hn hd fuel hj).1 s' rfl
    rw [hsome, hl]; rfl
  · intro j hd hj
    rw [hsome, (blindLoop_draws R k.pub.n hn hd fuel hj).2 rfl]; rfl

example : Spec.WellFormed Ex.key3 ∧ (wrap 3 12345).nlimbs = Ex.key3.pub.n.nlimbs ∧
    (wrap 3 12345).val < Ex.key3.pub.n.val := ⟨Ex.key3_wf, rfl, by decide⟩
/-- The draw 0 is usable (it is replaced by 1). -/
example : Spec.Draws Ex.countingRng Ex.key3.pub.n.val 0 (some 1) 1 := .good 0 0 (by decide) (Or.inl rfl)

/-! ### C04 -/

/-- C04: for any key object whatsoever (no consistency between `d`, the primes, the CRT values and `n` is assumed, only
that the public key is one the crate can construct), a result of the checked private operation satisfies `c < n` and
`m ^ e mod n = c`; with blinding it is also reduced, `m < n`. -/
theorem C04_fault_safety {σ : Type} (R : RngImpl σ) (fuel : Nat) (k : PrivateKey) (hk : k.pub.Coherent)
    (rng rng' : Option σ) (c m : BoxedUint) (h : rsaDecryptAndCheck R fuel k rng c = .ok (m, rng')) :
    c.val < k.pub.n.val ∧ m.val ^ k.pub.e.val % k.pub.n.val = c.val ∧ (rng.isSome → m.val < k.pub.n.val) := by
  have hn := coherent_pos hk
  have hl := coherent_nlimbs_pos hk
  have hc : c.val < k.pub.n.val := by
    by_contra hge
    unfold rsaDecryptAndCheck at h
    rw [rsaDecrypt_ge R fuel rng k c (by omega)] at h
    cases h
  unfold rsaDecryptAndCheck at h
  rw [Res.bind_eq_ok] at h
  obtain ⟨⟨m1, r1⟩, hdec, h⟩ := h
  simp only at h
  rw [rsaEncrypt_eq _ hk, Res.ok_bind] at h
  split at h
  · cases h
  · next hcheck =>
    obtain ⟨rfl, rfl⟩ : m1 = m ∧ r1 = rng' := by simpa using h
    -- the width of the result is that of `n`
    have hge : c.ge k.pub.n = false := by simp [ge, lt, hc]
    unfold rsaDecrypt at hdec
    simp only [hge, Bool.false_eq_true, if_false] at hdec
    have hwidth : m1.nlimbs = k.pub.n.nlimbs ∧ (rng.isSome → m1.val < k.pub.n.val) := by
      cases rng with
      | none =>
        simp only at hdec
        rw [Res.bind_eq_ok] at hdec
        obtain ⟨c', _, hdec⟩ := hdec
        rw [Res.bind_eq_ok] at hdec
        obtain ⟨m', _, hdec⟩ := hdec
        rw [Res.bind_eq_ok] at hdec
        obtain ⟨m'', hs, hdec⟩ := hdec
        obtain ⟨rfl, _⟩ : m'' = m1 ∧ none = r1 := by simpa using hdec
        refine ⟨?_, by simp⟩
        unfold shorten at hs
        split at hs
        · rw [← Res.ok.inj hs, wrap_nlimbs, coherent_prec hk, limbsFor_prec _ hl]
        · cases hs
      | some s =>
        simp only at hdec
        rw [Res.bind_eq_ok] at hdec
        obtain ⟨⟨⟨b, u⟩, s1⟩, _, hdec⟩ := hdec
        simp only at hdec
        rw [Res.bind_eq_ok] at hdec
        obtain ⟨c', _, hdec⟩ := hdec
        rw [Res.bind_eq_ok] at hdec
        obtain ⟨m', _, hdec⟩ := hdec
        rw [Res.bind_eq_ok] at hdec
        obtain ⟨m'', _, hdec⟩ := hdec
        rw [Res.bind_eq_ok] at hdec
        obtain ⟨m3, hu, hdec⟩ := hdec
        obtain ⟨rfl, _⟩ : m3 = m1 ∧ some s1 = r1 := by simpa using hdec
        unfold unblind at hu
        split at hu
        · cases hu
        · split at hu
          · cases hu
          · have := (mulModParams_ok hu).2.2
            rw [this, coherent_nlimbs hk, coherent_mod hk]
            exact ⟨rfl, fun _ => by rw [wrap_mod_val _ hn]; exact Nat.mod_lt _ hn⟩
    refine ⟨hc, ?_, hwidth.2⟩
    have hm : m1.val < 2 ^ k.pub.n.prec := by have := m1.isLt; rw [hwidth.1] at this; exact this
    rw [Nat.mod_eq_of_lt hm] at hcheck
    have : c.val = (wrap k.pub.n.nlimbs (m1.val ^ k.pub.e.val % k.pub.n.val)).val := by simpa [beq] using hcheck
    rw [this, wrap_mod_val _ hn]

/-- The hypotheses hold for a blinded run of the example key. -/
example : Ex.key.pub.Coherent ∧
    ∃ m, rsaDecryptAndCheck Ex.countingRng 1 Ex.key (some 5) (wrap 4 12345) = .ok (m, some 6) :=
  ⟨rfl, wrap 4 83410789264595470968058977732445373593725921364094080967837019834, by decide +kernel⟩

/-- A key whose `dp` was corrupted: the unchecked operation does return a (wrong) value, the checked one refuses it. -/
def Ex.faultyKey : PrivateKey :=
  { Ex.key with precomputed := some { Ex.pre with dp := wrap 4 463625422192654777564758142 } }
example : Ex.faultyKey.pub.Coherent ∧
    (∃ m, rsaDecrypt Ex.countingRng 1 none Ex.faultyKey (wrap 4 12345) = .ok (m, none)) ∧
    rsaDecryptAndCheck Ex.countingRng 1 Ex.faultyKey none (wrap 4 12345) = .err .internal :=
  ⟨rfl, ⟨wrap 4 94546603396470743885784421649955933171044574117924934119751819700, by decide +kernel⟩,
    by decide +kernel⟩

/-! ### C48 -/

/-- A corrupted key over `n = 33` whose unblinded CRT recombination yields 260. -/
def Ex.unreducedKey : PrivateKey :=
  let n33 : OddUint := ⟨wrap 1 33, by decide⟩
  let n35 : OddUint := ⟨wrap 1 35, by decide⟩
  { pub := { n := wrap 1 33, e := wrap 1 3, nParams := ⟨n33⟩ }
    d := wrap 1 7
    primes := [wrap 1 35, wrap 1 33]
    precomputed := some { dp := wrap 1 0, dq := wrap 1 7, qinv := ⟨⟨n35⟩, 1⟩, pParams := ⟨n35⟩, qParams := ⟨n33⟩ } }

/-- C48 does not hold for every key object: with corrupted CRT values the unblinded checked operation can return an
unreduced `m ≥ n` (it still satisfies `m ^ e mod n = c`). -/
theorem C48_unreduced_witness : ∃ (k : PrivateKey) (c m : BoxedUint), k.pub.Coherent ∧
    rsaDecryptAndCheck Ex.countingRng 0 k none c = .ok (m, none) ∧ ¬ m.val < k.pub.n.val :=
  ⟨Ex.unreducedKey, wrap 1 2, wrap 1 260, rfl, by decide +kernel, by decide⟩

/-- C48 (full statement: every result of the checked private operation is below `n`, for every key object). Proved for
blinded runs of any key, and for unblinded runs of any key without CRT values or with more than two primes, whatever `d`
is, and of well-formed keys. Missing: unblinded runs of keys with corrupted CRT values, where it is false
(`C48_unreduced_witness`). -/
theorem C48_reduced_partial {σ : Type} (R : RngImpl σ) (fuel : Nat) (k : PrivateKey) (hk : k.pub.Coherent)
    (rng rng' : Option σ) (c m : BoxedUint) (h : rsaDecryptAndCheck R fuel k rng c = .ok (m, rng'))
    (hcase : rng.isSome ∨ k.precomputed = none ∨ k.primes.length > 2 ∨ Spec.WellFormed k) :
    m.val < k.pub.n.val := by
  have hn := coherent_pos hk
  have hl := coherent_nlimbs_pos hk
  obtain ⟨hc, _, hblind⟩ := C04_fault_safety R fuel k hk rng rng' c m h
  cases rng with
  | some s => exact hblind rfl
  | none =>
    unfold rsaDecryptAndCheck at h
    rw [Res.bind_eq_ok] at h
    obtain ⟨⟨m1, r1⟩, hdec, h⟩ := h
    simp only at h
    rw [rsaEncrypt_eq _ hk, Res.ok_bind] at h
    split at h
    · cases h
    · obtain ⟨rfl, rfl⟩ : m1 = m ∧ r1 = rng' := by simpa using h
      have hge : c.ge k.pub.n = false := by simp [ge, lt, hc]
      by_cases hwf : Spec.WellFormed k
      · by_cases hw : c.nlimbs ≤ k.d.nlimbs
        · rw [rsaDecrypt_none R fuel hwf c hw hc] at hdec
          obtain ⟨rfl, _⟩ : _ = m1 ∧ none = r1 := by simpa using hdec
          rw [wrap_mod_val _ hn]; exact Nat.mod_lt _ hn
        · have hp : ¬ c.prec ≤ k.d.prec := by unfold prec; omega
          unfold rsaDecrypt at hdec
          simp [hge, widen, hp] at hdec
      · have hplain : ∀ x, rsaPrivateExp k x = powModParams x k.d k.pub.nParams := by
          intro x
          unfold rsaPrivateExp
          rcases hcase with h' | h' | h' | h'
          · simp at h'
          · simp only [h']
          · simp only [h', decide_true]
            cases k.precomputed <;> rfl
          · exact absurd h' hwf
        unfold rsaDecrypt at hdec
        simp only [hge, Bool.false_eq_true, if_false] at hdec
        rw [Res.bind_eq_ok] at hdec
        obtain ⟨c', _, hdec⟩ := hdec
        rw [hplain, powModParams_eq, Res.ok_bind, coherent_prec hk, coherent_mod hk, coherent_nlimbs hk,
          shorten_of_le (by exact le_refl _), Res.ok_bind, wrap_mod_val _ hn, limbsFor_prec _ hl] at hdec
        obtain ⟨rfl, _⟩ : _ = m1 ∧ none = r1 := by simpa using hdec
        rw [wrap_mod_val _ hn]; exact Nat.mod_lt _ hn

/-- A key with a wrong `d` and no CRT values meets the hypotheses (`2` is a cube root of `8` found with `d = 7`). -/
example : ∃ m, rsaDecryptAndCheck Ex.countingRng 0 { Ex.unreducedKey with precomputed := none } none (wrap 1 2)
    = .ok (m, none) ∧ m.val < 33 := ⟨wrap 1 29, by decide +kernel, by decide⟩

/-! ### C05 -/

/-- C05: a ciphertext representative at or above `n` gives the Decryption error, for every key and whatever the
generator would have done (no draw is needed: the outcome is the same for all generators, failing ones included). -/
theorem C05_out_of_range {σ : Type} (R : RngImpl σ) (fuel : Nat) (k : PrivateKey) (rng : Option σ) (c : BoxedUint)
    (hc : k.pub.n.val ≤ c.val) :
    rsaDecrypt R fuel rng k c = .err .decryption ∧ rsaDecryptAndCheck R fuel k rng c = .err .decryption := by
  have h := rsaDecrypt_ge R fuel rng k c hc
  refine ⟨h, ?_⟩
  unfold rsaDecryptAndCheck
  rw [h]; rfl

/-- `c = n` itself is out of range, `c = n - 1` is not. -/
example : Ex.key.pub.n.val ≤ Ex.key.pub.n.val ∧ rsaDecryptAndCheck Ex.countingRng 0 Ex.key none
    (wrap 4 (Ex.key.pub.n.val - 1)) = .ok (wrap 4 (Ex.key.pub.n.val - 1), none) := ⟨le_refl _, by decide +kernel⟩

/-! ### C25 -/

/-- C25: both conversions succeed exactly when the value is below `256 ^ len`, with exactly `len` bytes that read back
to the value (in particular they agree with I2OSP of RFC 8017), whatever the internal width. -/
theorem C25_i2osp (x : BoxedUint) (len : Nat) :
    (∀ out, uintToBePad x len = .ok out ↔ Spec.i2osp x.val len = some out) ∧
    (∀ out, uintToZeroizingBePad x len = .ok out ↔ Spec.i2osp x.val len = some out) ∧
    (256 ^ len ≤ x.val → uintToBePad x len = .err .invalidPadLen ∧ uintToZeroizingBePad x len = .err .invalidPadLen) ∧
    (∀ out, uintToBePad x len = .ok out → x.val < 256 ^ len ∧ out.length = len ∧ Spec.os2ip out = x.val) ∧
    (x.val < 256 ^ len → ∃ out, uintToBePad x len = .ok out) := by
  rw [uintToBePad_eq, uintToZeroizingBePad_eq]
  by_cases h : x.val < 256 ^ len
  · simp only [h, if_true, i2osp_eq _ _ h]
    refine ⟨fun out => by simp, fun out => by simp, fun h' => by omega, ?_, fun _ => ⟨_, rfl⟩⟩
    intro out ho
    obtain rfl := Res.ok.inj ho
    exact ⟨trivial, beBytes_length _ _, by rw [← beVal_eq_os2ip, beVal_beBytes, Nat.mod_eq_of_lt h]⟩
  · simp only [h, if_false, i2osp_none _ _ (Nat.not_lt.mp h)]
    exact ⟨fun out => by simp, fun out => by simp, fun _ => ⟨trivial, trivial⟩, fun out h' => (by cases h'),
      fun h' => h'.elim⟩

/-- A 4-limb integer padded to 3 bytes, and one that does not fit. -/
example : uintToBePad (wrap 4 258) 3 = .ok [0, 1, 2] ∧ uintToBePad (wrap 4 65536) 2 = .err .invalidPadLen := by
  decide +kernel

/-! ### C47 -/

/-- C47 does not hold for representatives stored wider than the modulus: the high limbs are dropped before reduction. -/
theorem C47_wide_witness : ∃ (k : PublicKey) (m c : BoxedUint), k.Coherent ∧ rsaEncrypt k m = .ok c ∧
    c.val ≠ m.val ^ k.e.val % k.n.val :=
  ⟨Ex.unreducedKey.pub, wrap 2 (2 ^ 64), wrap 1 0, rfl, by decide +kernel, by decide +kernel⟩

/-- C47 (full statement: `m ^ e mod n` for every integer `m`). Proved for every `m` that fits the stored width of the
modulus, whatever its own width, in particular for all `m < n`. Missing: wider `m`, where it is false
(`C47_wide_witness`). -/
theorem C47_public_op_partial (k : PublicKey) (hk : k.Coherent) (m : BoxedUint) (hm : m.val < 2 ^ k.n.prec) :
    ∃ c, rsaEncrypt k m = .ok c ∧ c.val = m.val ^ k.e.val % k.n.val :=
  ⟨_, rsaEncrypt_lt k hk m hm, wrap_mod_val _ (coherent_pos hk) _⟩

/-- The hypothesis covers `m ≥ n`, and `m` stored in more limbs than `n`. -/
example : Ex.key.pub.Coherent ∧ (wrap 9 (2 ^ 255)).val < 2 ^ Ex.key.pub.n.prec ∧
    Ex.key.pub.n.val ≤ (wrap 9 (2 ^ 255)).val := ⟨rfl, by decide +kernel, by decide +kernel⟩

end RSA
