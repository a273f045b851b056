import Verif.Model.Access
import Verif.Props.EndToEnd

/-
C72: accessors, conversions, random constructors of the typed keys, `Debug` of the wrapper types, `Display` of errors.
-/
namespace RSA
open BoxedUint Spec

/-- Failing with an error (not a panic) means that both primes fit the exponent's width. -/
theorem precomputeValues_err_widths {d p q : BoxedUint} {rest : List BoxedUint} {er : Error}
    (h : PrivateKey.precomputeValues d (p :: q :: rest) = .err er) : p.nlimbs ≤ d.nlimbs ∧ q.nlimbs ≤ d.nlimbs := by
  unfold PrivateKey.precomputeValues at h
  simp only [primeAt, List.getElem?_cons_zero, List.getElem?_cons_succ, Res.ok_bind] at h
  by_cases hp : p.prec ≤ d.prec
  · rw [widen_of_le hp, Res.ok_bind] at h
    by_cases hq : q.prec ≤ d.prec
    · unfold prec at hp hq; omega
    · rw [widen_panic (by omega)] at h; cases h
  · rw [widen_panic (by omega)] at h; cases h

theorem coprime_of_inv {a q p : Nat} (h : a * q % p = 1) : Nat.Coprime q p := by
  have h1 : Nat.gcd q p ∣ 1 := by
    rw [← h, Nat.dvd_mod_iff (Nat.gcd_dvd_right q p)]
    exact (Nat.gcd_dvd_left q p).mul_left a
  exact Nat.dvd_one.mp h1

/-- C72, accessors: what the key methods answer after `from_components(n, e, d, primes)` succeeded. The four inputs come
back unchanged; the cached CRT values are there exactly when the first two primes are coprime, and then `dp`, `dq` are `d`
reduced modulo `p - 1`, `q - 1`, `qinv` inverts `q` modulo `p` and the Montgomery parameters are those of `p` and `q`;
`crt_coefficient` answers with an inverse of `q` modulo `p` in the same cases; `crt_values` never answers. -/
theorem C72_accessors (n : OddUint) (e d : BoxedUint) (primes : List BoxedUint) (hne : primes ≠ []) (k : PrivateKey)
    (h : PrivateKey.fromComponents n e d primes = .ok k) :
    k.publicParts = ⟨n.toBoxedUint, e, ⟨n⟩⟩ ∧ k.asRef.parts = k.publicParts ∧ k.toPublicKey = k.asRef ∧
    PublicKey.ofPrivate k = k.asRef ∧
    k.parts.d = d ∧ k.parts.primes = primes ∧ k.parts.crtValues = none ∧
    ∃ p q rest, primes = p :: q :: rest ∧
      (Nat.Coprime q.val p.val → ∃ dp dq qinv pp qp c,
        k.parts.dp = some dp ∧ k.parts.dq = some dq ∧ k.parts.qinv = some qinv ∧ k.parts.pParams = some pp ∧
        k.parts.qParams = some qp ∧ k.crtCoefficient = .ok (some c) ∧
        dp.val = d.val % (p.val - 1) ∧ dq.val = d.val % (q.val - 1) ∧ qinv.res * q.val % p.val = 1 ∧
        qinv.params = pp ∧ pp.modulus.toBoxedUint.val = p.val ∧ qp.modulus.toBoxedUint.val = q.val ∧
        c.val * q.val % p.val = 1 ∧ c.val < p.val) ∧
      (¬ Nat.Coprime q.val p.val →
        k.parts.dp = none ∧ k.parts.dq = none ∧ k.parts.qinv = none ∧ k.parts.pParams = none ∧
        k.parts.qParams = none ∧ k.crtCoefficient = .ok none) := by
  obtain ⟨h1, h2, h3, h4, h5, h6, h7, h8, h9⟩ := PrivateKey.fromComponents_ok hne h
  have hx := C51_factors_partial n e d primes hne k h
  refine ⟨?_, rfl, rfl, rfl, h4, h5, rfl, ?_⟩
  · unfold PrivateKey.publicParts; rw [h1, h2, h3]
  match primes, h6, hne with
  | p :: q :: rest, _, hne =>
    refine ⟨p, q, rest, rfl, ?_, ?_⟩
    all_goals
      obtain ⟨hpo, hp1, hde⟩ := hx p (by simp)
      obtain ⟨hqo, hq1, hdq⟩ := hx q (by simp)
      have hd1 : 1 ≤ d.nlimbs := by
        apply nlimbs_pos_of_val_pos
        rcases Nat.eq_zero_or_pos d.val with h0 | h0
        · rw [h0, Nat.zero_mul, Nat.zero_mod] at hde; cases hde
        · exact h0
      have hcc : k.crtCoefficient = .ok (q.invMod p) := by
        unfold PrivateKey.crtCoefficient
        rw [h5]
        rfl
    · intro hco
      cases hpre : k.precomputed with
      | none =>
        obtain ⟨er, her⟩ := h9 hpre
        obtain ⟨w1, w2⟩ := precomputeValues_err_widths her
        obtain ⟨pre, hok⟩ := precomputeValues_exists (rest := rest) hd1 w1 w2 hpo hqo hp1 hq1 hco
        rw [hok] at her; cases her
      | some pre =>
        obtain ⟨p', q', rest', e1, -, -, -, -, -, -, a1, a2, a3, a4, a5, a6, -, -⟩ := precomputeValues_ok hd1 (h8 pre hpre)
        obtain ⟨rfl, e2⟩ := List.cons.inj e1
        obtain ⟨rfl, rfl⟩ := List.cons.inj e2
        obtain ⟨i, hi⟩ := natInvMod_isSome (by omega : 0 < p.val) hco
        obtain ⟨-, hi1, -, hi2⟩ := natInvMod_some hi
        refine ⟨pre.dp, pre.dq, pre.qinv, pre.pParams, pre.qParams, wrap p.nlimbs i, ?_, ?_, ?_, ?_, ?_, ?_, a1, a2, a5, a6, a3, a4, ?_⟩
        · unfold PrivateKey.parts; rw [hpre]; rfl
        · unfold PrivateKey.parts; rw [hpre]; rfl
        · unfold PrivateKey.parts; rw [hpre]; rfl
        · unfold PrivateKey.parts; rw [hpre]; rfl
        · unfold PrivateKey.parts; rw [hpre]; rfl
        · rw [hcc]; unfold invMod; rw [hi]; rfl
        · have hv : (wrap p.nlimbs i).val = i := wrap_val_of_lt (lt_trans hi1 p.isLt)
          rw [hv, Nat.mul_comm, hi2, Nat.mod_eq_of_lt hp1]
          exact ⟨rfl, hi1⟩
    · intro hco
      cases hpre : k.precomputed with
      | none =>
        unfold PrivateKey.parts
        rw [hpre, hcc]
        refine ⟨rfl, rfl, rfl, rfl, rfl, ?_⟩
        unfold invMod
        rw [(natInvMod_none (by omega)).mpr hco]
        rfl
      | some pre =>
        obtain ⟨p', q', rest', e1, -, -, -, -, -, -, a1, a2, a3, a4, a5, a6, -, -⟩ := precomputeValues_ok hd1 (h8 pre hpre)
        obtain ⟨rfl, e2⟩ := List.cons.inj e1
        obtain ⟨rfl, rfl⟩ := List.cons.inj e2
        exact absurd (coprime_of_inv a5) hco

example : PrivateKey.fromComponents Ex.nOdd (wrap 1 65537) (wrap 4 Ex.dVal) [wrap 2 (2 ^ 89 - 1), wrap 2 (2 ^ 127 - 1)]
    = .ok Ex.key ∧ Nat.Coprime (wrap 2 (2 ^ 127 - 1)).val (wrap 2 (2 ^ 89 - 1)).val := by decide +kernel

/- The uncached case: a key made from a repeated prime answers nothing. -/
example : ∃ k, PrivateKey.fromComponents ⟨wrap 1 49, by decide⟩ (wrap 1 5) (wrap 1 5) [wrap 1 7, wrap 1 7] = .ok k ∧
    k.parts.dp = none ∧ ¬ Nat.Coprime (wrap 1 7).val (wrap 1 7).val := by
  obtain ⟨k, hk, -⟩ := C51_repeated_prime_accepted
  have := (C72_accessors _ _ _ _ (by simp) k hk).2.2.2.2.2.2.2
  obtain ⟨p, q, rest, h1, -, h2⟩ := this
  simp only [List.cons.injEq] at h1
  rw [← h1.1, ← h1.2.1] at h2
  have hc : ¬ Nat.Coprime (wrap 1 7).val (wrap 1 7).val := by decide
  exact ⟨k, hk, (h2 hc).1, hc⟩

/-! ### Constructors that draw a key -/

/-- C72, random constructors: `random`, `random_unprefixed`, `random_with_salt_len` answer with exactly the key
`RsaPrivateKey::new` draws from the same generator state (a well-formed two-prime key of the requested size with exponent
65537), together with the DER prefix of the hash, no prefix, the hash length, or the given salt length; they fail when, and
with the error with which, `RsaPrivateKey::new` fails. -/
theorem C72_random {σ : Type} (G : PrimeGen σ) (hP : PrimeSearch G) (fuel : Nat) (s : σ) (bitSize : Nat) (D : HashFn)
    (oid : Bytes) (hoid : oid.length + D.outLen + 8 < 128) (saltLen : Nat) :
    (∀ key s', PrivateKey.new G fuel s bitSize = .ok (key, s') →
      (WellFormed key ∧ key.pub.n.val.size = bitSize ∧ key.primes.length = 2 ∧ key.pub.e.val = 65537) ∧
      (∃ sk, pkcs1v15.SigningKey.random (D := D) G fuel s oid bitSize = .ok (sk, s') ∧
        pkcs1v15.SigningKey.randomWithPrefix (D := D) G fuel s oid bitSize = .ok (sk, s') ∧ sk.inner = key ∧
        ∀ digest, digest.length = D.outLen → sk.pfx ++ digest = Spec.digestInfo oid digest) ∧
      (∃ sk, pkcs1v15.SigningKey.randomUnprefixed (D := D) G fuel s bitSize = .ok (sk, s') ∧ sk.inner = key ∧
        sk.pfx = []) ∧
      (∃ sk, pss.SigningKey.random (D := D) G fuel s bitSize = .ok (sk, s') ∧ sk.inner = key ∧
        sk.getSaltLen = D.outLen) ∧
      (∃ sk, pss.SigningKey.randomWithSaltLen (D := D) G fuel s bitSize saltLen = .ok (sk, s') ∧ sk.inner = key ∧
        sk.getSaltLen = saltLen) ∧
      (∃ sk, pss.BlindedSigningKey.random (D := D) G fuel s bitSize = .ok (sk, s') ∧ sk.inner = key ∧
        sk.getSaltLen = D.outLen) ∧
      (∃ sk, pss.BlindedSigningKey.randomWithSaltLen (D := D) G fuel s bitSize saltLen = .ok (sk, s') ∧ sk.inner = key ∧
        sk.getSaltLen = saltLen)) ∧
    (∀ er, PrivateKey.new G fuel s bitSize = .err er →
      pkcs1v15.SigningKey.random (D := D) G fuel s oid bitSize = .err er ∧
      pkcs1v15.SigningKey.randomUnprefixed (D := D) G fuel s bitSize = .err er ∧
      pss.SigningKey.random (D := D) G fuel s bitSize = .err er ∧
      pss.SigningKey.randomWithSaltLen (D := D) G fuel s bitSize saltLen = .err er ∧
      pss.BlindedSigningKey.random (D := D) G fuel s bitSize = .err er ∧
      pss.BlindedSigningKey.randomWithSaltLen (D := D) G fuel s bitSize saltLen = .err er) := by
  constructor
  · intro key s' h
    have hw := C31_generated_key G hP fuel s s' bitSize (ofU64 defaultExp) key h
    have hdig : ∃ pfx, pkcs1v15GeneratePrefix oid D.outLen = .ok pfx ∧
        ∀ digest, digest.length = D.outLen → pfx ++ digest = Spec.digestInfo oid digest := by
      obtain ⟨pfx, h1, -⟩ := C13_digest_info oid (List.replicate D.outLen 0) (by simpa using hoid)
      rw [List.length_replicate] at h1
      refine ⟨pfx, h1, fun digest hl => ?_⟩
      obtain ⟨pfx', h2, h3⟩ := C13_digest_info oid digest (by rw [hl]; exact hoid)
      rw [hl, h1] at h2
      obtain rfl := Res.ok.inj h2
      exact h3
    obtain ⟨pfx, hpfx, hall⟩ := hdig
    have hr : pkcs1v15.SigningKey.random (D := D) G fuel s oid bitSize = .ok (⟨key, pfx⟩, s') := by
      unfold pkcs1v15.SigningKey.random
      rw [h, Res.ok_bind]
      simp only
      rw [hpfx, Res.ok_bind]
    refine ⟨⟨hw.1, hw.2.1, hw.2.2.1, by rw [hw.2.2.2]; rfl⟩, ⟨⟨key, pfx⟩, hr, hr, rfl, hall⟩, ⟨⟨key, []⟩, ?_, rfl, rfl⟩,
      ⟨⟨key, D.outLen⟩, ?_, rfl, rfl⟩, ⟨⟨key, saltLen⟩, ?_, rfl, rfl⟩, ⟨⟨key, D.outLen⟩, ?_, rfl, rfl⟩,
      ⟨⟨key, saltLen⟩, ?_, rfl, rfl⟩⟩
    · unfold pkcs1v15.SigningKey.randomUnprefixed; rw [h, Res.ok_bind]
    · unfold pss.SigningKey.random pss.SigningKey.randomWithSaltLen; rw [h, Res.ok_bind]
    · unfold pss.SigningKey.randomWithSaltLen; rw [h, Res.ok_bind]
    · unfold pss.BlindedSigningKey.random pss.BlindedSigningKey.randomWithSaltLen; rw [h, Res.ok_bind]
    · unfold pss.BlindedSigningKey.randomWithSaltLen; rw [h, Res.ok_bind]
  · intro er h
    refine ⟨?_, ?_, ?_, ?_, ?_, ?_⟩
    · unfold pkcs1v15.SigningKey.random; rw [h]; rfl
    · unfold pkcs1v15.SigningKey.randomUnprefixed; rw [h]; rfl
    · unfold pss.SigningKey.random pss.SigningKey.randomWithSaltLen; rw [h]; rfl
    · unfold pss.SigningKey.randomWithSaltLen; rw [h]; rfl
    · unfold pss.BlindedSigningKey.random pss.BlindedSigningKey.randomWithSaltLen; rw [h]; rfl
    · unfold pss.BlindedSigningKey.randomWithSaltLen; rw [h]; rfl

/-- Both cases occur: a key is drawn at 128 bits, and at 8 bits there are too few primes. -/
example : (∃ key s', PrivateKey.new Ex.pair64 1 0 128 = .ok (key, s')) ∧
    PrivateKey.new Ex.pair64 1 0 8 = .err .tooFewPrimes ∧ ([0x2a, 0x03] : Bytes).length + Ex.hash4.outLen + 8 < 128 := by
  refine ⟨?_, by decide +kernel, by decide⟩
  have hx : (match PrivateKey.new Ex.pair64 1 0 128 with
    | .ok _ => true
    | _ => false) = true := by decide +kernel
  cases h : PrivateKey.new Ex.pair64 1 0 128 with
  | ok r => exact ⟨r.1, r.2, rfl⟩
  | err e => rw [h] at hx; cases hx
  | panic e => rw [h] at hx; cases hx
  | loop => rw [h] at hx; cases hx

/-- C72, drawn keys sign: with a prime search returning primes of the right size, and a bit size whose modulus fills its
limbs, every signature made by a typed key that was just drawn (the `os_rng` signers included, whatever the operating
system's generator delivers) is accepted by the verifying key derived from it; the PKCS#1 v1.5 key signs every message
as soon as the encoded hash fits. -/
theorem C72_drawn_keys_sign {σ : Type} (G : PrimeGen σ) (hP : PrimeSearch G) (bitSize : Nat) (hG : TopHalves G bitSize)
    (hsize : bitSize % 128 ≤ 1 ∨ 64 < bitSize % 128) (fuel : Nat) (s s' : σ) (D : HashFn) :
    (∀ oid sk, pkcs1v15.SigningKey.random (D := D) G fuel s oid bitSize = .ok (sk, s') →
      oid.length + D.outLen + 8 < 128 → oid.length + D.outLen + 21 ≤ (bitSize + 7) / 8 →
      ∀ msg, ∃ sg, sk.trySign msg = .ok sg ∧ sk.verifyingKey.verify msg sg = .ok ()) ∧
    (∀ sk, pkcs1v15.SigningKey.randomUnprefixed (D := D) G fuel s bitSize = .ok (sk, s') →
      D.outLen + 11 ≤ (bitSize + 7) / 8 →
      ∀ msg, ∃ sg, sk.trySign msg = .ok sg ∧ sk.verifyingKey.verify msg sg = .ok ()) ∧
    (∀ saltLen sk, pss.SigningKey.randomWithSaltLen (D := D) G fuel s bitSize saltLen = .ok (sk, s') → 0 < D.outLen →
      D.outLen + saltLen + 2 < 2 ^ 64 → ∀ {τ : Type} (os : RngImpl τ) f r msg sg, sk.trySign os f r msg = .ok sg →
      sk.verifyingKey.verify msg sg = .ok ()) ∧
    (∀ saltLen sk, pss.BlindedSigningKey.randomWithSaltLen (D := D) G fuel s bitSize saltLen = .ok (sk, s') →
      0 < D.outLen → D.outLen + saltLen + 2 < 2 ^ 64 → ∀ {τ : Type} (R : RngImpl τ) f r msg sg,
      sk.trySignWithRng R f r msg = .ok sg → sk.verifyingKey.verify msg sg = .ok ()) := by
  have key : ∀ k, PrivateKey.new G fuel s bitSize = .ok (k, s') → WellFormed k ∧ NoSpareLimbs k.pub ∧
      k.pub.n.prec < 2 ^ 32 ∧ octetLen k.pub.n.val = (bitSize + 7) / 8 := by
    intro k h
    obtain ⟨h4, h32⟩ := generated_range hP h
    obtain ⟨hwf, hsz, -, -⟩ := C31_generated_key G hP fuel s s' bitSize _ k h
    obtain ⟨p, q, -, -, -, -, -, hv, -⟩ := generated_facts hP hG h4 h32 h
    obtain ⟨c1, -⟩ := (checkPublic_ok _).mp (checkPublic_of_validate hv)
    refine ⟨hwf, (C66_storage G hP bitSize hG fuel s s' _ k h).2.mpr hsize, by omega, ?_⟩
    unfold octetLen
    rw [hsz]
  refine ⟨?_, ?_, ?_, ?_⟩
  · intro oid sk h hoid hfit msg
    unfold pkcs1v15.SigningKey.random at h
    rw [Res.bind_eq_ok] at h
    obtain ⟨⟨k, s1⟩, hk, h⟩ := h
    simp only at h
    rw [Res.bind_eq_ok] at h
    obtain ⟨pfx, hpfx, h⟩ := h
    obtain ⟨rfl, rfl⟩ := Prod.mk.inj (Res.ok.inj h)
    obtain ⟨hwf, hsp, hp, ho⟩ := key k hk
    have hlen : pfx.length = oid.length + 10 := by
      obtain ⟨pfx', h1, h2⟩ := C13_digest_info oid (List.replicate D.outLen 0) (by simpa using hoid)
      rw [List.length_replicate, hpfx] at h1
      obtain rfl := Res.ok.inj h1
      have := congrArg List.length h2
      have dl : ∀ m, m < 128 → (derLen m).length = 1 := fun m hm => by simp [derLen, hm]
      have dt : ∀ t c, c.length < 128 → (der t c).length = c.length + 2 := fun t c hc => by
        simp [der, dl _ hc]; omega
      have l1 := dt 0x06 oid (by omega)
      have l2 := dt 0x05 [] (by simp)
      have l3 := dt 0x04 (List.replicate D.outLen 0) (by simp; omega)
      have l4 := dt 0x30 (der 0x06 oid ++ der 0x05 []) (by rw [List.length_append, l1, l2]; simp; omega)
      have l5 := dt 0x30 (der 0x30 (der 0x06 oid ++ der 0x05 []) ++ der 0x04 (List.replicate D.outLen 0)) (by
        rw [List.length_append, l4, l3, List.length_append, l1, l2, List.length_replicate]; simp; omega)
      unfold Spec.digestInfo at this
      rw [l5, List.length_append, List.length_append, l4, l3, List.length_append, l1, l2, List.length_replicate] at this
      simp at this
      omega
    obtain ⟨sg, h1, h2, -⟩ := C09_typed_round_trip (pkcs1v15.SigningKey.mk (D := D) k pfx) hwf hsp hp msg
      (by show pfx.length + _ + 11 ≤ octetLen k.pub.n.val; rw [ho, hlen]; omega)
    exact ⟨sg, h1, h2⟩
  · intro sk h hfit msg
    unfold pkcs1v15.SigningKey.randomUnprefixed at h
    rw [Res.bind_eq_ok] at h
    obtain ⟨⟨k, s1⟩, hk, h⟩ := h
    obtain ⟨rfl, rfl⟩ := Prod.mk.inj (Res.ok.inj h)
    obtain ⟨hwf, hsp, hp, ho⟩ := key k hk
    obtain ⟨sg, h1, h2, -⟩ := C09_typed_round_trip (pkcs1v15.SigningKey.mk (D := D) k []) hwf hsp hp msg
      (by show ([] : Bytes).length + _ + 11 ≤ octetLen k.pub.n.val; rw [ho]; simpa using hfit)
    exact ⟨sg, h1, h2⟩
  · intro saltLen sk h hD hadd τ os f r msg sg hs
    unfold pss.SigningKey.randomWithSaltLen at h
    rw [Res.bind_eq_ok] at h
    obtain ⟨⟨k, s1⟩, hk, h⟩ := h
    obtain ⟨rfl, rfl⟩ := Prod.mk.inj (Res.ok.inj h)
    exact ((C66_generated_key_works_partial G hP bitSize hG fuel s s1 _ k hk os f r r none trivial).2.2.2.1 hsize).2 D
      saltLen msg sg hD hadd (Or.inl hs)
  · intro saltLen sk h hD hadd τ R f r msg sg hs
    unfold pss.BlindedSigningKey.randomWithSaltLen at h
    rw [Res.bind_eq_ok] at h
    obtain ⟨⟨k, s1⟩, hk, h⟩ := h
    obtain ⟨rfl, rfl⟩ := Prod.mk.inj (Res.ok.inj h)
    exact ((C66_generated_key_works_partial G hP bitSize hG fuel s s1 _ k hk R f r r none trivial).2.2.2.1 hsize).2 D
      saltLen msg sg hD hadd (Or.inr hs)

/-- Signing with a key drawn at 128 bits: an unprefixed two-octet hash fits. -/
example : PrimeSearch Ex.pair64 ∧ TopHalves Ex.pair64 128 ∧ (128 % 128 ≤ 1 ∨ 64 < 128 % 128) ∧
    Ex.hash4.outLen + 11 ≤ (128 + 7) / 8 ∧
    (match pkcs1v15.SigningKey.randomUnprefixed (D := Ex.hash4) Ex.pair64 1 0 128 with
      | .ok _ => true
      | _ => false) = true :=
  ⟨Ex.pair64_prime, Ex.pair64_top, by decide, by decide, by decide +kernel⟩

/-! ### Conversions -/

/-- C72, conversions: going from a key to a typed key and back returns the key; the deprecated constructors are the current
ones; a cloned verifying key is the same key. -/
theorem C72_conversions (D : HashFn) (oid : Bytes) (key : PrivateKey) (pub : PublicKey) :
    (∀ sk : pkcs1v15.SigningKey D, pkcs1v15.SigningKey.ofKey oid key = .ok sk → sk.asRef = key) ∧
    (pss.SigningKey.ofKey (D := D) key).asRef = key ∧ (pss.SigningKey.ofKey (D := D) key).getSaltLen = D.outLen ∧
    (pss.BlindedSigningKey.ofKey (D := D) key).asRef = key ∧
    (pss.BlindedSigningKey.ofKey (D := D) key).getSaltLen = D.outLen ∧
    (∀ vk : pkcs1v15.VerifyingKey D, pkcs1v15.VerifyingKey.newWithPrefix oid pub = .ok vk → vk.asRef = pub) ∧
    (pss.VerifyingKey.ofKey (D := D) pub).asRef = pub ∧ (pss.VerifyingKey.ofKey (D := D) pub).getSaltLen = D.outLen ∧
    (∀ (vk : pkcs1v15.VerifyingKey D) msg sg, vk.clone.verify msg sg = vk.verify msg sg) ∧
    (∀ (vk : pss.VerifyingKey D) msg sg, vk.clone.verify msg sg = vk.verify msg sg) ∧
    (∀ (sk : pkcs1v15.SigningKey D), sk.verifyingKey.asRef = sk.asRef.toPublicKey) ∧
    (∀ (sk : pss.SigningKey D), sk.verifyingKey.asRef = sk.asRef.toPublicKey ∧ sk.verifyingKey.getSaltLen = sk.getSaltLen) ∧
    (∀ (sk : pss.BlindedSigningKey D), sk.verifyingKey.asRef = sk.asRef.toPublicKey ∧
      sk.verifyingKey.getSaltLen = sk.getSaltLen) := by
  refine ⟨?_, rfl, rfl, rfl, rfl, ?_, rfl, rfl, fun _ _ _ => rfl, fun _ _ _ => rfl, fun _ => rfl, fun _ => ⟨rfl, rfl⟩,
    fun _ => ⟨rfl, rfl⟩⟩
  · intro sk h
    unfold pkcs1v15.SigningKey.ofKey pkcs1v15.SigningKey.new at h
    rw [Res.bind_eq_ok] at h
    obtain ⟨p, -, h⟩ := h
    obtain rfl := Res.ok.inj h
    rfl
  · intro vk h
    unfold pkcs1v15.VerifyingKey.newWithPrefix pkcs1v15.VerifyingKey.new at h
    rw [Res.bind_eq_ok] at h
    obtain ⟨p, -, h⟩ := h
    obtain rfl := Res.ok.inj h
    rfl

/-! ### Debug and Display -/

/-- C72, Debug of the wrapper types: two private keys with the same public part and the same answer to whether CRT values
are cached cannot be told apart by the Debug text of any key type that contains them, and the Debug texts of the scheme
objects do not depend on what their digests have absorbed. -/
theorem C72_debug (a b : PrivateKey) (h : a.pub = b.pub) (hc : a.precomputed.isSome = b.precomputed.isSome) :
    (∀ (D : HashFn) pfx, (pkcs1v15.SigningKey.mk (D := D) a pfx).debug = (pkcs1v15.SigningKey.mk (D := D) b pfx).debug) ∧
    (∀ (D : HashFn) n, (pss.SigningKey.mk (D := D) a n).debug = (pss.SigningKey.mk (D := D) b n).debug) ∧
    (∀ (D : HashFn) n, (pss.BlindedSigningKey.mk (D := D) a n).debug = (pss.BlindedSigningKey.mk (D := D) b n).debug) ∧
    (pkcs1v15.DecryptingKey.mk a).debug = (pkcs1v15.DecryptingKey.mk b).debug ∧
    (∀ (D MGD : HashFn) l, (oaep.DecryptingKey.mk (D := D) (MGD := MGD) a l).debug =
      (oaep.DecryptingKey.mk (D := D) (MGD := MGD) b l).debug) ∧
    (∀ bl d d' n, (pss.Pss.mk bl d n).debug = (pss.Pss.mk bl d' n).debug) ∧
    (∀ d d' m m' l, (oaep.Oaep.mk d m l).debug = (oaep.Oaep.mk d' m' l).debug) := by
  have hd := C34_debug_noninterference a b h hc
  refine ⟨fun D p => ?_, fun D n => ?_, fun D n => ?_, ?_, fun D M l => ?_, fun _ _ _ _ => rfl, fun _ _ _ _ _ => rfl⟩
  · unfold pkcs1v15.SigningKey.debug; rw [hd]
  · unfold pss.SigningKey.debug; rw [hd]
  · unfold pss.BlindedSigningKey.debug; rw [hd]
  · unfold pkcs1v15.DecryptingKey.debug; rw [hd]
  · unfold oaep.DecryptingKey.debug; rw [hd]

/- Two different private keys with the same public part. -/
example : Ex.key.pub = Ex.faultyKey.pub ∧ Ex.key ≠ Ex.faultyKey ∧
    Ex.key.precomputed.isSome = Ex.faultyKey.precomputed.isSome := by decide +kernel

/-- C72, Display of errors: the texts of the errors the crate itself raises are pairwise different, so the text determines
the error (the three variants that carry an error of another crate show that error's text). -/
theorem C72_display (ext : Error → String) (a b : Error)
    (ha : a ≠ .pkcs1 ∧ a ≠ .pkcs8 ∧ ∀ e, a ≠ .decode e) (hb : b ≠ .pkcs1 ∧ b ≠ .pkcs8 ∧ ∀ e, b ≠ .decode e) :
    a.display ext = b.display ext ↔ a = b := by
  constructor
  · intro h
    cases a <;> cases b <;> first
      | rfl
      | exact absurd rfl ha.1
      | exact absurd rfl ha.2.1
      | exact absurd rfl (ha.2.2 _)
      | exact absurd rfl hb.1
      | exact absurd rfl hb.2.1
      | exact absurd rfl (hb.2.2 _)
      | (exfalso; revert h; simp [Error.display])
  · rintro rfl; rfl

example : Error.verification.display (fun _ => "") = "verification error" ∧
    Error.verification.display (fun _ => "") ≠ Error.decryption.display (fun _ => "") := by decide

end RSA
