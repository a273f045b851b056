import Verif.Proof.Returns
import Verif.Props.ExampleKeys
import Verif.Props.Wrappers

/-
C43, C44, C62: verification, decryption, signing and encryption come back with a result for every input.
-/
namespace RSA
open BoxedUint Spec

/-! ### C43: verification -/

/-- C43 (full statement: for every signature string and salt length). Proved, for every public key object whose stored
moduli agree and whose modulus has fewer than 2^32 bits (its Rust type), for every digest object (including one that was
already fed) and every input: both verification entry points and all typed verifiers return `Ok` or `Err`. Missing:
signature strings of 2^29 bytes or more, salt lengths within a digest length of `usize::MAX` (both panic, see
`C43_long_signature_panics`, `C43_salt_overflow_panics`), and digests with empty output (MGF1 would not end). -/
theorem C43_verify_returns_partial (k : PublicKey) (hk : k.Coherent) (hp : k.n.prec < 2 ^ 32) :
    (∀ S : pkcs1v15.Pkcs1v15Sign, ∀ hashed sig : Bytes, sig.length < 2 ^ 29 → (S.verify k hashed sig).Returns) ∧
    (∀ (P : pss.Pss) (hashed sig : Bytes), 0 < P.digest.fn.outLen → P.digest.fn.outLen + P.saltLen + 2 < 2 ^ 64 →
      sig.length < 2 ^ 29 → (P.verify k hashed sig).Returns) ∧
    (∀ (D : HashFn) (pfx hashed msg : Bytes) (sg : pkcs1v15.Signature),
      ((pkcs1v15.VerifyingKey.mk (D := D) k pfx).verify msg sg).Returns ∧
      ((pkcs1v15.VerifyingKey.mk (D := D) k pfx).verifyDigest msg sg).Returns ∧
      ((pkcs1v15.VerifyingKey.mk (D := D) k pfx).verifyPrehash hashed sg).Returns) ∧
    (∀ (D : HashFn) (saltLen : Nat) (hashed msg : Bytes) (sg : pss.Signature), 0 < D.outLen →
      D.outLen + saltLen + 2 < 2 ^ 64 →
      ((pss.VerifyingKey.mk (D := D) k saltLen).verify msg sg).Returns ∧
      ((pss.VerifyingKey.mk (D := D) k saltLen).verifyDigest msg sg).Returns ∧
      ((pss.VerifyingKey.mk (D := D) k saltLen).verifyPrehash hashed sg).Returns) ∧
    (∀ sig : Bytes, sig.length < 2 ^ 29 →
      (pkcs1v15.Signature.tryFrom sig).Returns ∧ (pss.Signature.tryFrom sig).Returns) := by
  have hbits : 0 < k.n.bits := RSA.bits_pos (coherent_pos hk)
  have hbits32 : k.n.bits < 2 ^ 32 := lt_of_le_of_lt (bits_le_prec k.n) hp
  have hbl : ∀ v, (beBytes k.size v).length = (k.n.bits + 7) / 8 := fun v => beBytes_length _ _
  have hpk : ∀ pfx hashed sig, (pkcs1v15.verify k pfx hashed sig).Returns := by
    intro pfx hashed sig
    rw [pkcs1v15.verify_eq k hk]
    split <;> trivial
  have hps : ∀ (D : HashFn) (saltLen : Nat) (hashed : Bytes) (sig : BoxedUint), 0 < D.outLen →
      D.outLen + saltLen + 2 < 2 ^ 64 → (pss.verifyDigest D k hashed sig saltLen).Returns := by
    intro D saltLen hashed sig hpos hadd
    rw [pss.verifyDigest_core k hk]
    split
    · rcases emsaPssVerify_ret hashed (beBytes k.size (sig.val ^ k.e.val % k.n.val)) saltLen (DigestState.new D) hpos
        k.n.bits hbits hbits32 (hbl _) hadd with h | h <;> rw [h] <;> trivial
    · trivial
  refine ⟨?_, ?_, ?_, ?_, ?_⟩
  · intro S hashed sig h29
    unfold pkcs1v15.Pkcs1v15Sign.verify
    refine Res.Returns.bind ?_ fun _ _ => ?_
    · unfold pkcs1v15.Pkcs1v15Sign.checkHashLen
      split
      · split <;> trivial
      · trivial
    rw [pkcs1v15.lenBitsU32_eq h29, Res.ok_bind, fromBeSlice_full, Res.ok_bind]
    exact hpk _ _ _
  · intro P hashed sig hpos hadd h29
    unfold pss.Pss.verify
    rw [pkcs1v15.lenBitsU32_eq h29, Res.ok_bind, fromBeSlice_full, Res.ok_bind]
    unfold pss.verify
    split
    · trivial
    rw [rsaEncrypt_eq k hk, Res.ok_bind, uintToBePad_eq]
    split
    · rw [Res.ok_bind]
      rcases emsaPssVerify_ret hashed (beBytes k.size (wrap k.n.nlimbs (((wrap (limbsFor (8 * sig.length))
        (beVal sig)).val % 2 ^ k.n.prec) ^ k.e.val % k.n.val)).val) P.saltLen P.digest hpos k.n.bits hbits hbits32
        (hbl _) hadd with h | h <;> rw [h] <;> trivial
    · trivial
  · intro D pfx hashed msg sg
    exact ⟨hpk _ _ _, hpk _ _ _, hpk _ _ _⟩
  · intro D saltLen hashed msg sg hpos hadd
    exact ⟨hps D _ _ _ hpos hadd, hps D _ _ _ hpos hadd, hps D _ _ _ hpos hadd⟩
  · intro sig h29
    rw [pkcs1v15.Signature.tryFrom_eq sig h29, pss.Signature.tryFrom_eq sig h29]
    exact ⟨trivial, trivial⟩

example : Ex.key.pub.Coherent ∧ Ex.key.pub.n.prec < 2 ^ 32 ∧ 0 < Ex.hash4.outLen ∧ Ex.hash4.outLen + 10 + 2 < 2 ^ 64 :=
  ⟨rfl, by decide, by decide, by decide⟩

/-- C43 fails for long strings: between 2^29 and 2^32 - 1 bytes the computation of the bit length overflows, in the
parsers of typed signatures and in both verification entry points. -/
theorem C43_long_signature_panics (sig : Bytes) (h1 : 2 ^ 29 ≤ sig.length) (h2 : sig.length < 2 ^ 32) :
    (pkcs1v15.Signature.tryFrom sig).Panics ∧ (pss.Signature.tryFrom sig).Panics ∧
    (∀ (P : pss.Pss) k hashed, (P.verify k hashed sig).Panics) ∧
    (∀ (S : pkcs1v15.Pkcs1v15Sign) k hashed, (∀ l, S.hashLen = some l → hashed.length = l) →
      (S.verify k hashed sig).Panics) := by
  have hl : lenBitsU32 sig.length = .panic .arith := by
    unfold lenBitsU32
    rw [Nat.mod_eq_of_lt h2, if_neg (by omega)]
  refine ⟨?_, ?_, ?_, ?_⟩
  · unfold pkcs1v15.Signature.tryFrom; rw [hl]; trivial
  · unfold pss.Signature.tryFrom; rw [hl]; trivial
  · intro P k hashed; unfold pss.Pss.verify; rw [hl]; trivial
  · intro S k hashed hh
    unfold pkcs1v15.Pkcs1v15Sign.verify
    have : S.checkHashLen hashed = .ok () := by
      unfold pkcs1v15.Pkcs1v15Sign.checkHashLen
      split
      · next l h => rw [if_neg (by simp [hh l h])]
      · rfl
    rw [this, Res.ok_bind, hl]; trivial

example : 2 ^ 29 ≤ (List.replicate (2 ^ 29) (0 : UInt8)).length ∧ (List.replicate (2 ^ 29) (0 : UInt8)).length < 2 ^ 32 := by
  rw [List.length_replicate]; norm_num

/-- C43 fails for salt lengths near `usize::MAX`: a PSS check of a signature of the right length and a digest of the
right length overflows in `h_len + s_len + 2`. -/
theorem C43_salt_overflow_panics (k : PublicKey) (hk : k.Coherent) (hp : k.n.prec < 2 ^ 32) (P : pss.Pss)
    (hashed sig : Bytes) (hh : hashed.length = P.digest.fn.outLen) (hl : sig.length = Spec.octetLen k.n.val)
    (hov : 2 ^ 64 ≤ P.digest.fn.outLen + P.saltLen + 2) : (P.verify k hashed sig).Panics := by
  have hsize : sig.length = k.size := by rw [hl, size_eq_octetLen]
  have h29 : sig.length < 2 ^ 29 := by rw [hsize]; exact size_lt32 k hp
  have hbits : 0 < k.n.bits := RSA.bits_pos (coherent_pos hk)
  unfold pss.Pss.verify
  rw [pkcs1v15.lenBitsU32_eq h29, Res.ok_bind, fromBeSlice_full, Res.ok_bind]
  unfold pss.verify
  rw [if_neg (by simp [hsize]), rsaEncrypt_eq k hk, Res.ok_bind, uintToBePad_eq, if_pos (by
    rw [wrap_mod_val k.n (coherent_pos hk)]
    exact lt_trans (Nat.mod_lt _ (coherent_pos hk)) (lt_pow_size k)), Res.ok_bind]
  have hdc : ∀ n, divCeil n 8 = (n + 7) / 8 := fun _ => rfl
  unfold emsaPssVerify emsaPssVerifyPre
  dsimp only [DigestState.outputSize]
  rw [subU_of_le (by omega), Res.ok_bind, hdc, hdc, subU_of_le (by omega), Res.ok_bind,
    sliceFrom_of_le (by rw [beBytes_length, size_eq]; omega), Res.ok_bind, if_neg (by simp [hh])]
  by_cases h1 : P.digest.fn.outLen + P.saltLen < 2 ^ 64
  · rw [addU_of_lt h1, Res.ok_bind]
    have : addU (P.digest.fn.outLen + P.saltLen) 2 = .panic .arith := by unfold addU; rw [if_neg (by omega)]
    rw [this]; trivial
  · have : addU P.digest.fn.outLen P.saltLen = .panic .arith := by unfold addU; rw [if_neg h1]
    rw [this]; trivial

example : 2 ^ 64 ≤ (pss.Pss.newWithSalt Ex.hash4 (2 ^ 64 - 5)).digest.fn.outLen + (2 ^ 64 - 5) + 2 := by decide

/-! ### C44: decryption -/

theorem WellFormed.sized {k : PrivateKey} (hk : WellFormed k) : Sized k where
  coherent := hk.coherent
  two := by have := hk.numbers.two; simpa using this
  width := hk.width
  cache := fun pre h => ⟨(hk.cache pre h).qinv_params, (hk.cache pre h).p_width, (hk.cache pre h).q_width⟩

theorem fromComponents_sized {n : OddUint} {e d : BoxedUint} {primes : List BoxedUint} {k : PrivateKey}
    (h : PrivateKey.fromComponents n e d primes = .ok k) (hw : n.toBoxedUint.nlimbs ≤ d.nlimbs) : Sized k := by
  have hne : primes ≠ [] := by rintro rfl; exact C52_never_succeeds n e d k h
  obtain ⟨hn, he, hpar, hd, hps, hlen, hv, hpre, _⟩ := PrivateKey.fromComponents_ok hne h
  refine ⟨by rw [hpar, hn], by rw [hps]; exact hlen, by rw [hn, hd]; exact hw, ?_⟩
  intro pre hp
  have hd1 : 1 ≤ d.nlimbs := le_trans n.nlimbs_pos hw
  obtain ⟨p, q, rest, h1, _, _, _, _, _, _, h2, h3, h4, h5, h6, h7, h8, h9⟩ := precomputeValues_ok hd1 (hpre pre hp)
  exact ⟨h7, by rw [hd]; exact h8, by rw [hd]; exact h9⟩

/-- C44, which keys: every private key object that a constructor of the crate returns (`from_components` with `d` stored
at least as wide as `n`; `from_p_q`, `from_primes` and PKCS#8 decoding always) has the shape asked for by
`C44_decrypt_returns`, whether or not its primes are prime; so has every well-formed key. -/
theorem C44_constructed_keys (k : PrivateKey) :
    (∀ n e d primes, PrivateKey.fromComponents n e d primes = .ok k → n.toBoxedUint.nlimbs ≤ d.nlimbs → Sized k) ∧
    (∀ p q e, PrivateKey.fromPQ p q e = .ok k → Sized k) ∧
    (∀ primes e, PrivateKey.fromPrimes primes e = .ok k → Sized k) ∧
    (∀ b, PrivateKey.fromPkcs8Der b = .ok k → Sized k) ∧
    (WellFormed k → Sized k) := by
  refine ⟨fun n e d primes h hw => fromComponents_sized h hw, ?_, ?_, ?_, WellFormed.sized⟩
  · intro p q e h
    unfold PrivateKey.fromPQ at h
    split at h
    · cases h
    rw [Res.bind_eq_ok] at h
    obtain ⟨d, hd, h⟩ := h
    dsimp only at h
    rw [Res.bind_eq_ok] at h
    obtain ⟨n, hn, h⟩ := h
    have hf := C51_factors_partial n e d [p, q] (by simp) k h
    refine fromComponents_sized h ?_
    rw [(computeModulus_ok hn).2, ((carmichael_spec (hf p (by simp)).2.1 (hf q (by simp)).2.1).1 d hd).2.2]
    simp
  · intro primes e h
    unfold PrivateKey.fromPrimes at h
    split at h
    · cases h
    next hlen =>
    split at h
    · cases h
    rw [Res.bind_eq_ok] at h
    obtain ⟨n, hn, h⟩ := h
    rw [Res.bind_eq_ok] at h
    obtain ⟨d, hd, h⟩ := h
    have hne : primes ≠ [] := by rintro rfl; simp at hlen
    have hf := C51_factors_partial n e d primes hne k h
    refine fromComponents_sized h ?_
    rw [(computeModulus_ok hn).2]
    exact ((euler_spec (by omega) (fun p hp => by have := (hf p hp).2.1; omega)).1 d hd).2.2
  · intro b h
    unfold PrivateKey.fromPkcs8Der at h
    rw [Res.bind_eq_ok] at h
    obtain ⟨i, _, h⟩ := h
    obtain ⟨_, n, e, d, p, q, dp, dq, qi, nOdd, _, hn, _, _, _, _, h⟩ := tryFromInfo_ok h
    refine fromComponents_sized h ?_
    rw [hn]
    exact le_refl _

example : Sized Ex.key ∧ Sized Ex.key3 := ⟨WellFormed.sized Ex.key_wf, WellFormed.sized Ex.key3_wf⟩

theorem pkcs1v15.decrypt_total {σ : Type} (R : RngImpl σ) (fuel : Nat) (rng : Option σ) {k : PrivateKey}
    (hk : Sized k) (ct : Bytes) :
    ReturnsOr (pkcs1v15.decrypt R fuel rng k ct) (¬ Settles R k.pub.n.val fuel rng) := by
  unfold pkcs1v15.decrypt
  refine ReturnsOr.bind_left (checkPublic_ret _) fun _ hc => ?_
  obtain ⟨h1, h2⟩ := fromBeSlice_sized k.pub hk.coherent ct
  refine ReturnsOr.bind_left h1 fun c hcc => ?_
  refine ReturnsOr.private R fuel rng hk c (h2 c hcc) _ ?_
  rintro ⟨m, rng'⟩
  refine (bePad_ret _ _).1.bind fun em hem => ?_
  have hl : em.length = k.pub.size := bePad_length hem
  have h31 : k.pub.size < 2 ^ 31 := by
    have := size_lt32 k.pub (by
      have := ((checkPublic_ok k.pub).mp hc).1
      omega)
    omega
  obtain ⟨hs, hf⟩ := pkcs1v15EncryptUnpad_spec em k.pub.size hl h31
  by_cases hex : ∃ m, IsEmePkcs1v15 k.pub.size m em
  · obtain ⟨m, hm⟩ := hex
    rw [hs m hm]; trivial
  · rw [hf hex]; trivial

theorem oaep.decrypt_total {σ : Type} (R : RngImpl σ) (fuel : Nat) (rng : Option σ) {k : PrivateKey}
    (hk : Sized k) (hp : k.pub.n.prec < 2 ^ 32) (ct : Bytes) (dg mg : DigestState) (hpos : 0 < mg.fn.outLen)
    (label : Option Bytes) :
    ReturnsOr (oaep.decrypt R fuel rng k ct dg mg label) (¬ Settles R k.pub.n.val fuel rng) := by
  unfold oaep.decrypt
  split
  · exact Or.inl trivial
  obtain ⟨h1, h2⟩ := fromBeSlice_sized k.pub hk.coherent ct
  refine ReturnsOr.bind_left h1 fun c hcc => ?_
  refine ReturnsOr.private R fuel rng hk c (h2 c hcc) _ ?_
  rintro ⟨m, rng'⟩
  refine (bePad_ret _ _).1.bind fun em hem => ?_
  have := size_lt32 k.pub hp
  exact oaepDecrypt_ret em dg mg hpos label _ (bePad_length hem) (by omega)

theorem oaep.decryptDigest_total {σ : Type} (R : RngImpl σ) (fuel : Nat) (rng : Option σ) {k : PrivateKey}
    (hk : Sized k) (ct : Bytes) (D MGD : HashFn) (hpos : 0 < MGD.outLen) (label : Option Bytes) :
    ReturnsOr (oaep.decryptDigest R fuel D MGD rng k ct label) (¬ Settles R k.pub.n.val fuel rng) := by
  unfold oaep.decryptDigest
  refine ReturnsOr.bind_left (checkPublic_ret _) fun _ hc => ?_
  split
  · exact Or.inl trivial
  obtain ⟨h1, h2⟩ := fromBeSlice_sized k.pub hk.coherent ct
  refine ReturnsOr.bind_left h1 fun c hcc => ?_
  refine ReturnsOr.private R fuel rng hk c (h2 c hcc) _ ?_
  rintro ⟨m, rng'⟩
  refine (bePad_ret _ _).1.bind fun em hem => ?_
  have := size_lt32 k.pub (by have := ((checkPublic_ok k.pub).mp hc).1; omega)
  exact oaepDecryptDigest_ret em D MGD hpos label _ (bePad_length hem) (by omega)

/-- C44: for every key object of the right shape (in particular every well-formed key, and every key a constructor
returns, even with composite factors), every ciphertext string of any length, every label, every digest object with
non-empty output (also one already fed), with or without blinding and for every generator: no decryption entry point
panics, and each returns `Ok` or `Err` as soon as the generator's blinding draws settle, on a value or on a failure. -/
theorem C44_decrypt_returns {σ : Type} (R : RngImpl σ) (fuel : Nat) (rng : Option σ) {k : PrivateKey} (hk : Sized k)
    (ct : Bytes) :
    (¬ (pkcs1v15.decrypt R fuel rng k ct).Panics ∧
      (Settles R k.pub.n.val fuel rng → (pkcs1v15.decrypt R fuel rng k ct).Returns)) ∧
    (∀ (D MGD : HashFn) (label : Option Bytes), 0 < MGD.outLen →
      ¬ (oaep.decryptDigest R fuel D MGD rng k ct label).Panics ∧
      (Settles R k.pub.n.val fuel rng → (oaep.decryptDigest R fuel D MGD rng k ct label).Returns)) ∧
    (∀ (dg mg : DigestState) (label : Option Bytes), 0 < mg.fn.outLen → k.pub.n.prec < 2 ^ 32 →
      ¬ (oaep.decrypt R fuel rng k ct dg mg label).Panics ∧
      (Settles R k.pub.n.val fuel rng → (oaep.decrypt R fuel rng k ct dg mg label).Returns)) ∧
    (∀ (P : PaddingScheme), (∀ O, P = .oaep O → 0 < O.mgfDigest.fn.outLen) → k.pub.n.prec < 2 ^ 32 →
      (k.decrypt P ct).Returns) := by
  refine ⟨?_, ?_, ?_, ?_⟩
  · have h := pkcs1v15.decrypt_total R fuel rng hk ct
    exact ⟨h.not_panics, fun hs => h.returns (not_not.mpr hs)⟩
  · intro D MGD label hpos
    have h := oaep.decryptDigest_total R fuel rng hk ct D MGD hpos label
    exact ⟨h.not_panics, fun hs => h.returns (not_not.mpr hs)⟩
  · intro dg mg label hpos hp
    have h := oaep.decrypt_total R fuel rng hk hp ct dg mg hpos label
    exact ⟨h.not_panics, fun hs => h.returns (not_not.mpr hs)⟩
  · intro P hP hp
    cases P with
    | pkcs1v15Encrypt => exact (pkcs1v15.decrypt_total dummyRng 0 none hk ct).returns (not_not.mpr trivial)
    | oaep O =>
      exact (oaep.decrypt_total dummyRng 0 none hk hp ct O.digest O.mgfDigest (hP O rfl) O.label).returns
        (not_not.mpr trivial)

example : Sized Ex.key ∧ Settles Ex.countingRng Ex.key.pub.n.val 1 (none : Option Nat) ∧ Ex.key.pub.n.prec < 2 ^ 32 :=
  ⟨WellFormed.sized Ex.key_wf, trivial, by decide⟩

/-- The width condition of `C44_decrypt_returns` cannot be dropped: `from_components` accepts `n = 15` stored in two limbs
with `d = 3` stored in one, and then decrypting anything below `n` panics. -/
theorem C44_narrow_exponent_panics :
    ∃ k, PrivateKey.fromComponents ⟨wrap 2 15, by decide⟩ (wrap 1 3) (wrap 1 3) [wrap 1 3, wrap 1 5] = .ok k ∧
      k.validate = .ok () ∧
      ∀ ct : Bytes, ct.length ≤ 16 → Spec.os2ip ct < 15 → (k.decrypt .pkcs1v15Encrypt ct).Panics := by
  have h : (match PrivateKey.fromComponents ⟨wrap 2 15, by decide⟩ (wrap 1 3) (wrap 1 3) [wrap 1 3, wrap 1 5] with
    | .ok k => decide (k.validate = .ok () ∧ k.d = wrap 1 3 ∧ k.pub.n = wrap 2 15 ∧
        k.pub.nParams.modulus.toBoxedUint = wrap 2 15 ∧ checkPublic k.pub = .ok ())
    | _ => false) = true := by decide +kernel
  cases hk : PrivateKey.fromComponents ⟨wrap 2 15, by decide⟩ (wrap 1 3) (wrap 1 3) [wrap 1 3, wrap 1 5] with
  | ok k =>
    rw [hk] at h
    obtain ⟨hv, hd, hn, hm, hc⟩ := of_decide_eq_true h
    refine ⟨k, rfl, hv, ?_⟩
    intro ct hl hlt
    have hco : k.pub.Coherent := by show k.pub.nParams.modulus.toBoxedUint = k.pub.n; rw [hm, hn]
    show (pkcs1v15.decrypt dummyRng 0 none k ct).Panics
    unfold pkcs1v15.decrypt
    rw [hc, Res.ok_bind, fromBeSlice_nprec _ hco, if_pos (by rw [hn]; exact hl), Res.ok_bind]
    unfold rsaDecryptAndCheck rsaDecrypt
    dsimp only
    have hval : (wrap k.pub.n.nlimbs (beVal ct)).val = beVal ct := by
      apply wrap_lt_val
      rw [hn, beVal_eq_os2ip]
      exact hlt
    rw [if_neg (by
      simp only [BoxedUint.ge, BoxedUint.lt, hval]
      rw [hn, beVal_eq_os2ip]
      have h15 : (wrap 2 15).val = 15 := by decide
      rw [h15]
      simpa using hlt)]
    have hw : (wrap k.pub.n.nlimbs (beVal ct)).widen k.d.prec = .panic .precision := by
      rw [hn, hd]; rfl
    rw [hw]
    trivial
  | err _ => rw [hk] at h; cases h
  | panic _ => rw [hk] at h; cases h
  | loop => rw [hk] at h; cases h

/-! ### C62: signing and encryption -/

theorem pkcs1v15.sign_total {σ : Type} (R : RngImpl σ) (fuel : Nat) (rng : Option σ) {k : PrivateKey}
    (hk : Sized k) (pfx hashed : Bytes) :
    ReturnsOr (pkcs1v15.sign R fuel rng k pfx hashed) (¬ Settles R k.pub.n.val fuel rng) := by
  unfold pkcs1v15.sign
  rw [pkcs1v15SignPad_eq]
  split
  · rw [Res.ok_bind]
    obtain ⟨h1, h2⟩ := fromBeSlice_sized k.pub hk.coherent _
    refine ReturnsOr.bind_left h1 fun c hcc => ?_
    refine ReturnsOr.private R fuel rng hk c (h2 c hcc) _ ?_
    rintro ⟨m, rng'⟩
    exact (bePad_ret _ _).1
  · exact Or.inl trivial

theorem pss.signSalt_total {σ : Type} (R : RngImpl σ) (fuel : Nat) (rng : Option σ) {k : PrivateKey}
    (hk : Sized k) (hp : k.pub.n.prec < 2 ^ 32) (hashed salt : Bytes) (dg : DigestState) (hpos : 0 < dg.fn.outLen)
    (hadd : dg.fn.outLen + salt.length + 2 < 2 ^ 64) :
    ReturnsOr (pss.signPssWithSalt R fuel rng k hashed salt dg) (¬ Settles R k.pub.n.val fuel rng) := by
  have hb := RSA.bits_pos (coherent_pos hk.coherent)
  have hbp := bits_le_prec k.pub.n
  unfold pss.signPssWithSalt
  rw [subU_of_le (by omega), Res.ok_bind]
  refine ReturnsOr.bind_left (emsaPssEncode_ret hashed _ salt dg hpos hadd (by omega)).1 fun em _ => ?_
  obtain ⟨h1, h2⟩ := fromBeSlice_sized k.pub hk.coherent em
  refine ReturnsOr.bind_left h1 fun c hcc => ?_
  refine ReturnsOr.private R fuel rng hk c (h2 c hcc) _ ?_
  rintro ⟨m, rng'⟩
  exact (bePad_ret _ _).1

/-- After drawing a salt of `saltLen` bytes from `s`, the blinding draws (if any) settle. -/
def Spec.SaltSettles {σ : Type} (R : RngImpl σ) (n fuel saltLen : Nat) (s : σ) (blind : Bool) : Prop :=
  Settles R n fuel (if blind then some (R.fill s saltLen).2 else none)

theorem pss.sign_total {σ : Type} (R : RngImpl σ) (fuel : Nat) (s : σ) (blind : Bool) {k : PrivateKey}
    (hk : Sized k) (hp : k.pub.n.prec < 2 ^ 32) (hashed : Bytes) (saltLen : Nat) (dg : DigestState)
    (hpos : 0 < dg.fn.outLen) (hadd : dg.fn.outLen + saltLen + 2 < 2 ^ 64) :
    ReturnsOr (pss.sign R fuel s blind k hashed saltLen dg) (¬ Spec.SaltSettles R k.pub.n.val fuel saltLen s blind) := by
  unfold pss.sign
  refine ReturnsOr.bind_left (tryFill_ret R s saltLen) ?_
  rintro ⟨salt, s'⟩ h
  have hl := tryFill_length h
  have hs : (R.fill s saltLen).2 = s' := by
    unfold RngImpl.tryFill at h
    split at h
    · next hf => cases h; rw [hf]
    · cases h
  have := pss.signSalt_total R fuel (if blind then some s' else none) hk hp hashed salt dg hpos (by rw [hl]; exact hadd)
  unfold Spec.SaltSettles
  rw [hs]
  exact this

/-- A signature of the key's length always parses. -/
theorem signed_tryFrom {x : Res Bytes} {p : Prop} (h : ReturnsOr x p) (hl : ∀ b, x = .ok b → b.length < 2 ^ 29) :
    ReturnsOr (x >>= pkcs1v15.Signature.tryFrom) p ∧ ReturnsOr (x >>= pss.Signature.tryFrom) p := by
  rcases h with h | ⟨h, hs⟩
  · constructor
    · refine ReturnsOr.bind_left h fun b hb => Or.inl ?_
      rw [pkcs1v15.Signature.tryFrom_eq b (hl b hb)]; trivial
    · refine ReturnsOr.bind_left h fun b hb => Or.inl ?_
      rw [pss.Signature.tryFrom_eq b (hl b hb)]; trivial
  · rw [h]; exact ⟨Or.inr ⟨rfl, hs⟩, Or.inr ⟨rfl, hs⟩⟩

theorem bind_bePad_length {α : Type} {x : Res α} {f : α → BoxedUint} {len : Nat} {b : Bytes}
    (h : (x >>= fun a => uintToZeroizingBePad (f a) len) = .ok b) : b.length = len := by
  rw [Res.bind_eq_ok] at h
  obtain ⟨a, _, h⟩ := h
  exact bePad_length h

theorem pkcs1v15.sign_len {σ : Type} {R : RngImpl σ} {fuel : Nat} {rng : Option σ} {k : PrivateKey}
    {pfx hashed b : Bytes} (h : pkcs1v15.sign R fuel rng k pfx hashed = .ok b) : b.length = k.pub.size := by
  unfold pkcs1v15.sign at h
  rw [Res.bind_eq_ok] at h
  obtain ⟨_, _, h⟩ := h
  rw [Res.bind_eq_ok] at h
  obtain ⟨_, _, h⟩ := h
  exact bind_bePad_length h

theorem pss.sign_len {σ : Type} {R : RngImpl σ} {fuel : Nat} {s : σ} {blind : Bool} {k : PrivateKey}
    {hashed b : Bytes} {saltLen : Nat} {dg : DigestState}
    (h : pss.sign R fuel s blind k hashed saltLen dg = .ok b) : b.length = k.pub.size := by
  unfold pss.sign pss.signPssWithSalt at h
  rw [Res.bind_eq_ok] at h
  obtain ⟨⟨_, _⟩, _, h⟩ := h
  rw [Res.bind_eq_ok] at h
  obtain ⟨_, _, h⟩ := h
  rw [Res.bind_eq_ok] at h
  obtain ⟨_, _, h⟩ := h
  rw [Res.bind_eq_ok] at h
  obtain ⟨_, _, h⟩ := h
  exact bind_bePad_length h

/-- C62, signing: for every key object of the right shape with a modulus below 2^32 bits, every hash value of any length,
every prefix, digest object with non-empty output and salt length that does not overflow `usize`: no signing entry point
(including parsing the result into a typed signature) panics, and each returns once the blinding draws settle. -/
theorem C62_sign_returns {σ : Type} (R : RngImpl σ) (fuel : Nat) {k : PrivateKey} (hk : Sized k)
    (hp : k.pub.n.prec < 2 ^ 32) :
    (∀ (S : pkcs1v15.Pkcs1v15Sign) (rng : Option σ) (hashed : Bytes),
      ¬ (S.sign R fuel rng k hashed).Panics ∧
      (Settles R k.pub.n.val fuel rng → (S.sign R fuel rng k hashed).Returns)) ∧
    (∀ (P : pss.Pss) (rng : Option σ) (hashed : Bytes), 0 < P.digest.fn.outLen →
      P.digest.fn.outLen + P.saltLen + 2 < 2 ^ 64 →
      ¬ (P.sign R fuel rng k hashed).Panics ∧
      ((∀ s, rng = some s → Spec.SaltSettles R k.pub.n.val fuel P.saltLen s P.blinded) →
        (P.sign R fuel rng k hashed).Returns)) ∧
    (∀ (D : HashFn) (pfx msg : Bytes),
      ((pkcs1v15.SigningKey.mk (D := D) k pfx).trySign msg).Returns ∧
      ((pkcs1v15.SigningKey.mk (D := D) k pfx).trySignDigest msg).Returns ∧
      ((pkcs1v15.SigningKey.mk (D := D) k pfx).signPrehash msg).Returns) ∧
    (∀ (D : HashFn) (pfx msg : Bytes) (s : σ),
      ¬ ((pkcs1v15.SigningKey.mk (D := D) k pfx).trySignWithRng R fuel s msg).Panics ∧
      (Settles R k.pub.n.val fuel (some s) →
        ((pkcs1v15.SigningKey.mk (D := D) k pfx).trySignWithRng R fuel s msg).Returns)) ∧
    (∀ (D : HashFn) (saltLen : Nat) (msg : Bytes) (s : σ), 0 < D.outLen → D.outLen + saltLen + 2 < 2 ^ 64 →
      ((pss.SigningKey.mk (D := D) k saltLen).trySignWithRng R fuel s msg).Returns ∧
      ((pss.SigningKey.mk (D := D) k saltLen).signPrehashWithRng R fuel s msg).Returns ∧
      (¬ ((pss.BlindedSigningKey.mk (D := D) k saltLen).trySignWithRng R fuel s msg).Panics) ∧
      (¬ ((pss.BlindedSigningKey.mk (D := D) k saltLen).signPrehashWithRng R fuel s msg).Panics) ∧
      (Spec.SaltSettles R k.pub.n.val fuel saltLen s true →
        ((pss.BlindedSigningKey.mk (D := D) k saltLen).trySignWithRng R fuel s msg).Returns ∧
        ((pss.BlindedSigningKey.mk (D := D) k saltLen).signPrehashWithRng R fuel s msg).Returns)) := by
  have hsz := size_lt32 k.pub hp
  have hu : ∀ pfx hashed, (pkcs1v15.sign dummyRng 0 none k pfx hashed >>= pkcs1v15.Signature.tryFrom).Returns :=
    fun pfx hashed => (signed_tryFrom (pkcs1v15.sign_total dummyRng 0 none hk pfx hashed)
      (fun b hb => by rw [pkcs1v15.sign_len hb]; exact hsz)).1.returns (not_not.mpr trivial)
  have hps : ∀ (D : HashFn) (saltLen : Nat) (hashed : Bytes) (s : σ) (blind : Bool), 0 < D.outLen →
      D.outLen + saltLen + 2 < 2 ^ 64 →
      ReturnsOr (pss.signDigest R fuel D s blind k hashed saltLen >>= pss.Signature.tryFrom)
        (¬ Spec.SaltSettles R k.pub.n.val fuel saltLen s blind) := by
    intro D saltLen hashed s blind hpos hadd
    rw [pss.signDigest_agree]
    exact (signed_tryFrom (pss.sign_total R fuel s blind hk hp hashed saltLen (DigestState.new D) hpos hadd)
      (fun b hb => by rw [pss.sign_len hb]; exact hsz)).2
  refine ⟨?_, ?_, ?_, ?_, ?_⟩
  · intro S rng hashed
    have h : ReturnsOr (S.sign R fuel rng k hashed) (¬ Settles R k.pub.n.val fuel rng) := by
      unfold pkcs1v15.Pkcs1v15Sign.sign
      refine ReturnsOr.bind_left ?_ fun _ _ => pkcs1v15.sign_total R fuel rng hk _ _
      unfold pkcs1v15.Pkcs1v15Sign.checkHashLen
      split
      · split <;> trivial
      · trivial
    exact ⟨h.not_panics, fun hs => h.returns (not_not.mpr hs)⟩
  · intro P rng hashed hpos hadd
    cases rng with
    | none => exact ⟨id, fun _ => trivial⟩
    | some s =>
      have h := pss.sign_total R fuel s P.blinded hk hp hashed P.saltLen P.digest hpos hadd
      exact ⟨h.not_panics, fun hs => h.returns (not_not.mpr (hs s rfl))⟩
  · intro D pfx msg; exact ⟨hu _ _, hu _ _, hu _ _⟩
  · intro D pfx msg s
    have h := (signed_tryFrom (pkcs1v15.sign_total R fuel (some s) hk pfx (D.hash msg))
      (fun b hb => by rw [pkcs1v15.sign_len hb]; exact hsz)).1
    exact ⟨h.not_panics, fun hs => h.returns (not_not.mpr hs)⟩
  · intro D saltLen msg s hpos hadd
    refine ⟨?_, ?_, ?_, ?_, fun hs => ⟨?_, ?_⟩⟩
    · exact (hps D saltLen (D.hash msg) s false hpos hadd).returns (not_not.mpr trivial)
    · exact (hps D saltLen msg s false hpos hadd).returns (not_not.mpr trivial)
    · exact (hps D saltLen (D.hash msg) s true hpos hadd).not_panics
    · exact (hps D saltLen msg s true hpos hadd).not_panics
    · exact (hps D saltLen (D.hash msg) s true hpos hadd).returns (not_not.mpr hs)
    · exact (hps D saltLen msg s true hpos hadd).returns (not_not.mpr hs)

example : Sized Ex.key ∧ Ex.key.pub.n.prec < 2 ^ 32 ∧ 0 < Ex.hash4.outLen ∧ Ex.hash4.outLen + 4 + 2 < 2 ^ 64 ∧
    Spec.SaltSettles Ex.countingRng Ex.key.pub.n.val 1 4 0 true :=
  ⟨WellFormed.sized Ex.key_wf, by decide, by decide, by decide,
    some (Ex.countingRng.randMod 1 Ex.key.pub.n.val).2, 1, Draws.good 1 1 (by decide +kernel) (by decide +kernel),
    le_refl _⟩

/-- C62, encryption: for every public key object whose stored moduli agree, every message of any length, every label, and
every digest object with non-empty mask output: no encryption entry point panics, OAEP always returns, and PKCS#1 v1.5
returns when the generator's one-byte draws settle (on a failure or a non-zero byte) within `fuel` draws. -/
theorem C62_encrypt_returns {σ : Type} (R : RngImpl σ) (fuel : Nat) (s : σ) (k : PublicKey) (hk : k.Coherent)
    (msg : Bytes) :
    ¬ (pkcs1v15.encrypt R fuel s k msg).Panics ∧
    ((∀ s, ∃ j, j ≤ fuel ∧ ByteSettles R s j) → (pkcs1v15.encrypt R fuel s k msg).Returns) ∧
    (∀ (dg mg : DigestState) (label : Option Bytes), 0 < mg.fn.outLen →
      (oaep.encrypt R s k msg dg mg label).Returns) ∧
    (∀ (D MGD : HashFn) (label : Option Bytes), 0 < MGD.outLen →
      (oaep.encryptDigest R D MGD s k msg label).Returns) := by
  have ho : ∀ (dg mg : DigestState) (label : Option Bytes), 0 < mg.fn.outLen →
      (oaep.encrypt R s k msg dg mg label).Returns := by
    intro dg mg label hpos
    unfold oaep.encrypt
    refine (checkPublic_ret k).bind fun _ hc => ?_
    have := size_lt32 k (by have := ((checkPublic_ok k).mp hc).1; omega)
    refine (oaepEncrypt_ret R s msg dg mg hpos label k.size (by omega)).1.bind ?_
    rintro ⟨em, s'⟩ hem
    refine (fromBeSlice_sized k hk em).1.bind fun c _ => ?_
    rw [rsaEncrypt_eq k hk, Res.ok_bind]
    exact (bePad_ret _ _).2.bind fun _ _ => trivial
  refine ⟨?_, ?_, ho, ?_⟩
  · cases hc : checkPublic k with
    | ok u =>
      rw [pkcs1v15.encrypt_eq R fuel s k hk hc]
      split
      · exact id
      · rcases nonZeroRandomBytes_cases R fuel s (k.size - msg.length - 3) with ⟨_, _, h, _⟩ | h | h <;> rw [h] <;>
          exact id
    | err _ => unfold pkcs1v15.encrypt; rw [hc]; exact id
    | panic _ => have := checkPublic_ret k; rw [hc] at this; exact absurd this id
    | loop => have := checkPublic_ret k; rw [hc] at this; exact absurd this id
  · intro hR
    cases hc : checkPublic k with
    | ok u =>
      rw [pkcs1v15.encrypt_eq R fuel s k hk hc]
      split
      · trivial
      · exact (nonZeroRandomBytes_settles R fuel hR s _).bind fun _ _ => trivial
    | err _ => unfold pkcs1v15.encrypt; rw [hc]; trivial
    | panic _ => have := checkPublic_ret k; rw [hc] at this; exact absurd this id
    | loop => have := checkPublic_ret k; rw [hc] at this; exact absurd this id
  · intro D MGD label hpos
    rw [oaep.encryptDigest_agree]
    exact ho _ _ _ hpos

example : Ex.key.pub.Coherent ∧ 0 < Ex.hash4.outLen ∧
    ∀ s, ∃ j, j ≤ 1 ∧ ByteSettles Ex.failingRng s j :=
  ⟨rfl, by decide, fun s => ⟨1, le_refl _, ByteSettles.fail s rfl⟩⟩

/-! ### C45: failures of the generator -/

/-- The outcome of a run that also returns the generator state, with the flag `f` put beside that state. -/
def flagged {α σ : Type} (f : Bool) (x : Res (α × σ)) : Res (α × (σ × Bool)) := x >>= fun p => .ok (p.1, (p.2, f))

theorem flagged_pure {α β σ : Type} {x : Res β} {f : Bool} {h : β → Res (α × (σ × Bool))} {g : β → Res (α × σ)}
    (hg : ∀ a, h a = flagged f (g a)) : (x >>= h) = flagged f (x >>= g) := by
  cases x with
  | ok a => exact hg a
  | err _ => rfl
  | panic _ => rfl
  | loop => rfl

theorem flagged_state {α β σ : Type} {x : Res (β × σ)} {f : Bool} {h : β × (σ × Bool) → Res (α × (σ × Bool))}
    {g : β × σ → Res (α × σ)} (hg : ∀ a s, h (a, (s, f)) = flagged f (g (a, s))) :
    (flagged f x >>= h) = flagged f (x >>= g) := by
  cases x with
  | ok a => exact hg a.1 a.2
  | err _ => rfl
  | panic _ => rfl
  | loop => rfl

theorem tryFill_watched {σ : Type} (R : RngImpl σ) (s : σ) (n : Nat) :
    (Spec.watched R).tryFill (s, false) n = flagged false (R.tryFill s n) := by
  unfold RngImpl.tryFill Spec.watched flagged
  dsimp only
  rcases R.fill s n with ⟨o, s'⟩
  cases o <;> rfl

theorem rerollByte_watched {σ : Type} (R : RngImpl σ) : ∀ (fuel : Nat) (s : σ),
    rerollByte (Spec.watched R) fuel (s, false) = flagged false (rerollByte R fuel s) := by
  intro fuel
  induction fuel with
  | zero => intro s; rfl
  | succ f ih =>
    intro s
    rw [rerollByte, rerollByte, tryFill_watched]
    cases R.tryFill s 1 with
    | ok p =>
      obtain ⟨b, s'⟩ := p
      simp only [flagged, Res.ok_bind]
      cases idx b 0 with
      | ok el =>
        simp only [Res.ok_bind]
        by_cases h : el = 0
        · rw [if_pos h, if_pos h, ih]; rfl
        · rw [if_neg h, if_neg h]; rfl
      | err _ => rfl
      | panic _ => rfl
      | loop => rfl
    | err _ => rfl
    | panic _ => rfl
    | loop => rfl

theorem fixZeros_watched {σ : Type} (R : RngImpl σ) (fuel : Nat) : ∀ (l : Bytes) (s : σ),
    fixZeros (Spec.watched R) fuel l (s, false) = flagged false (fixZeros R fuel l s) := by
  intro l
  induction l with
  | nil => intro s; rfl
  | cons el rest ih =>
    intro s
    have step : ∀ (x : UInt8) (s : σ), (fixZeros (Spec.watched R) fuel rest (s, false) >>= fun y =>
        (Res.ok (x :: y.1, y.2) : Res (Bytes × (σ × Bool)))) =
        flagged false (fixZeros R fuel rest s >>= fun y => (Res.ok (x :: y.1, y.2) : Res (Bytes × σ))) := by
      intro x s
      rw [ih]
      unfold flagged
      cases fixZeros R fuel rest s <;> rfl
    rw [fixZeros, fixZeros]
    by_cases h : el = 0
    · rw [if_pos h, if_pos h, rerollByte_watched]
      cases rerollByte R fuel s with
      | ok p => exact step p.1 p.2
      | err _ => rfl
      | panic _ => rfl
      | loop => rfl
    · rw [if_neg h, if_neg h]
      exact step el s

theorem nonZeroRandomBytes_watched {σ : Type} (R : RngImpl σ) (fuel : Nat) (s : σ) (len : Nat) :
    nonZeroRandomBytes (Spec.watched R) fuel (s, false) len = flagged false (nonZeroRandomBytes R fuel s len) := by
  unfold nonZeroRandomBytes
  rw [tryFill_watched]
  cases R.tryFill s len with
  | ok p => exact fixZeros_watched R fuel p.1 p.2
  | err _ => rfl
  | panic _ => rfl
  | loop => rfl

/-- C45, encryption: run any encryption with any generator and watch the generator's calls. The outcome is the one
without watching, and whenever a ciphertext comes out, not a single call to the generator failed. -/
theorem C45_encrypt {σ : Type} (R : RngImpl σ) (fuel : Nat) (s : σ) (k : PublicKey) (msg : Bytes) :
    pkcs1v15.encrypt (Spec.watched R) fuel (s, false) k msg = flagged false (pkcs1v15.encrypt R fuel s k msg) ∧
    (∀ dg mg label, oaep.encrypt (Spec.watched R) (s, false) k msg dg mg label =
      flagged false (oaep.encrypt R s k msg dg mg label)) ∧
    (∀ D MGD label, oaep.encryptDigest (Spec.watched R) D MGD (s, false) k msg label =
      flagged false (oaep.encryptDigest R D MGD s k msg label)) := by
  have ho : ∀ dg mg label, oaep.encrypt (Spec.watched R) (s, false) k msg dg mg label =
      flagged false (oaep.encrypt R s k msg dg mg label) := by
    intro dg mg label
    have hi : ∀ pHash hSize k mgf, oaepEncryptInternal (Spec.watched R) (s, false) msg pHash hSize k mgf =
        flagged false (oaepEncryptInternal R s msg pHash hSize k mgf) := by
      intro pHash hSize k mgf
      unfold oaepEncryptInternal
      by_cases h : msg.length + 2 * hSize + 2 > k
      · rw [if_pos h, if_pos h]; rfl
      rw [if_neg h, if_neg h]
      refine flagged_pure fun _ => flagged_pure fun _ => ?_
      dsimp only
      rw [tryFill_watched]
      exact flagged_state fun _ _ => flagged_pure fun _ => flagged_pure fun _ => flagged_pure fun _ =>
        flagged_pure fun _ => flagged_pure fun _ => flagged_pure fun _ => flagged_pure fun _ => flagged_pure fun _ => rfl
    have he : ∀ k, oaepEncrypt (Spec.watched R) (s, false) msg dg mg label k =
        flagged false (oaepEncrypt R s msg dg mg label k) := by
      intro k
      unfold oaepEncrypt
      dsimp only
      by_cases h : (label.getD []).length ≥ maxLabelLen
      · rw [if_pos h, if_pos h]; rfl
      rw [if_neg h, if_neg h]
      exact hi _ _ _ _
    unfold oaep.encrypt
    refine flagged_pure fun _ => ?_
    rw [he]
    exact flagged_state fun _ _ => flagged_pure fun _ => flagged_pure fun _ => flagged_pure fun _ => rfl
  refine ⟨?_, ho, ?_⟩
  · unfold pkcs1v15.encrypt
    refine flagged_pure fun _ => ?_
    have he : pkcs1v15EncryptPad (Spec.watched R) fuel (s, false) msg k.size =
        flagged false (pkcs1v15EncryptPad R fuel s msg k.size) := by
      rw [pkcs1v15EncryptPad_eq, pkcs1v15EncryptPad_eq]
      by_cases h : msg.length + 11 > k.size
      · rw [if_pos h, if_pos h]; rfl
      · rw [if_neg h, if_neg h, nonZeroRandomBytes_watched]
        exact flagged_state fun _ _ => rfl
    rw [he]
    exact flagged_state fun _ _ => flagged_pure fun _ => flagged_pure fun _ => flagged_pure fun _ => rfl
  · intro D MGD label
    rw [oaep.encryptDigest_agree, oaep.encryptDigest_agree]
    exact ho _ _ _

example : (match pkcs1v15.encrypt (Spec.watched Ex.countingRng) 3 (0, false) Ex.key.pub [1, 2, 3] with
    | .ok (c, (s, f)) => decide (c.length = 27 ∧ s = 22 ∧ f = false)
    | _ => false) = true := by decide +kernel

theorem rsaDecryptAndCheck_rng_fails {σ : Type} (R : RngImpl σ) (fuel : Nat) (s : σ) (k : PrivateKey)
    (hk : k.pub.Coherent) (c : BoxedUint) {j : Nat} (hd : Draws R k.pub.n.val s none j) (hj : j ≤ fuel) :
    rsaDecryptAndCheck R fuel k (some s) c = .err (if k.pub.n.val ≤ c.val then .decryption else .rng) := by
  unfold rsaDecryptAndCheck
  by_cases hc : k.pub.n.val ≤ c.val
  · rw [rsaDecrypt_ge R fuel (some s) k c hc, if_pos hc]; rfl
  · rw [if_neg hc]
    unfold rsaDecrypt
    dsimp only
    rw [if_neg (by simpa [BoxedUint.ge, BoxedUint.lt] using hc)]
    have hb : blind R fuel s k.pub c k.pub.nParams = .err .rng := by
      unfold blind
      have hb : k.pub.n.beq k.pub.nParams.modulus.toBoxedUint = true := by
        unfold PublicKey.Coherent at hk
        simp [beq, hk]
      simp only [hb, Bool.not_true, Bool.false_eq_true, if_false]
      rw [(blindLoop_draws R k.pub.n (coherent_pos hk) hd fuel hj).2 rfl]
      rfl
    rw [hb]
    rfl

/-- A result that is an error. -/
def IsErr {α : Type} (x : Res α) : Prop := ∃ e, x = .err e

theorem IsErr.bind {α β : Type} {x : Res α} {f : α → Res β} (hx : x.Returns) (hf : ∀ a, x = .ok a → IsErr (f a)) :
    IsErr (x >>= f) := by
  cases x with
  | ok a => exact hf a rfl
  | err e => exact ⟨e, rfl⟩
  | panic _ => exact absurd hx id
  | loop => exact absurd hx id

/-- C45, private-key operations: whenever one of the draws for the blinding factor fails (the draws before it having given
unusable values), every blinded decryption and every blinded signature of every input ends in an error, for every key
object with agreeing moduli; the error is `Error::Rng` if the input is one the operation accepts. The same holds when
drawing the PSS salt fails. -/
theorem C45_private {σ : Type} (R : RngImpl σ) (fuel : Nat) (s : σ) (k : PrivateKey) (hk : k.pub.Coherent) :
    (∀ j, Draws R k.pub.n.val s none j → j ≤ fuel →
      (∀ ct, IsErr (pkcs1v15.decrypt R fuel (some s) k ct)) ∧
      (∀ ct, checkPublic k.pub = .ok () → ct.length ≤ 8 * k.pub.n.nlimbs → Spec.os2ip ct < k.pub.n.val →
        pkcs1v15.decrypt R fuel (some s) k ct = .err .rng) ∧
      (∀ ct dg mg label, IsErr (oaep.decrypt R fuel (some s) k ct dg mg label)) ∧
      (∀ ct dg mg label, ct.length = Spec.octetLen k.pub.n.val → Spec.os2ip ct < k.pub.n.val →
        oaep.decrypt R fuel (some s) k ct dg mg label = .err .rng) ∧
      (∀ D MGD ct label, IsErr (oaep.decryptDigest R fuel D MGD (some s) k ct label)) ∧
      (∀ D MGD ct label, checkPublic k.pub = .ok () → ct.length = Spec.octetLen k.pub.n.val →
        Spec.os2ip ct < k.pub.n.val → oaep.decryptDigest R fuel D MGD (some s) k ct label = .err .rng) ∧
      (∀ pfx hashed, IsErr (pkcs1v15.sign R fuel (some s) k pfx hashed)) ∧
      (∀ pfx hashed, pfx.length + hashed.length + 11 ≤ Spec.octetLen k.pub.n.val →
        pkcs1v15.sign R fuel (some s) k pfx hashed = .err .rng)) ∧
    (∀ (blind : Bool) hashed saltLen dg, (R.fill s saltLen).1 = none →
      pss.sign R fuel s blind k hashed saltLen dg = .err .rng) ∧
    (∀ hashed saltLen (dg : DigestState) j, 0 < dg.fn.outLen → dg.fn.outLen + saltLen + 2 < 2 ^ 64 →
      k.pub.n.prec < 2 ^ 32 → Draws R k.pub.n.val (R.fill s saltLen).2 none j → j ≤ fuel →
      IsErr (pss.sign R fuel s true k hashed saltLen dg)) := by
  have hn := coherent_pos hk
  have hpriv : ∀ {β : Type} (s : σ) j, Draws R k.pub.n.val s none j → j ≤ fuel →
      ∀ (c : BoxedUint) (f : BoxedUint × Option σ → Res β),
      IsErr (rsaDecryptAndCheck R fuel k (some s) c >>= f) ∧
      (c.val < k.pub.n.val → (rsaDecryptAndCheck R fuel k (some s) c >>= f) = .err .rng) := by
    intro β s j hd hj c f
    rw [rsaDecryptAndCheck_rng_fails R fuel s k hk c hd hj]
    exact ⟨⟨_, rfl⟩, fun h => by rw [if_neg (by omega)]; rfl⟩
  have hsize : k.pub.size ≤ 8 * k.pub.n.nlimbs := size_le_bytes k.pub
  have hbe : ∀ ct : Bytes, ct.length ≤ 8 * k.pub.n.nlimbs → Spec.os2ip ct < k.pub.n.val →
      ∃ c, fromBeSlice ct k.pub.nBitsPrecision = .ok c ∧ c.val < k.pub.n.val := by
    intro ct hl hlt
    rw [fromBeSlice_nprec _ hk, if_pos hl]
    refine ⟨_, rfl, ?_⟩
    rw [← beVal_eq_os2ip] at hlt
    rw [wrap_lt_val hlt]
    exact hlt
  refine ⟨?_, ?_, ?_⟩
  · intro j hd hj
    refine ⟨?_, ?_, ?_, ?_, ?_, ?_, ?_, ?_⟩
    · intro ct
      unfold pkcs1v15.decrypt
      refine IsErr.bind (checkPublic_ret _) fun _ _ => IsErr.bind (fromBeSlice_sized _ hk ct).1 fun c _ => ?_
      exact (hpriv s j hd hj c _).1
    · intro ct hc hl hlt
      obtain ⟨c, h, hlt⟩ := hbe ct hl hlt
      unfold pkcs1v15.decrypt
      rw [hc, Res.ok_bind, h, Res.ok_bind]
      exact (hpriv s j hd hj c _).2 hlt
    · intro ct dg mg label
      unfold oaep.decrypt
      split
      · exact ⟨_, rfl⟩
      exact IsErr.bind (fromBeSlice_sized _ hk ct).1 fun c _ => (hpriv s j hd hj c _).1
    · intro ct dg mg label hl hlt
      rw [← size_eq_octetLen] at hl
      obtain ⟨c, h, hlt⟩ := hbe ct (by omega) hlt
      unfold oaep.decrypt
      rw [if_neg (by simp [hl]), h, Res.ok_bind]
      exact (hpriv s j hd hj c _).2 hlt
    · intro D MGD ct label
      unfold oaep.decryptDigest
      refine IsErr.bind (checkPublic_ret _) fun _ _ => ?_
      split
      · exact ⟨_, rfl⟩
      exact IsErr.bind (fromBeSlice_sized _ hk ct).1 fun c _ => (hpriv s j hd hj c _).1
    · intro D MGD ct label hc hl hlt
      rw [← size_eq_octetLen] at hl
      obtain ⟨c, h, hlt⟩ := hbe ct (by omega) hlt
      unfold oaep.decryptDigest
      rw [hc, Res.ok_bind, if_neg (by simp [hl]), h, Res.ok_bind]
      exact (hpriv s j hd hj c _).2 hlt
    · intro pfx hashed
      unfold pkcs1v15.sign
      rw [pkcs1v15SignPad_eq]
      split
      · rw [Res.ok_bind]
        exact IsErr.bind (fromBeSlice_sized _ hk _).1 fun c _ => (hpriv s j hd hj c _).1
      · exact ⟨_, rfl⟩
    · intro pfx hashed hl
      rw [← size_eq_octetLen] at hl
      unfold pkcs1v15.sign
      rw [pkcs1v15SignPad_eq]
      cases hem : Spec.emsaPkcs1v15 (pfx ++ hashed) k.pub.size with
      | none =>
        unfold Spec.emsaPkcs1v15 at hem
        rw [if_pos (by simp; omega)] at hem
        cases hem
      | some em =>
        dsimp only
        rw [Res.ok_bind]
        have hshape : em.length = k.pub.size ∧ em.head? = some 0 := by
          unfold Spec.emsaPkcs1v15 at hem
          rw [if_pos (by simp; omega)] at hem
          obtain rfl := Option.some.inj hem
          exact ⟨by simp; omega, rfl⟩
        obtain ⟨c, h, hlt⟩ := hbe em (by omega) (by
          rw [← beVal_eq_os2ip]; exact block_lt k.pub hn hshape.1 hshape.2)
        rw [h, Res.ok_bind]
        exact (hpriv s j hd hj c _).2 hlt
  · intro blind hashed saltLen dg hf
    unfold pss.sign RngImpl.tryFill
    rcases hx : R.fill s saltLen with ⟨o, s'⟩
    rw [hx] at hf
    dsimp only at hf
    subst hf
    rfl
  · intro hashed saltLen dg j hpos hadd hp hd hj
    unfold pss.sign
    refine IsErr.bind (tryFill_ret R s saltLen) ?_
    rintro ⟨salt, s'⟩ h
    have hl := tryFill_length h
    have hs : (R.fill s saltLen).2 = s' := by
      unfold RngImpl.tryFill at h
      split at h
      · next hf => cases h; rw [hf]
      · cases h
    rw [hs] at hd
    have hb := RSA.bits_pos hn
    have hbp := bits_le_prec k.pub.n
    unfold pss.signPssWithSalt
    dsimp only
    rw [subU_of_le (by omega), Res.ok_bind]
    refine IsErr.bind (emsaPssEncode_ret hashed _ salt dg hpos (by rw [hl]; exact hadd) (by omega)).1 fun em _ => ?_
    exact IsErr.bind (fromBeSlice_sized _ hk em).1 fun c _ => (hpriv s' j hd hj c _).1

example : Ex.key.pub.Coherent ∧ Draws Ex.failingRng Ex.key.pub.n.val () none 1 ∧ checkPublic Ex.key.pub = .ok () ∧
    (Ex.failingRng.fill () 4).1 = none ∧ 0 < Ex.hash4.outLen ∧ Ex.key.pub.n.prec < 2 ^ 32 ∧
    List.length [1, 2] + List.length [3, 4, 5] + 11 ≤ Spec.octetLen Ex.key.pub.n.val :=
  ⟨rfl, Draws.fail () rfl, by decide +kernel, rfl, by decide, by decide, by decide +kernel⟩

/-- C45, first call: an encryption whose first call to the generator fails ends in an error; for a message that fits (and a
label below the limit), in `Error::Rng`. -/
theorem C45_encrypt_first_call {σ : Type} (R : RngImpl σ) (fuel : Nat) (s : σ) (k : PublicKey)
    (hc : checkPublic k = .ok ()) (msg : Bytes) (hf : ∀ n, (R.fill s n).1 = none) :
    pkcs1v15.encrypt R fuel s k msg =
      .err (if msg.length + 11 > Spec.octetLen k.n.val then .messageTooLong else .rng) ∧
    (∀ (dg mg : DigestState) (label : Option Bytes), (label.getD []).length < maxLabelLen →
      oaep.encrypt R s k msg dg mg label =
        .err (if msg.length + 2 * dg.fn.outLen + 2 > Spec.octetLen k.n.val then .messageTooLong else .rng)) := by
  have hfill : ∀ n, R.tryFill s n = .err .rng := by
    intro n
    unfold RngImpl.tryFill
    rcases hx : R.fill s n with ⟨o, s'⟩
    have := hf n
    rw [hx] at this
    dsimp only at this
    subst this
    rfl
  rw [← size_eq_octetLen]
  constructor
  · unfold pkcs1v15.encrypt
    rw [hc, Res.ok_bind, pkcs1v15EncryptPad_eq]
    by_cases h : msg.length + 11 > k.size
    · rw [if_pos h, if_pos h]; rfl
    · rw [if_neg h, if_neg h]
      unfold nonZeroRandomBytes
      rw [hfill]
      rfl
  · intro dg mg label hl
    unfold oaep.encrypt
    rw [hc, Res.ok_bind]
    unfold oaepEncrypt
    dsimp only
    rw [if_neg (by omega)]
    unfold oaepEncryptInternal
    show ((if msg.length + 2 * dg.fn.outLen + 2 > k.size then _ else _) >>= _) = _
    by_cases h : msg.length + 2 * dg.fn.outLen + 2 > k.size
    · rw [if_pos h, if_pos h]; rfl
    · rw [if_neg h, if_neg h]
      dsimp only
      rw [splitAt_of_le (by simp; omega), Res.ok_bind]
      dsimp only
      rw [splitAt_of_le (by simp [DigestState.outputSize]; omega), Res.ok_bind]
      dsimp only
      rw [hfill]
      rfl

example : checkPublic Ex.key.pub = .ok () ∧ ∀ n, (Ex.failingRng.fill () n).1 = none :=
  ⟨by decide +kernel, fun _ => rfl⟩

end RSA
