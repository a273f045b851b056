import Verif.Proof.Encoding

/-! The decoders return on every input as far as the parsing goes. -/
namespace RSA
open BoxedUint Spec

theorem orErr_ret {α : Type} (x : Option α) : (der.orErr x).Returns := by
  cases x <;> trivial

theorem finish_ret (b : Bytes) : (der.finish b).Returns := by
  unfold der.finish; split <;> trivial

theorem readUint_ret (b : Bytes) : (der.readUint b).Returns := by
  unfold der.readUint
  refine (orErr_ret _).bind fun _ _ => ?_
  refine (orErr_ret _).bind fun _ _ => ?_
  trivial

theorem readAlgorithmId_ret (b : Bytes) : (der.readAlgorithmId b).Returns := by
  unfold der.readAlgorithmId
  refine (orErr_ret _).bind fun _ _ => ?_
  refine (orErr_ret _).bind fun x _ => ?_
  obtain ⟨oid, c⟩ := x
  cases c with
  | nil => trivial
  | cons t c =>
    refine (orErr_ret _).bind fun _ _ => ?_
    refine (finish_ret _).bind fun _ _ => ?_
    trivial

theorem decodeSpki_ret (b : Bytes) : (der.decodeSubjectPublicKeyInfo b).Returns := by
  unfold der.decodeSubjectPublicKeyInfo
  refine (orErr_ret _).bind fun _ _ => ?_
  refine (finish_ret _).bind fun _ _ => ?_
  refine (readAlgorithmId_ret _).bind fun _ _ => ?_
  refine (orErr_ret _).bind fun x _ => ?_
  refine (finish_ret _).bind fun _ _ => ?_
  obtain ⟨k, c⟩ := x
  cases k with
  | nil => trivial
  | cons u bs => simp only; split <;> trivial

theorem decodeRsaPublicKey_ret (b : Bytes) : (der.decodeRsaPublicKey b).Returns := by
  unfold der.decodeRsaPublicKey
  refine (orErr_ret _).bind fun _ _ => ?_
  refine (finish_ret _).bind fun _ _ => ?_
  refine (readUint_ret _).bind fun _ _ => ?_
  refine (readUint_ret _).bind fun _ _ => ?_
  refine (finish_ret _).bind fun _ _ => ?_
  trivial

theorem decodeRsaPrivateKey_ret (b : Bytes) : (der.decodeRsaPrivateKey b).Returns := by
  unfold der.decodeRsaPrivateKey
  refine (orErr_ret _).bind fun _ _ => ?_
  refine (finish_ret _).bind fun _ _ => ?_
  refine (readUint_ret _).bind fun v _ => ?_
  refine (readUint_ret _).bind fun _ _ => ?_
  refine (readUint_ret _).bind fun _ _ => ?_
  refine (readUint_ret _).bind fun _ _ => ?_
  refine (readUint_ret _).bind fun _ _ => ?_
  refine (readUint_ret _).bind fun _ _ => ?_
  refine (readUint_ret _).bind fun _ _ => ?_
  refine (readUint_ret _).bind fun _ _ => ?_
  refine (readUint_ret _).bind fun _ _ => ?_
  dsimp only
  split
  · refine (finish_ret _).bind fun _ _ => ?_
    trivial
  · split
    · refine (orErr_ret _).bind fun _ _ => ?_
      refine (finish_ret _).bind fun _ _ => ?_
      trivial
    · trivial

theorem decodePrivateKeyInfo_ret (b : Bytes) : (der.decodePrivateKeyInfo b).Returns := by
  unfold der.decodePrivateKeyInfo
  refine (orErr_ret _).bind fun _ _ => ?_
  refine (finish_ret _).bind fun _ _ => ?_
  refine (readUint_ret _).bind fun v _ => ?_
  refine (readAlgorithmId_ret _).bind fun _ _ => ?_
  refine (orErr_ret _).bind fun x _ => ?_
  obtain ⟨k, c⟩ := x
  dsimp only
  split
  · refine (orErr_ret _).bind fun _ _ => ?_
    split
    · refine (finish_ret _).bind fun _ _ => ?_
      trivial
    · split
      · refine (orErr_ret _).bind fun _ _ => ?_
        refine (finish_ret _).bind fun _ _ => ?_
        trivial
      · trivial
  · split
    · refine (finish_ret _).bind fun _ _ => ?_
      trivial
    · split
      · refine (orErr_ret _).bind fun _ _ => ?_
        refine (finish_ret _).bind fun _ _ => ?_
        trivial
      · trivial

theorem uintFromSlice_ret (b : Bytes) (bits : Nat) : (uintFromSlice b bits).Returns := by
  unfold uintFromSlice
  rcases fromBeSlice_returns b bits with ⟨x, h⟩ | ⟨e, h⟩ <;> rw [h] <;> trivial

theorem mapErrMalformed_ret {α : Type} {r : Res α} (h : r.Returns) : (mapErrMalformed r).Returns := by
  cases r <;> trivial

theorem verifyAlgorithmId_ret (a : der.AlgorithmId) : (verifyAlgorithmId a).Returns := by
  rcases verifyAlgorithmId_cases a with h | h <;> rw [h] <;> trivial

/-- Lengths of parsed integers stay below the limit of the `der` crate. -/
theorem readUint_len {b v r : Bytes} (h : der.readUint b = .ok (v, r)) : v.length < der.maxLen := by
  obtain ⟨h1, h2, _⟩ := readUint_ok h
  have := uintBytes_length_le_intOctets (beVal v)
  rw [← h2] at this
  omega

theorem decodeRsaPublicKey_len {b : Bytes} {k : der.RsaPublicKey} (h : der.decodeRsaPublicKey b = .ok k) :
    k.modulus.length < der.maxLen ∧ k.publicExponent.length < der.maxLen := by
  unfold der.decodeRsaPublicKey at h
  rw [Res.bind_eq_ok] at h
  obtain ⟨_, _, h⟩ := h
  rw [Res.bind_eq_ok] at h
  obtain ⟨_, _, h⟩ := h
  rw [Res.bind_eq_ok] at h
  obtain ⟨⟨nb, _⟩, h1, h⟩ := h
  simp only at h
  rw [Res.bind_eq_ok] at h
  obtain ⟨⟨eb, _⟩, h2, h⟩ := h
  simp only at h
  rw [Res.bind_eq_ok] at h
  obtain ⟨_, _, h⟩ := h
  obtain rfl := Res.ok.inj h
  exact ⟨readUint_len h1, readUint_len h2⟩

theorem decodeRsaPrivateKey_len {b : Bytes} {k : der.RsaPrivateKey} (h : der.decodeRsaPrivateKey b = .ok k) :
    k.modulus.length < der.maxLen ∧ k.publicExponent.length < der.maxLen := by
  unfold der.decodeRsaPrivateKey at h
  rw [Res.bind_eq_ok] at h
  obtain ⟨_, _, h⟩ := h
  rw [Res.bind_eq_ok] at h
  obtain ⟨_, _, h⟩ := h
  rw [Res.bind_eq_ok] at h
  obtain ⟨⟨vb, _⟩, _, h⟩ := h
  simp only at h
  rw [Res.bind_eq_ok] at h
  obtain ⟨⟨nb, _⟩, h1, h⟩ := h
  simp only at h
  rw [Res.bind_eq_ok] at h
  obtain ⟨⟨eb, _⟩, h2, h⟩ := h
  simp only at h
  rw [Res.bind_eq_ok] at h
  obtain ⟨_, _, h⟩ := h
  rw [Res.bind_eq_ok] at h
  obtain ⟨_, _, h⟩ := h
  rw [Res.bind_eq_ok] at h
  obtain ⟨_, _, h⟩ := h
  rw [Res.bind_eq_ok] at h
  obtain ⟨_, _, h⟩ := h
  rw [Res.bind_eq_ok] at h
  obtain ⟨_, _, h⟩ := h
  rw [Res.bind_eq_ok] at h
  obtain ⟨_, _, h⟩ := h
  have fin : ∀ {m x1 x2 x3 x4 x5 x6}, Res.ok (⟨m, nb, eb, x1, x2, x3, x4, x5, x6⟩ : der.RsaPrivateKey) = .ok k →
      k.modulus.length < der.maxLen ∧ k.publicExponent.length < der.maxLen := by
    intro m _ _ _ _ _ _ hm
    obtain rfl := Res.ok.inj hm
    exact ⟨readUint_len h1, readUint_len h2⟩
  split at h
  · rw [Res.bind_eq_ok] at h
    obtain ⟨_, _, h⟩ := h
    exact fin h
  · split at h
    · rw [Res.bind_eq_ok] at h
      obtain ⟨_, _, h⟩ := h
      rw [Res.bind_eq_ok] at h
      obtain ⟨_, _, h⟩ := h
      exact fin h
    · cases h

theorem publicKey_new_ret (n e : BoxedUint) : (PublicKey.new n e).Returns := by
  unfold PublicKey.new PublicKey.newWithMaxSize
  rcases checkPublicWithMaxSize_cases n e maxSize with h | ⟨er, h⟩
  · rw [h, Res.ok_bind]
    have := (checkPublicWithMaxSize_ok _ _ _).mp h
    cases ho : OddUint.new n with
    | none => trivial
    | some m =>
      simp only
      rw [expectNonZero_of_ne (by omega)]
      trivial
  · rw [h]; trivial

theorem tryFromSpki_ret (i : der.SubjectPublicKeyInfo) : (PublicKey.tryFromSpki i).Returns := by
  unfold PublicKey.tryFromSpki
  refine (verifyAlgorithmId_ret _).bind fun _ _ => ?_
  split
  · trivial
  refine (decodeRsaPublicKey_ret _).bind fun k hk => ?_
  obtain ⟨h1, h2⟩ := decodeRsaPublicKey_len hk
  rw [lenBitsChecked_eq h1, Res.ok_bind]
  refine (uintFromSlice_ret _ _).bind fun n _ => ?_
  rw [lenBitsChecked_eq h2, Res.ok_bind]
  refine (uintFromSlice_ret _ _).bind fun e _ => ?_
  exact mapErrMalformed_ret (publicKey_new_ret n e)

theorem fromPublicKeyDer_ret (b : Bytes) : (PublicKey.fromPublicKeyDer b).Returns := by
  unfold PublicKey.fromPublicKeyDer
  exact (decodeSpki_ret b).bind fun i _ => tryFromSpki_ret i

/-- The private key decoder returns unless one of the primes is 1. -/
theorem tryFromInfo_ret (i : der.PrivateKeyInfo)
    (h1 : ∀ r, der.decodeRsaPrivateKey i.privateKey = .ok r → beVal r.prime1 ≠ 1 ∧ beVal r.prime2 ≠ 1)
    (hfc : ∀ (n : OddUint) (e d : BoxedUint) (primes : List BoxedUint), primes ≠ [] → 1 ≤ d.nlimbs →
      (∀ p ∈ primes, p.val ≠ 1 ∧ p.prec ≤ d.prec) → (PrivateKey.fromComponents n e d primes).Returns) :
    (PrivateKey.tryFromInfo i).Returns := by
  unfold PrivateKey.tryFromInfo
  refine (verifyAlgorithmId_ret _).bind fun _ _ => ?_
  refine (decodeRsaPrivateKey_ret _).bind fun k hk => ?_
  obtain ⟨hp, hq⟩ := h1 k hk
  obtain ⟨l1, l2⟩ := decodeRsaPrivateKey_len hk
  split
  · trivial
  rw [lenBitsChecked_eq l1, Res.ok_bind]
  refine (uintFromSlice_ret _ _).bind fun n _ => ?_
  cases OddUint.new n with
  | none => trivial
  | some nOdd =>
    simp only
    rw [lenBitsChecked_eq l2, Res.ok_bind]
    refine (uintFromSlice_ret _ _).bind fun e _ => ?_
    refine (uintFromSlice_ret _ _).bind fun d hd => ?_
    refine (uintFromSlice_ret _ _).bind fun p hp' => ?_
    refine (uintFromSlice_ret _ _).bind fun q hq' => ?_
    obtain ⟨_, rfl⟩ := uintFromSlice_ok hd
    have val : ∀ {x : Bytes} {y : BoxedUint}, uintFromSlice x (k.modulus.length * 8) = .ok y → y.val = beVal x := by
      intro x y hx
      obtain ⟨a1, rfl⟩ := uintFromSlice_ok hx
      refine wrap_val_of_lt (lt_of_lt_of_le (beVal_lt x) ?_)
      rw [pow256]
      refine Nat.pow_le_pow_right (by norm_num) ?_
      unfold divCeil at a1; unfold limbsFor; omega
    have vp := val hp'
    have vq := val hq'
    obtain ⟨_, rfl⟩ := uintFromSlice_ok hp'
    obtain ⟨_, rfl⟩ := uintFromSlice_ok hq'
    refine mapErrMalformed_ret (hfc _ _ _ _ (by simp) (by rw [wrap_nlimbs]; unfold limbsFor; omega) ?_)
    intro r hr
    simp only [List.mem_cons, List.not_mem_nil, or_false] at hr
    rcases hr with rfl | rfl
    · exact ⟨by rw [vp]; exact hp, le_rfl⟩
    · exact ⟨by rw [vq]; exact hq, le_rfl⟩

end RSA
