import Verif.Spec.Decoding
import Verif.Props.KeyErrors
import Verif.Props.Pkcs1

/-
C75: the verdict of private key decoding on every input.
-/
namespace RSA
open BoxedUint Spec

/-! ### the inner structure -/

/-- What a parsed two-prime `RSAPrivateKey` was. -/
theorem decodeRsaPrivateKey_ok {b : Bytes} {r : der.RsaPrivateKey} (h : der.decodeRsaPrivateKey b = .ok r)
    (hm : r.multi = false) :
    ∃ n e d p q dp dq qi, b = rsaPrivateKey n e d p q dp dq qi ∧
      r = ⟨false, uintBytes n, uintBytes e, uintBytes d, uintBytes p, uintBytes q, uintBytes dp, uintBytes dq,
        uintBytes qi⟩ := by
  unfold der.decodeRsaPrivateKey at h
  rw [Res.bind_eq_ok] at h
  obtain ⟨⟨c, r'⟩, h1, h⟩ := h
  rw [orErr_ok] at h1
  simp only at h
  rw [Res.bind_eq_ok] at h
  obtain ⟨_, hf, h⟩ := h
  rw [finish_ok] at hf
  rw [Res.bind_eq_ok] at h
  obtain ⟨⟨vb, c0⟩, g0, h⟩ := h
  simp only at h
  rw [Res.bind_eq_ok] at h
  obtain ⟨⟨nb, c1⟩, g1, h⟩ := h
  simp only at h
  rw [Res.bind_eq_ok] at h
  obtain ⟨⟨eb, c2⟩, g2, h⟩ := h
  simp only at h
  rw [Res.bind_eq_ok] at h
  obtain ⟨⟨db, c3⟩, g3, h⟩ := h
  simp only at h
  rw [Res.bind_eq_ok] at h
  obtain ⟨⟨pb, c4⟩, g4, h⟩ := h
  simp only at h
  rw [Res.bind_eq_ok] at h
  obtain ⟨⟨qb, c5⟩, g5, h⟩ := h
  simp only at h
  rw [Res.bind_eq_ok] at h
  obtain ⟨⟨dpb, c6⟩, g6, h⟩ := h
  simp only at h
  rw [Res.bind_eq_ok] at h
  obtain ⟨⟨dqb, c7⟩, g7, h⟩ := h
  simp only at h
  rw [Res.bind_eq_ok] at h
  obtain ⟨⟨qib, c8⟩, g8, h⟩ := h
  simp only at h
  obtain ⟨_, _, e0⟩ := readUint_ok g0
  obtain ⟨_, n1, e1⟩ := readUint_ok g1
  obtain ⟨_, n2, e2⟩ := readUint_ok g2
  obtain ⟨_, n3, e3⟩ := readUint_ok g3
  obtain ⟨_, n4, e4⟩ := readUint_ok g4
  obtain ⟨_, n5, e5⟩ := readUint_ok g5
  obtain ⟨_, n6, e6⟩ := readUint_ok g6
  obtain ⟨_, n7, e7⟩ := readUint_ok g7
  obtain ⟨_, n8, e8⟩ := readUint_ok g8
  obtain ⟨_, hb⟩ := readTlv_some h1
  have hcase : vb = [0] ∧ c8 = [] ∧ r = ⟨false, nb, eb, db, pb, qb, dpb, dqb, qib⟩ := by
    by_cases h0 : vb = [0]
    · rw [if_pos h0, Res.bind_eq_ok] at h
      obtain ⟨_, hf8, h⟩ := h
      exact ⟨h0, finish_ok.mp hf8, (Res.ok.inj h).symm⟩
    · rw [if_neg h0] at h
      by_cases h1 : vb = [1]
      · rw [if_pos h1, Res.bind_eq_ok] at h
        obtain ⟨_, _, h⟩ := h
        rw [Res.bind_eq_ok] at h
        obtain ⟨_, _, h⟩ := h
        obtain rfl := Res.ok.inj h
        cases hm
      · rw [if_neg h1] at h; cases h
  obtain ⟨rfl, rfl, rfl⟩ := hcase
  refine ⟨beVal nb, beVal eb, beVal db, beVal pb, beVal qb, beVal dpb, beVal dqb, beVal qib, ?_, ?_⟩
  · rw [hb, hf, e0, e1, e2, e3, e4, e5, e6, e7, e8]
    simp only [List.append_nil]
    unfold rsaPrivateKey
    simp only [List.append_assoc]
    rfl
  · rw [← n1, ← n2, ← n3, ← n4, ← n5, ← n6, ← n7, ← n8]

theorem intOctets_le_derInt (v : Nat) : (intOctets v).length ≤ (derInt v).length := der_length _ _

/-- Every two-prime `RSAPrivateKey` within the length limit parses. -/
theorem decodeRsaPrivateKey_of_length {n e d p q dp dq qi : Nat}
    (hl : (rsaPrivateKey n e d p q dp dq qi).length < der.maxLen) :
    der.decodeRsaPrivateKey (rsaPrivateKey n e d p q dp dq qi) =
      .ok ⟨false, uintBytes n, uintBytes e, uintBytes d, uintBytes p, uintBytes q, uintBytes dp, uintBytes dq,
        uintBytes qi⟩ := by
  have hz : Small 0 := by unfold Small; decide +kernel
  have hc := der_length 0x30 (derInt 0 ++ derInt n ++ derInt e ++ derInt d ++ derInt p ++ derInt q ++ derInt dp ++
    derInt dq ++ derInt qi)
  have hc' : (derInt 0 ++ derInt n ++ derInt e ++ derInt d ++ derInt p ++ derInt q ++ derInt dp ++
    derInt dq ++ derInt qi).length < der.maxLen := lt_of_le_of_lt hc hl
  have hs := hc'
  simp only [List.length_append] at hs
  have b1 := intOctets_le_derInt n
  have b2 := intOctets_le_derInt e
  have b3 := intOctets_le_derInt d
  have b4 := intOctets_le_derInt p
  have b5 := intOctets_le_derInt q
  have b6 := intOctets_le_derInt dp
  have b7 := intOctets_le_derInt dq
  have b8 := intOctets_le_derInt qi
  unfold der.decodeRsaPrivateKey rsaPrivateKey
  rw [readTlv_der' hc']
  simp only [List.append_assoc, orErr_some, Res.ok_bind, finish_nil, readUint_derInt hz.lt]
  rw [readUint_derInt (by omega), Res.ok_bind]
  simp only
  rw [readUint_derInt (by omega), Res.ok_bind]
  simp only
  rw [readUint_derInt (by omega), Res.ok_bind]
  simp only
  rw [readUint_derInt (by omega), Res.ok_bind]
  simp only
  rw [readUint_derInt (by omega), Res.ok_bind]
  simp only
  rw [readUint_derInt (by omega), Res.ok_bind]
  simp only
  rw [readUint_derInt (by omega), Res.ok_bind]
  simp only
  have := readUint_derInt (n := qi) (r := []) (by omega)
  rw [List.append_nil] at this
  rw [this, Res.ok_bind]
  rfl

/-! ### every failure is the same error -/

/-- The only error is "malformed". -/
def OnlyMalformed {α : Type} (r : Res α) : Prop := ∀ er, r = .err er → er = .pkcs8

theorem OnlyMalformed.bind {α β : Type} {r : Res α} {f : α → Res β} (h : OnlyMalformed r)
    (hf : ∀ a, r = .ok a → OnlyMalformed (f a)) : OnlyMalformed (r >>= f) := by
  intro er he
  rw [Res.bind_eq_err] at he
  rcases he with he | ⟨a, ha, he⟩
  · exact h er he
  · exact hf a ha er he

theorem OnlyMalformed.ok {α : Type} (a : α) : OnlyMalformed (.ok a) := by intro er h; cases h

theorem OnlyMalformed.err {α : Type} : OnlyMalformed (.err .pkcs8 : Res α) := by
  intro er h; exact (Res.err.inj h).symm

theorem OnlyMalformed.panic {α : Type} (p : PanicKind) : OnlyMalformed (.panic p : Res α) := by
  intro er h; cases h

theorem orErr_mal {α : Type} (x : Option α) : OnlyMalformed (der.orErr x) := by
  cases x
  · exact .err
  · exact .ok _

theorem finish_mal (b : Bytes) : OnlyMalformed (der.finish b) := by
  unfold der.finish; split
  · exact .ok _
  · exact .err

theorem readUint_mal (b : Bytes) : OnlyMalformed (der.readUint b) := by
  unfold der.readUint
  exact (orErr_mal _).bind fun _ _ => (orErr_mal _).bind fun _ _ => .ok _

theorem readAlgorithmId_mal (b : Bytes) : OnlyMalformed (der.readAlgorithmId b) := by
  unfold der.readAlgorithmId
  refine (orErr_mal _).bind fun _ _ => (orErr_mal _).bind fun x _ => ?_
  obtain ⟨oid, c⟩ := x
  cases c with
  | nil => exact .ok _
  | cons t c => exact (orErr_mal _).bind fun _ _ => (finish_mal _).bind fun _ _ => .ok _

theorem decodeSpki_mal (b : Bytes) : OnlyMalformed (der.decodeSubjectPublicKeyInfo b) := by
  unfold der.decodeSubjectPublicKeyInfo
  refine (orErr_mal _).bind fun _ _ => (finish_mal _).bind fun _ _ => (readAlgorithmId_mal _).bind fun _ _ =>
    (orErr_mal _).bind fun x _ => (finish_mal _).bind fun _ _ => ?_
  obtain ⟨k, c⟩ := x
  cases k with
  | nil => exact .err
  | cons u bs =>
    simp only
    split
    · exact .err
    · exact .ok _

theorem decodeRsaPublicKey_mal (b : Bytes) : OnlyMalformed (der.decodeRsaPublicKey b) := by
  unfold der.decodeRsaPublicKey
  exact (orErr_mal _).bind fun _ _ => (finish_mal _).bind fun _ _ => (readUint_mal _).bind fun _ _ =>
    (readUint_mal _).bind fun _ _ => (finish_mal _).bind fun _ _ => .ok _

theorem decodeRsaPrivateKey_mal (b : Bytes) : OnlyMalformed (der.decodeRsaPrivateKey b) := by
  unfold der.decodeRsaPrivateKey
  refine (orErr_mal _).bind fun _ _ => (finish_mal _).bind fun _ _ => (readUint_mal _).bind fun v _ =>
    (readUint_mal _).bind fun _ _ => (readUint_mal _).bind fun _ _ => (readUint_mal _).bind fun _ _ =>
    (readUint_mal _).bind fun _ _ => (readUint_mal _).bind fun _ _ => (readUint_mal _).bind fun _ _ =>
    (readUint_mal _).bind fun _ _ => (readUint_mal _).bind fun _ _ => ?_
  dsimp only
  split
  · exact (finish_mal _).bind fun _ _ => .ok _
  · split
    · exact (orErr_mal _).bind fun _ _ => (finish_mal _).bind fun _ _ => .ok _
    · exact .err

theorem decodePrivateKeyInfo_mal (b : Bytes) : OnlyMalformed (der.decodePrivateKeyInfo b) := by
  unfold der.decodePrivateKeyInfo
  refine (orErr_mal _).bind fun _ _ => (finish_mal _).bind fun _ _ => (readUint_mal _).bind fun v _ =>
    (readAlgorithmId_mal _).bind fun _ _ => (orErr_mal _).bind fun x _ => ?_
  obtain ⟨k, c⟩ := x
  dsimp only
  split
  · refine (orErr_mal _).bind fun _ _ => ?_
    split
    · exact (finish_mal _).bind fun _ _ => .ok _
    · split
      · exact (orErr_mal _).bind fun _ _ => (finish_mal _).bind fun _ _ => .ok _
      · exact .err
  · split
    · exact (finish_mal _).bind fun _ _ => .ok _
    · split
      · exact (orErr_mal _).bind fun _ _ => (finish_mal _).bind fun _ _ => .ok _
      · exact .err

theorem uintFromSlice_mal (b : Bytes) (bits : Nat) : OnlyMalformed (uintFromSlice b bits) := by
  unfold uintFromSlice
  rcases fromBeSlice_returns b bits with ⟨x, h⟩ | ⟨e, h⟩ <;> rw [h]
  · exact .ok _
  · exact .err

theorem mapErrMalformed_mal {α : Type} (r : Res α) : OnlyMalformed (mapErrMalformed r) := by
  intro er h
  cases r <;> simp_all [mapErrMalformed]

theorem verifyAlgorithmId_mal (a : der.AlgorithmId) : OnlyMalformed (verifyAlgorithmId a) := by
  rcases verifyAlgorithmId_cases a with h | h <;> rw [h]
  · exact .ok _
  · exact .err

theorem assertAlgorithmOid_mal (a : der.AlgorithmId) (oid : Bytes) : OnlyMalformed (assertAlgorithmOid a oid) := by
  unfold assertAlgorithmOid; split
  · exact .ok _
  · exact .err

theorem lenBitsChecked_mal (n : Nat) : OnlyMalformed (lenBitsChecked n) := by
  unfold lenBitsChecked; split
  · split
    · exact .ok _
    · exact .panic _
  · exact .err

theorem tryFromInfo_mal (i : der.PrivateKeyInfo) : OnlyMalformed (PrivateKey.tryFromInfo i) := by
  unfold PrivateKey.tryFromInfo
  refine (verifyAlgorithmId_mal _).bind fun _ _ => (decodeRsaPrivateKey_mal _).bind fun k _ => ?_
  split
  · exact .err
  · refine (lenBitsChecked_mal _).bind fun _ _ => (uintFromSlice_mal _ _).bind fun n _ => ?_
    split
    · exact .err
    · exact (lenBitsChecked_mal _).bind fun _ _ => (uintFromSlice_mal _ _).bind fun _ _ =>
        (uintFromSlice_mal _ _).bind fun _ _ => (uintFromSlice_mal _ _).bind fun _ _ =>
        (uintFromSlice_mal _ _).bind fun _ _ => mapErrMalformed_mal _

theorem tryFromSpki_mal (i : der.SubjectPublicKeyInfo) : OnlyMalformed (PublicKey.tryFromSpki i) := by
  unfold PublicKey.tryFromSpki
  refine (verifyAlgorithmId_mal _).bind fun _ _ => ?_
  split
  · exact .err
  · exact (decodeRsaPublicKey_mal _).bind fun _ _ => (lenBitsChecked_mal _).bind fun _ _ =>
      (uintFromSlice_mal _ _).bind fun _ _ => (lenBitsChecked_mal _).bind fun _ _ =>
      (uintFromSlice_mal _ _).bind fun _ _ => mapErrMalformed_mal _

/-- C75: whatever is wrong with an encoded key, every decoder of the crate reports the one error `KeyMalformed` (a
`pkcs8::Error`); in particular the key checks of `from_components` and `RsaPublicKey::new` do not show through. -/
theorem C75_one_error (b : Bytes) (D MGD : HashFn) (oid : Bytes) (l : Option Bytes) (er : Error) :
    (PrivateKey.fromPkcs8Der b = .err er → er = .pkcs8) ∧
    (PublicKey.fromPublicKeyDer b = .err er → er = .pkcs8) ∧
    (PrivateKey.fromPkcs1Der b = .err er → er = .pkcs8) ∧
    (PublicKey.fromPkcs1Der b = .err er → er = .pkcs8) ∧
    (pss.SigningKey.deserialize (D := D) b = .err er → er = .pkcs8) ∧
    (pss.BlindedSigningKey.deserialize (D := D) b = .err er → er = .pkcs8) ∧
    (pss.VerifyingKey.deserialize (D := D) b = .err er → er = .pkcs8) ∧
    (pkcs1v15.DecryptingKey.deserialize b = .err er → er = .pkcs8) ∧
    (pkcs1v15.EncryptingKey.deserialize b = .err er → er = .pkcs8) ∧
    (oaep.DecryptingKey.deserialize (D := D) (MGD := MGD) (b, l) = .err er → er = .pkcs8) ∧
    (oaep.EncryptingKey.deserialize (D := D) (MGD := MGD) (b, l) = .err er → er = .pkcs8) ∧
    (pkcs1v15.SigningKey.deserialize (D := D) oid b = .err er → er = .pkcs8) ∧
    (pkcs1v15.VerifyingKey.deserialize (D := D) oid b = .err er → er = .pkcs8) := by
  have hs : OnlyMalformed (PrivateKey.fromPkcs8Der b) :=
    (decodePrivateKeyInfo_mal b).bind fun _ _ => tryFromInfo_mal _
  have hp : OnlyMalformed (PublicKey.fromPublicKeyDer b) :=
    (decodeSpki_mal b).bind fun _ _ => tryFromSpki_mal _
  have hx : OnlyMalformed (pkcs1v15GeneratePrefix oid D.outLen) := by
    have hadd : ∀ a b, OnlyMalformed (addU8 a b) := by
      intro a b
      unfold addU8
      split
      · exact .ok _
      · exact .panic _
    exact (hadd _ _).bind fun _ _ => (hadd _ _).bind fun _ _ => (hadd _ _).bind fun _ _ => .ok _
  refine ⟨hs er, hp er, ?_, ?_, ?_, ?_, ?_, ?_, ?_, ?_, ?_, ?_, ?_⟩
  · unfold PrivateKey.fromPkcs1Der
    split
    · exact tryFromInfo_mal _ er
    · exact OnlyMalformed.err er
  · unfold PublicKey.fromPkcs1Der
    split
    · exact tryFromSpki_mal _ er
    · exact OnlyMalformed.err er
  · exact ((decodePrivateKeyInfo_mal b).bind fun i _ => (verifyAlgorithmId_mal _).bind fun _ _ =>
      (tryFromInfo_mal i).bind fun _ _ => .ok _) er
  · exact ((decodePrivateKeyInfo_mal b).bind fun i _ => (tryFromInfo_mal i).bind fun _ _ => .ok _) er
  · refine ((decodeSpki_mal b).bind fun i _ => ?_) er
    unfold pss.VerifyingKey.tryFromSpki
    split
    · exact (tryFromSpki_mal i).bind fun _ _ => .ok _
    · exact .err
  · exact (hs.bind fun _ _ => .ok _) er
  · exact (hp.bind fun _ _ => .ok _) er
  · exact (hs.bind fun _ _ => .ok _) er
  · exact (hp.bind fun _ _ => .ok _) er
  · exact ((decodePrivateKeyInfo_mal b).bind fun i _ => (assertAlgorithmOid_mal _ _).bind fun _ _ =>
      (tryFromInfo_mal i).bind fun _ _ => hx.bind fun _ _ => .ok _) er
  · exact ((decodeSpki_mal b).bind fun i _ => (assertAlgorithmOid_mal _ _).bind fun _ _ =>
      (tryFromSpki_mal i).bind fun _ _ => hx.bind fun _ _ => .ok _) er

/- Each of the key checks fails on some document, and all show as the same error: an even modulus, an even exponent, the
exponent 1, a wrong product, a wrong private exponent. -/
example : PublicKey.fromPkcs1Der (rsaPublicKey 6 3) = .err .pkcs8 ∧ PublicKey.fromPkcs1Der (rsaPublicKey 7 4) = .err .pkcs8 ∧
    PublicKey.fromPkcs1Der (rsaPublicKey 7 1) = .err .pkcs8 ∧
    PrivateKey.fromPkcs1Der (rsaPrivateKey 35 5 5 7 7 0 0 0) = .err .pkcs8 ∧
    PrivateKey.fromPkcs1Der (rsaPrivateKey 35 5 7 5 7 0 0 0) = .err .pkcs8 := by decide +kernel

/-! ### the verdict -/

theorem stored_prec {n : Nat} (h0 : n ≠ 0) : (stored n).prec = wordBits n := by
  have := octetLen_pos h0
  unfold prec wordBits
  rw [stored_nlimbs h0]
  unfold limbsFor
  omega

/-- The decoder on a parsed two-prime structure. -/
theorem tryFromInfo_fields {a : der.AlgorithmId} (ha : verifyAlgorithmId a = .ok ()) {n e d p q dp dq qi : Nat}
    (hl : (rsaPrivateKey n e d p q dp dq qi).length < der.maxLen) :
    ((h : n % 2 = 1) → d < 256 ^ octetLen n → p < 256 ^ octetLen n → q < 256 ^ octetLen n →
      PrivateKey.tryFromInfo ⟨a, rsaPrivateKey n e d p q dp dq qi⟩ =
        mapErrMalformed (PrivateKey.fromComponents ⟨stored n, by rw [stored_val]; exact h⟩ (stored e)
          (wrap (stored n).nlimbs d) [wrap (stored n).nlimbs p, wrap (stored n).nlimbs q])) ∧
    (¬ (n % 2 = 1 ∧ d < 256 ^ octetLen n ∧ p < 256 ^ octetLen n ∧ q < 256 ^ octetLen n) →
      PrivateKey.tryFromInfo ⟨a, rsaPrivateKey n e d p q dp dq qi⟩ = .err .pkcs8) := by
  have hdec := decodeRsaPrivateKey_of_length hl
  obtain ⟨l1, l2⟩ := decodeRsaPrivateKey_len hdec
  simp only at l1 l2
  have start : PrivateKey.tryFromInfo ⟨a, rsaPrivateKey n e d p q dp dq qi⟩ =
      (match OddUint.new (stored n) with
      | none => .err .pkcs8
      | some n' => do
        let d' ← uintFromSlice (uintBytes d) ((uintBytes n).length * 8)
        let p' ← uintFromSlice (uintBytes p) ((uintBytes n).length * 8)
        let q' ← uintFromSlice (uintBytes q) ((uintBytes n).length * 8)
        mapErrMalformed (PrivateKey.fromComponents n' (stored e) d' [p', q'])) := by
    unfold PrivateKey.tryFromInfo
    simp only
    rw [ha, Res.ok_bind, hdec, Res.ok_bind]
    simp only [Bool.false_eq_true, if_false]
    rw [lenBitsChecked_eq l1, Res.ok_bind,
      uintFromSlice_uintBytes (uintBytes_length_pos n) (uintBytes_lt n), Res.ok_bind]
    show (match OddUint.new (stored n) with | none => _ | some n => _) = _
    cases OddUint.new (stored n) with
    | none => rfl
    | some n' =>
      simp only
      rw [lenBitsChecked_eq l2, Res.ok_bind,
        uintFromSlice_uintBytes (uintBytes_length_pos e) (uintBytes_lt e), Res.ok_bind]
      rfl
  have wide : ∀ {v}, n ≠ 0 → ¬ v < 256 ^ octetLen n → uintFromSlice (uintBytes v) ((uintBytes n).length * 8) = .err .pkcs8 := by
    intro v h0 hv
    apply uintFromSlice_too_long
    rw [uintBytes_length h0]
    have h1 := uintBytes_lt v
    have h2 := (Nat.pow_lt_pow_iff_right (by norm_num : 1 < 256)).mp (lt_of_le_of_lt (not_lt.mp hv) h1)
    unfold divCeil; omega
  have fits : ∀ {v}, n ≠ 0 → v < 256 ^ octetLen n →
      uintFromSlice (uintBytes v) ((uintBytes n).length * 8) = .ok (wrap (stored n).nlimbs v) := by
    intro v h0 hv
    rw [uintBytes_length h0, uintFromSlice_uintBytes (octetLen_pos h0) hv, stored_nlimbs h0]
  have hodd : (h : n % 2 = 1) → OddUint.new (stored n) = some ⟨stored n, by rw [stored_val]; exact h⟩ := by
    intro h
    unfold OddUint.new
    rw [dif_pos (by rw [stored_val]; exact h)]
  rw [start]
  constructor
  · intro h hd hp hq
    have h0 : n ≠ 0 := by omega
    rw [hodd h]
    simp only
    rw [fits h0 hd, Res.ok_bind, fits h0 hp, Res.ok_bind, fits h0 hq, Res.ok_bind]
  · intro hbad
    by_cases h : n % 2 = 1
    · have h0 : n ≠ 0 := by omega
      rw [hodd h]
      simp only
      by_cases hd : d < 256 ^ octetLen n
      · rw [fits h0 hd, Res.ok_bind]
        by_cases hp : p < 256 ^ octetLen n
        · rw [fits h0 hp, Res.ok_bind]
          by_cases hq : q < 256 ^ octetLen n
          · exact absurd ⟨h, hd, hp, hq⟩ hbad
          · rw [wide h0 hq]; rfl
        · rw [wide h0 hp]; rfl
      · rw [wide h0 hd]; rfl
    · have : OddUint.new (stored n) = none := by
        unfold OddUint.new
        rw [dif_neg (by rw [stored_val]; exact h)]
      rw [this]

theorem mapErrMalformed_panics {α : Type} (r : Res α) : (mapErrMalformed r).Panics ↔ r.Panics := by
  cases r <;> exact Iff.rfl

/-- What `from_components` does with the numbers as the decoder stores them. -/
theorem fromComponents_fields {n e d p q : Nat} (h : n % 2 = 1) (hd : d < 256 ^ octetLen n)
    (hp : p < 256 ^ octetLen n) (hq : q < 256 ^ octetLen n) :
    ((∃ k, PrivateKey.fromComponents ⟨stored n, by rw [stored_val]; exact h⟩ (stored e)
        (wrap (stored n).nlimbs d) [wrap (stored n).nlimbs p, wrap (stored n).nlimbs q] = .ok k) ↔ FieldsOk n e d p q) ∧
    ((PrivateKey.fromComponents ⟨stored n, by rw [stored_val]; exact h⟩ (stored e)
        (wrap (stored n).nlimbs d) [wrap (stored n).nlimbs p, wrap (stored n).nlimbs q]).Panics ↔
      FieldsPanic n e d p q) := by
  have h0 : n ≠ 0 := by omega
  have hw := stored_prec h0
  have hw' : 64 * (stored n).nlimbs = wordBits n := hw
  have hl := stored_nlimbs_pos n
  have vd : (wrap (stored n).nlimbs d).val = d := wrap_val_of_lt (lt_stored h0 hd)
  have vp : (wrap (stored n).nlimbs p).val = p := wrap_val_of_lt (lt_stored h0 hp)
  have vq : (wrap (stored n).nlimbs q).val = q := wrap_val_of_lt (lt_stored h0 hq)
  have pr : ∀ v, (wrap (stored n).nlimbs v).prec = wordBits n := fun v => hw
  have hprod : (List.map BoxedUint.val [wrap (stored n).nlimbs p, wrap (stored n).nlimbs q]).prod = p * q := by
    simp [vp, vq]
  constructor
  · constructor
    · rintro ⟨k, hk⟩
      obtain ⟨g1, g2, g3, g4, g5, _, g7, _, _⟩ := PrivateKey.fromComponents_ok (by simp) hk
      simp only at g1
      have hlk : 1 ≤ k.pub.n.nlimbs := by rw [g1]; exact hl
      obtain ⟨c, m, x⟩ := (PrivateKey.validate_ok_iff k hlk).mp g7
      rw [g5] at x m
      rw [hprod, g1, stored_val, hw] at m
      have c := (checkPublic_ok _).mp (checkPublic_of_validate g7)
      rw [g1, g2, stored_val, stored_val, hw] at c
      have xp := x _ (List.mem_cons_self ..)
      have xq := x (wrap (stored n).nlimbs q) (by simp)
      rw [vp, g4, g2, vd, stored_val] at xp
      rw [vq, g4, g2, vd, stored_val] at xq
      exact ⟨⟨c, hd, hp, hq, m⟩, xp.2.1, xq.2.1, xp.2.2, xq.2.2⟩
    · rintro ⟨⟨c, _, _, _, m⟩, p1, q1, xp, xq⟩
      refine PrivateKey.fromComponents_ok_of_validate hl (le_refl _) (le_refl _) ?_
      rw [PrivateKey.validate_ok_iff _ hl]
      refine ⟨?_, ?_, ?_⟩
      · rw [checkPublic_ok]
        simp only [stored_val, hw]
        exact c
      · simp only
        rw [hprod, hw, m, stored_val]
      · intro x hx
        simp only [stored_val, vd, pr] at hx ⊢
        have hlim : wordBits n ≤ 64 * limbsFor (2 * wordBits n) := by unfold limbsFor; omega
        rcases List.mem_cons.mp hx with rfl | hx
        · rw [vp, pr]; exact ⟨hlim, p1, xp⟩
        · obtain rfl : x = wrap (stored n).nlimbs q := by simpa using hx
          rw [vq, pr]; exact ⟨hlim, q1, xq⟩
  · have hl' : 1 ≤ (wrap (stored n).nlimbs d).nlimbs := hl
    rw [(C74_from_components _ _ _ [wrap (stored n).nlimbs p, wrap (stored n).nlimbs q] hl' (by simp)).2.1]
    simp only [stored_val, hw, vd, pr, hprod]
    unfold FactorPanic FactorOk
    rw [hprod]
    constructor
    · rintro ⟨_, c, ⟨m, pre, x, post, hsp, hpre, hbad⟩ | ⟨_, _, x, hx, hlt⟩⟩
      · refine ⟨⟨c, hd, hp, hq, m⟩, ?_⟩
        cases pre with
        | nil =>
          cases hsp
          rw [pr, vp] at hbad
          left; omega
        | cons y ys =>
          cases ys with
          | nil =>
            cases hsp
            have := hpre _ (List.mem_cons_self ..)
            unfold FactorOk at this
            rw [vp] at this
            rw [pr, vq] at hbad
            right; exact ⟨by omega, this.2⟩
          | cons z zs =>
            exfalso
            have := congrArg List.length hsp
            simp at this
      · exfalso
        have : x.prec = wordBits n := by
          simp only [List.take_succ_cons, List.take_zero, List.mem_cons, List.not_mem_nil, or_false] at hx
          rcases hx with rfl | rfl <;> exact pr _
        omega
    · rintro ⟨⟨c, _, _, _, m⟩, hbad⟩
      refine ⟨by simp, c, Or.inl ⟨m, ?_⟩⟩
      by_cases h1 : p = 1
      · exact ⟨[], _, _, rfl, by simp, Or.inr (by rw [vp]; exact h1)⟩
      · obtain ⟨q1, p1, xp⟩ := hbad.resolve_left h1
        refine ⟨[wrap (stored n).nlimbs p], _, [], rfl, ?_, Or.inr (by rw [vq]; exact q1)⟩
        intro x hx
        obtain rfl : x = wrap (stored n).nlimbs p := by simpa using hx
        exact ⟨by rw [pr]; omega, by rw [vp]; exact p1, by rw [vp]; exact xp⟩

theorem algAccepted_iff (a : der.AlgorithmId) : verifyAlgorithmId a = .ok () ↔
    (a.oid = oidOctets 1 2 [840, 113549, 1, 1, 1] ∧ a.parameters = some (0x05, [])) ∨
      (a.oid = oidOctets 1 2 [840, 113549, 1, 1, 10] ∧ a.parameters = none) := by
  rw [verifyAlgorithmId_ok, ← rsaEncryptionOid_eq, ← rsassaPssOid_eq]
  obtain ⟨oid, ps⟩ := a
  unfold der.algorithmId
  simp only [der.AlgorithmId.mk.injEq]
  rfl

/-- C75: what the conversion from a parsed `PrivateKeyInfo` does on every input. It makes a key exactly from the strict DER
encoding of an RFC 8017 `RSAPrivateKey` of version 0 whose numbers satisfy `FieldsOk`, under one of the two algorithm
identifiers; it panics exactly if the numbers satisfy `FieldsPanic`; in all other cases it reports `KeyMalformed`. -/
theorem C75_private_verdict (i : der.PrivateKeyInfo) (hl : i.privateKey.length < 2 ^ 28) :
    ((∃ k, PrivateKey.tryFromInfo i = .ok k) ↔
      ((i.algorithm.oid = oidOctets 1 2 [840, 113549, 1, 1, 1] ∧ i.algorithm.parameters = some (0x05, [])) ∨
        (i.algorithm.oid = oidOctets 1 2 [840, 113549, 1, 1, 10] ∧ i.algorithm.parameters = none)) ∧
      ∃ n e d p q dp dq qi, i.privateKey = rsaPrivateKey n e d p q dp dq qi ∧ FieldsOk n e d p q) ∧
    ((PrivateKey.tryFromInfo i).Panics ↔
      ((i.algorithm.oid = oidOctets 1 2 [840, 113549, 1, 1, 1] ∧ i.algorithm.parameters = some (0x05, [])) ∨
        (i.algorithm.oid = oidOctets 1 2 [840, 113549, 1, 1, 10] ∧ i.algorithm.parameters = none)) ∧
      ∃ n e d p q dp dq qi, i.privateKey = rsaPrivateKey n e d p q dp dq qi ∧ FieldsPanic n e d p q) ∧
    ((∃ k, PrivateKey.tryFromInfo i = .ok k) ∨ (PrivateKey.tryFromInfo i).Panics ∨
      PrivateKey.tryFromInfo i = .err .pkcs8) := by
  obtain ⟨a, b⟩ := i
  simp only at hl ⊢
  rw [← algAccepted_iff]
  -- both characterisations in one step
  have key : ∀ {n e d p q dp dq qi : Nat}, verifyAlgorithmId a = .ok () → b = rsaPrivateKey n e d p q dp dq qi →
      ((∃ k, PrivateKey.tryFromInfo ⟨a, b⟩ = .ok k) ↔ FieldsOk n e d p q) ∧
      ((PrivateKey.tryFromInfo ⟨a, b⟩).Panics ↔ FieldsPanic n e d p q) ∧ PrivateKey.tryFromInfo ⟨a, b⟩ ≠ .loop := by
    intro n e d p q dp dq qi ha hb
    subst hb
    obtain ⟨f1, f2⟩ := tryFromInfo_fields ha (n := n) (e := e) (d := d) (p := p) (q := q) (dp := dp) (dq := dq) (qi := qi)
      hl
    by_cases hfit : n % 2 = 1 ∧ d < 256 ^ octetLen n ∧ p < 256 ^ octetLen n ∧ q < 256 ^ octetLen n
    · obtain ⟨h, hd, hp, hq⟩ := hfit
      rw [f1 h hd hp hq, mapErrMalformed_panics]
      simp only [mapErrMalformed_ok]
      obtain ⟨g1, g2⟩ := fromComponents_fields (e := e) h hd hp hq
      refine ⟨g1, g2, ?_⟩
      have hlim : 1 ≤ (wrap (stored n).nlimbs d).nlimbs := stored_nlimbs_pos n
      have := (C74_from_components ⟨stored n, by rw [stored_val]; exact h⟩ (stored e) (wrap (stored n).nlimbs d)
        [wrap (stored n).nlimbs p, wrap (stored n).nlimbs q] hlim (by simp)).2.2
      intro hx
      apply this
      revert hx
      cases PrivateKey.fromComponents ⟨stored n, by rw [stored_val]; exact h⟩ (stored e) (wrap (stored n).nlimbs d)
        [wrap (stored n).nlimbs p, wrap (stored n).nlimbs q] <;> simp [mapErrMalformed]
    · rw [f2 hfit]
      have no : ∀ {n e d p q}, FieldsFit n e d p q →
          n % 2 = 1 ∧ d < 256 ^ octetLen n ∧ p < 256 ^ octetLen n ∧ q < 256 ^ octetLen n :=
        fun h => ⟨h.1.2.2.1, h.2.1, h.2.2.1, h.2.2.2.1⟩
      refine ⟨⟨?_, fun h => absurd (no h.1) hfit⟩, ⟨?_, fun h => absurd (no h.1) hfit⟩, by simp⟩
      · rintro ⟨_, h⟩; cases h
      · intro h; cases h
  by_cases ha : verifyAlgorithmId a = .ok ()
  · rcases Classical.em (∃ n e d p q dp dq qi, b = rsaPrivateKey n e d p q dp dq qi) with hb | hb
    · obtain ⟨n, e, d, p, q, dp, dq, qi, hb⟩ := hb
      obtain ⟨k1, k2, k3⟩ := key ha hb
      refine ⟨⟨fun h => ⟨ha, n, e, d, p, q, dp, dq, qi, hb, k1.mp h⟩, ?_⟩,
        ⟨fun h => ⟨ha, n, e, d, p, q, dp, dq, qi, hb, k2.mp h⟩, ?_⟩, ?_⟩
      · rintro ⟨_, n, e, d, p, q, dp, dq, qi, hb, h⟩
        exact (key ha hb).1.mpr h
      · rintro ⟨_, n, e, d, p, q, dp, dq, qi, hb, h⟩
        exact (key ha hb).2.1.mpr h
      · have hm := tryFromInfo_mal ⟨a, b⟩
        cases hr : PrivateKey.tryFromInfo ⟨a, b⟩ with
        | ok k => exact Or.inl ⟨k, rfl⟩
        | err er => rw [hm er hr]; exact Or.inr (Or.inr rfl)
        | panic x => exact Or.inr (Or.inl trivial)
        | loop => exact absurd hr k3
    · have herr : PrivateKey.tryFromInfo ⟨a, b⟩ = .err .pkcs8 := by
        unfold PrivateKey.tryFromInfo
        simp only
        rw [ha, Res.ok_bind]
        have hret := decodeRsaPrivateKey_ret b
        cases hr : der.decodeRsaPrivateKey b with
        | ok r =>
          rw [Res.ok_bind]
          by_cases hm : r.multi = true
          · rw [if_pos hm]
          · obtain ⟨n, e, d, p, q, dp, dq, qi, h, _⟩ := decodeRsaPrivateKey_ok hr (by simpa using hm)
            exact absurd ⟨n, e, d, p, q, dp, dq, qi, h⟩ hb
        | err er => rw [decodeRsaPrivateKey_mal b er hr]; rfl
        | panic x => rw [hr] at hret; exact absurd hret (by intro h; exact h)
        | loop => rw [hr] at hret; exact absurd hret (by intro h; exact h)
      rw [herr]
      refine ⟨⟨?_, ?_⟩, ⟨?_, ?_⟩, Or.inr (Or.inr rfl)⟩
      · rintro ⟨_, h⟩; cases h
      · rintro ⟨_, n, e, d, p, q, dp, dq, qi, h, _⟩; exact absurd ⟨n, e, d, p, q, dp, dq, qi, h⟩ hb
      · intro h; cases h
      · rintro ⟨_, n, e, d, p, q, dp, dq, qi, h, _⟩; exact absurd ⟨n, e, d, p, q, dp, dq, qi, h⟩ hb
  · have herr : PrivateKey.tryFromInfo ⟨a, b⟩ = .err .pkcs8 := by
      unfold PrivateKey.tryFromInfo
      simp only
      rw [(verifyAlgorithmId_cases a).resolve_left ha]
      rfl
    rw [herr]
    refine ⟨⟨?_, fun h => absurd h.1 ha⟩, ⟨?_, fun h => absurd h.1 ha⟩, Or.inr (Or.inr rfl)⟩
    · rintro ⟨_, h⟩; cases h
    · intro h; cases h

/-- C75, for PKCS#1 documents: every byte string shorter than the limit of the DER decoder is accepted, refused or crashes
the decoder, according to the numbers in it. -/
theorem C75_pkcs1_verdict (b : Bytes) :
    ((∃ k, PrivateKey.fromPkcs1Der b = .ok k) ↔ b.length < 2 ^ 28 ∧
      ∃ n e d p q dp dq qi, b = rsaPrivateKey n e d p q dp dq qi ∧ FieldsOk n e d p q) ∧
    ((PrivateKey.fromPkcs1Der b).Panics ↔ b.length < 2 ^ 28 ∧
      ∃ n e d p q dp dq qi, b = rsaPrivateKey n e d p q dp dq qi ∧ FieldsPanic n e d p q) ∧
    ((∃ k, PrivateKey.fromPkcs1Der b = .ok k) ∨ (PrivateKey.fromPkcs1Der b).Panics ∨
      PrivateKey.fromPkcs1Der b = .err .pkcs8) := by
  by_cases hl : b.length < 2 ^ 28
  · have e : PrivateKey.fromPkcs1Der b = PrivateKey.tryFromInfo ⟨der.algorithmId, b⟩ := by
      unfold PrivateKey.fromPkcs1Der der.maxLen; rw [if_pos hl]
    have ha := (algAccepted_iff der.algorithmId).mp (by decide)
    obtain ⟨h1, h2, h3⟩ := C75_private_verdict ⟨der.algorithmId, b⟩ hl
    rw [e]
    refine ⟨h1.trans ⟨fun h => ⟨hl, h.2⟩, fun h => ⟨ha, h.2⟩⟩, h2.trans ⟨fun h => ⟨hl, h.2⟩, fun h => ⟨ha, h.2⟩⟩, h3⟩
  · have e : PrivateKey.fromPkcs1Der b = .err .pkcs8 := by
      unfold PrivateKey.fromPkcs1Der der.maxLen; rw [if_neg hl]
    rw [e]
    refine ⟨⟨?_, fun h => absurd h.1 hl⟩, ⟨?_, fun h => absurd h.1 hl⟩, Or.inr (Or.inr rfl)⟩
    · rintro ⟨_, h⟩; cases h
    · intro h; cases h

/- The 26-octet document of the key 35 = 5 * 7, `e = d = 5`, is accepted; with factors 1 and 35 it crashes the decoder. -/
example : FieldsOk 35 5 5 5 7 ∧ FieldsPanic 35 5 5 1 35 ∧ (rsaPrivateKey 35 5 5 5 7 1 5 3).length < 2 ^ 28 ∧
    (match PrivateKey.fromPkcs1Der (rsaPrivateKey 35 5 5 5 7 1 5 3) with
      | .ok k => decide (k.pub.n.val = 35 ∧ k.d.val = 5) | _ => false) = true ∧
    (PrivateKey.fromPkcs1Der (rsaPrivateKey 35 5 5 1 35 1 5 3)).Panics := by
  refine ⟨?_, ?_, by decide +kernel, by decide +kernel, by decide +kernel⟩
  · unfold FieldsOk FieldsFit PublicOk wordBits; decide +kernel
  · unfold FieldsPanic FieldsFit PublicOk wordBits; decide +kernel

theorem decodePrivateKeyInfo_len {b : Bytes} {i : der.PrivateKeyInfo} (h : der.decodePrivateKeyInfo b = .ok i) :
    i.privateKey.length < der.maxLen := by
  unfold der.decodePrivateKeyInfo at h
  rw [Res.bind_eq_ok] at h
  obtain ⟨_, _, h⟩ := h
  rw [Res.bind_eq_ok] at h
  obtain ⟨_, _, h⟩ := h
  rw [Res.bind_eq_ok] at h
  obtain ⟨⟨v, _⟩, _, h⟩ := h
  simp only at h
  rw [Res.bind_eq_ok] at h
  obtain ⟨⟨a, _⟩, _, h⟩ := h
  simp only at h
  rw [Res.bind_eq_ok] at h
  obtain ⟨⟨k, c⟩, hk, h⟩ := h
  simp only at h
  rw [orErr_ok] at hk
  obtain ⟨hk, _⟩ := readTlv_some hk
  have fin : ∀ c : Bytes, (if v = [0] then (do der.finish c; .ok ⟨a, k⟩) else if v = [1] then (do
      let (_, c) ← der.orErr (der.readTlv 0x81 c)
      der.finish c
      .ok ⟨a, k⟩) else .err .pkcs8 : Res der.PrivateKeyInfo) = .ok i → i.privateKey.length < der.maxLen := by
    intro c h
    split at h
    · rw [Res.bind_eq_ok] at h
      obtain ⟨_, _, h⟩ := h
      obtain rfl := Res.ok.inj h
      exact hk
    · split at h
      · rw [Res.bind_eq_ok] at h
        obtain ⟨_, _, h⟩ := h
        rw [Res.bind_eq_ok] at h
        obtain ⟨_, _, h⟩ := h
        obtain rfl := Res.ok.inj h
        exact hk
      · cases h
  split at h
  · rw [Res.bind_eq_ok] at h
    obtain ⟨x, _, h⟩ := h
    exact fin x.2 h
  · exact fin c h

/-- C75, for PKCS#8 documents: the envelope is refused, or the verdict is that of `C75_private_verdict` on its content. -/
theorem C75_pkcs8_verdict (b : Bytes) :
    (PrivateKey.fromPkcs8Der b = .err .pkcs8 ∧ der.decodePrivateKeyInfo b = .err .pkcs8) ∨
    ∃ i, der.decodePrivateKeyInfo b = .ok i ∧ i.privateKey.length < 2 ^ 28 ∧
      PrivateKey.fromPkcs8Der b = PrivateKey.tryFromInfo i := by
  have hret := decodePrivateKeyInfo_ret b
  unfold PrivateKey.fromPkcs8Der
  cases hr : der.decodePrivateKeyInfo b with
  | ok i => exact Or.inr ⟨i, rfl, decodePrivateKeyInfo_len hr, rfl⟩
  | err er => rw [decodePrivateKeyInfo_mal b er hr]; exact Or.inl ⟨rfl, rfl⟩
  | panic x => rw [hr] at hret; exact absurd hret (by intro h; exact h)
  | loop => rw [hr] at hret; exact absurd hret (by intro h; exact h)

example : (match PrivateKey.fromPkcs8Der (privateKeyInfo rsaEncryptionAlg (rsaPrivateKey 35 5 5 5 7 1 5 3)) with
      | .ok k => decide (k.pub.n.val = 35 ∧ k.d.val = 5) | _ => false) = true ∧
    (PrivateKey.fromPkcs8Der (privateKeyInfo rsaEncryptionAlg (rsaPrivateKey 35 5 5 1 35 1 5 3))).Panics ∧
    PrivateKey.fromPkcs8Der [0x30, 0x00] = .err .pkcs8 := by decide +kernel

end RSA
