import Verif.Proof.Der
import Verif.Proof.FromPrimes
import Verif.Proof.PublicKey
import Verif.Model.Encoding

namespace RSA
open BoxedUint Spec

/-! ### algorithm identifiers -/

/-- An algorithm identifier accepted by `verify_algorithm_id`, with its DER. -/
inductive GoodAlg : der.AlgorithmId → Bytes → Prop
  | rsa : GoodAlg der.algorithmId rsaEncryptionAlg
  | pss : GoodAlg ⟨der.rsassaPssOid, none⟩ rsassaPssAlg

theorem rsaEncryptionOid_eq : der.rsaEncryptionOid = oidOctets 1 2 [840, 113549, 1, 1, 1] := by decide +kernel

theorem rsassaPssOid_eq : der.rsassaPssOid = oidOctets 1 2 [840, 113549, 1, 1, 10] := by decide +kernel

theorem encodeAlgorithmId_rsa : der.encodeAlgorithmId der.algorithmId = .ok rsaEncryptionAlg := by decide +kernel

theorem verifyAlgorithmId_ok (a : der.AlgorithmId) :
    verifyAlgorithmId a = .ok () ↔ a = der.algorithmId ∨ a = ⟨der.rsassaPssOid, none⟩ := by
  obtain ⟨oid, ps⟩ := a
  unfold verifyAlgorithmId
  by_cases h1 : oid = der.rsaEncryptionOid
  · subst h1
    rw [if_pos rfl]
    cases ps with
    | none =>
      simp only [der.algorithmId, der.AlgorithmId.mk.injEq]
      constructor
      · intro h; cases h
      · rintro (⟨_, h⟩ | ⟨h, _⟩)
        · cases h
        · exact absurd h (by decide)
    | some p =>
      simp only
      by_cases hp : p = der.nullAny
      · subst hp
        rw [if_neg (by simp)]
        exact ⟨fun _ => Or.inl rfl, fun _ => rfl⟩
      · rw [if_pos hp]
        simp only [der.algorithmId, der.AlgorithmId.mk.injEq, Option.some.injEq]
        constructor
        · intro h; cases h
        · rintro (⟨_, h⟩ | ⟨_, h⟩)
          · exact absurd h hp
          · cases h
  · rw [if_neg h1]
    by_cases h2 : oid = der.rsassaPssOid
    · subst h2
      rw [if_pos rfl]
      cases ps with
      | none => exact ⟨fun _ => Or.inr rfl, fun _ => rfl⟩
      | some p =>
        rw [if_pos (by rfl)]
        simp only [der.algorithmId, der.AlgorithmId.mk.injEq]
        constructor
        · intro h; cases h
        · rintro (⟨h, _⟩ | ⟨_, h⟩)
          · exact absurd h (by decide)
          · cases h
    · rw [if_neg h2]
      simp only [der.algorithmId, der.AlgorithmId.mk.injEq]
      constructor
      · intro h; cases h
      · rintro (⟨h, _⟩ | ⟨h, _⟩)
        · exact absurd h h1
        · exact absurd h h2

theorem verifyAlgorithmId_cases (a : der.AlgorithmId) :
    verifyAlgorithmId a = .ok () ∨ verifyAlgorithmId a = .err .pkcs8 := by
  unfold verifyAlgorithmId
  repeat' split
  all_goals simp

theorem GoodAlg.verify {a : der.AlgorithmId} {alg : Bytes} (h : GoodAlg a alg) : verifyAlgorithmId a = .ok () := by
  rw [verifyAlgorithmId_ok]
  cases h
  · exact Or.inl rfl
  · exact Or.inr rfl

theorem GoodAlg.read {a : der.AlgorithmId} {alg : Bytes} (h : GoodAlg a alg) (r : Bytes) :
    der.readAlgorithmId (alg ++ r) = .ok (a, r) := by
  cases h with
  | rsa =>
    unfold der.readAlgorithmId rsaEncryptionAlg
    rw [readTlv_der (by decide +kernel)]
    show (der.orErr (der.readTlv 0x06 _) >>= _) = _
    rw [readTlv_der (by decide +kernel), ← rsaEncryptionOid_eq]
    rfl
  | pss =>
    unfold der.readAlgorithmId rsassaPssAlg
    rw [readTlv_der (by decide +kernel)]
    show (der.orErr (der.readTlv 0x06 _) >>= _) = _
    rw [readTlv_der' (by decide +kernel), ← rsassaPssOid_eq]
    rfl

theorem readAlgorithmId_ok {b r : Bytes} {a : der.AlgorithmId} (h : der.readAlgorithmId b = .ok (a, r))
    (hv : verifyAlgorithmId a = .ok ()) : ∃ alg, GoodAlg a alg ∧ b = alg ++ r := by
  unfold der.readAlgorithmId at h
  rw [Res.bind_eq_ok] at h
  obtain ⟨⟨c, r'⟩, h1, h⟩ := h
  rw [orErr_ok] at h1
  simp only at h
  rw [Res.bind_eq_ok] at h
  obtain ⟨⟨oid, c'⟩, h2, h⟩ := h
  rw [orErr_ok] at h2
  obtain ⟨_, hb⟩ := readTlv_some h1
  obtain ⟨_, hc⟩ := readTlv_some h2
  cases c' with
  | nil =>
    obtain ⟨rfl, rfl⟩ := Prod.mk.inj (Res.ok.inj h)
    rcases (verifyAlgorithmId_ok _).mp hv with h | h
    · simp [der.algorithmId] at h
    · obtain rfl : oid = der.rsassaPssOid := (der.AlgorithmId.mk.inj h).1
      refine ⟨_, .pss, ?_⟩
      rw [hb, hc, List.append_nil, rsassaPssAlg, ← rsassaPssOid_eq]
  | cons t ts =>
    simp only at h
    rw [Res.bind_eq_ok] at h
    obtain ⟨⟨v, c''⟩, h3, h⟩ := h
    rw [orErr_ok] at h3
    simp only at h
    rw [Res.bind_eq_ok] at h
    obtain ⟨_, h4, h⟩ := h
    obtain ⟨rfl, rfl⟩ := Prod.mk.inj (Res.ok.inj h)
    rcases (verifyAlgorithmId_ok _).mp hv with h | h
    · obtain ⟨ho, h⟩ := der.AlgorithmId.mk.inj h
      obtain ⟨ht, hv'⟩ := Prod.mk.inj (Option.some.inj h)
      subst ho ht hv'
      refine ⟨_, .rsa, ?_⟩
      obtain ⟨_, h5⟩ := readTlv_some h3
      rw [finish_ok] at h4
      rw [hb, hc, h5, h4, List.append_nil, rsaEncryptionAlg, ← rsaEncryptionOid_eq]
    · simp at h

theorem GoodAlg.length {a : der.AlgorithmId} {alg : Bytes} (h : GoodAlg a alg) : alg.length ≤ 15 := by
  cases h <;> decide +kernel

/-! ### integers -/

theorem lenBitsChecked_eq {len : Nat} (h : len < der.maxLen) : lenBitsChecked len = .ok (len * 8) := by
  unfold der.maxLen at h
  unfold lenBitsChecked
  rw [if_pos (by omega), if_pos (by omega)]

theorem uintFromSlice_uintBytes {v len : Nat} (hl : 1 ≤ len) (hv : v < 256 ^ len) :
    uintFromSlice (uintBytes v) (len * 8) = .ok (wrap (limbsFor (len * 8)) v) := by
  unfold uintFromSlice
  rw [fromBeSlice_ok, uintBytes_beVal]
  · have := uintBytes_length_le hl hv
    unfold divCeil; omega
  · rw [uintBytes_beVal, mul_comm, ← pow256]; exact hv

theorem uintFromSlice_too_long {b : Bytes} {bits : Nat} (h : ¬ b.length ≤ divCeil bits 8) :
    uintFromSlice b bits = .err .pkcs8 := by
  unfold uintFromSlice fromBeSlice
  rw [if_pos (by omega)]

theorem uintBytes_length_pos (v : Nat) : 1 ≤ (uintBytes v).length := by
  unfold uintBytes
  split
  · exact le_rfl
  · next h => exact natOctets_length_pos h

theorem uintBytes_lt (v : Nat) : v < 256 ^ (uintBytes v).length := by
  have := beVal_lt (uintBytes v)
  rwa [uintBytes_beVal] at this

theorem uintBytes_length_le_intOctets (v : Nat) : (uintBytes v).length ≤ (intOctets v).length := by
  unfold uintBytes intOctets
  split
  · exact le_rfl
  · split
    · rw [List.length_cons]; omega
    · exact le_rfl

/-- The storage the decoder gives to an integer of value `v`. -/
def stored (v : Nat) : BoxedUint := wrap (limbsFor ((uintBytes v).length * 8)) v

theorem lt_limbsFor_bytes {v len : Nat} (hv : v < 256 ^ len) : v < 2 ^ (64 * limbsFor (len * 8)) := by
  refine lt_of_lt_of_le hv ?_
  rw [pow256]
  apply Nat.pow_le_pow_right (by norm_num)
  unfold limbsFor; omega

theorem stored_val (v : Nat) : (stored v).val = v := wrap_val_of_lt (lt_limbsFor_bytes (uintBytes_lt v))

theorem der_length (tag : UInt8) (c : Bytes) : c.length ≤ (Spec.der tag c).length := by
  unfold Spec.der
  rw [List.length_cons, List.length_append]; omega

theorem derLen_length {n : Nat} (h : n < 256 ^ 4) : (derLen n).length ≤ 5 := by
  unfold derLen
  split
  · simp
  · have := natOctets_length_le h
    rw [List.length_cons]; omega

theorem der_length_le {tag : UInt8} {c : Bytes} (h : c.length < 256 ^ 4) : (Spec.der tag c).length ≤ c.length + 6 := by
  unfold Spec.der
  have := derLen_length h
  rw [List.length_cons, List.length_append]; omega

/-! ### public keys -/

theorem decodeSpki_eq {a : der.AlgorithmId} {alg key : Bytes} (ha : GoodAlg a alg) (hl : key.length ≤ 2 ^ 24) :
    der.decodeSubjectPublicKeyInfo (subjectPublicKeyInfo alg key) = .ok ⟨a, 0, key⟩ := by
  have h1 := ha.length
  have h3 := der_length_le (tag := 0x03) (c := 0 :: key) (by rw [List.length_cons]; omega)
  rw [List.length_cons] at h3
  unfold der.decodeSubjectPublicKeyInfo subjectPublicKeyInfo
  rw [readTlv_der' (by rw [List.length_append]; unfold der.maxLen; omega)]
  show (der.readAlgorithmId (alg ++ _) >>= _) = _
  rw [ha.read, Res.ok_bind]
  show (der.orErr (der.readTlv 0x03 _) >>= _) = _
  rw [readTlv_der' (by rw [List.length_cons]; unfold der.maxLen; omega)]
  show (if (0 : UInt8) > 7 ∨ ((0 : UInt8) ≠ 0 ∧ key = []) then Res.err .pkcs8 else
    Res.ok (⟨a, 0, key⟩ : der.SubjectPublicKeyInfo)) = _
  rw [if_neg]
  rintro (h | ⟨h, _⟩)
  · exact absurd h (by decide)
  · exact h rfl

theorem decodeRsaPublicKey_eq {n e : Nat} (hn : (intOctets n).length ≤ 2 ^ 20) (he : (intOctets e).length ≤ 2 ^ 20) :
    der.decodeRsaPublicKey (rsaPublicKey n e) = .ok ⟨uintBytes n, uintBytes e⟩ := by
  have h1 := der_length_le (tag := 0x02) (c := intOctets n) (by omega)
  have h2 := der_length_le (tag := 0x02) (c := intOctets e) (by omega)
  unfold der.decodeRsaPublicKey rsaPublicKey
  rw [readTlv_der' (by rw [List.length_append]; unfold derInt der.maxLen; omega)]
  show (der.readUint (derInt n ++ derInt e) >>= _) = _
  rw [readUint_derInt (by unfold der.maxLen; omega), Res.ok_bind]
  show (der.readUint (derInt e) >>= _) = _
  have := readUint_derInt (n := e) (r := []) (by unfold der.maxLen; omega)
  rw [List.append_nil] at this
  rw [this]
  rfl

theorem rsaPublicKey_length {n e : Nat} (hn : (intOctets n).length ≤ 2 ^ 20) (he : (intOctets e).length ≤ 2 ^ 20) :
    (rsaPublicKey n e).length ≤ 2 ^ 24 := by
  have h1 := der_length_le (tag := 0x02) (c := intOctets n) (by omega)
  have h2 := der_length_le (tag := 0x02) (c := intOctets e) (by omega)
  unfold rsaPublicKey
  have h3 := der_length_le (tag := 0x30) (c := derInt n ++ derInt e) (by
    rw [List.length_append]; unfold derInt; omega)
  rw [List.length_append] at h3
  unfold derInt at *
  omega

/-- Decoding a public key encoding. -/
theorem fromPublicKeyDer_eq {a : der.AlgorithmId} {alg : Bytes} (ha : GoodAlg a alg) {n e : Nat}
    (hn : (intOctets n).length ≤ 2 ^ 20) (he : (intOctets e).length ≤ 2 ^ 20) :
    PublicKey.fromPublicKeyDer (subjectPublicKeyInfo alg (rsaPublicKey n e)) =
      mapErrMalformed (PublicKey.new (stored n) (stored e)) := by
  unfold PublicKey.fromPublicKeyDer
  rw [decodeSpki_eq ha (rsaPublicKey_length hn he), Res.ok_bind]
  unfold PublicKey.tryFromSpki
  simp only
  rw [ha.verify, Res.ok_bind, if_neg (by simp), decodeRsaPublicKey_eq hn he, Res.ok_bind]
  have l1 := uintBytes_length_le_intOctets n
  have l2 := uintBytes_length_le_intOctets e
  simp only
  rw [lenBitsChecked_eq (by unfold der.maxLen; omega), Res.ok_bind,
    uintFromSlice_uintBytes (uintBytes_length_pos n) (uintBytes_lt n), Res.ok_bind,
    lenBitsChecked_eq (by unfold der.maxLen; omega), Res.ok_bind,
    uintFromSlice_uintBytes (uintBytes_length_pos e) (uintBytes_lt e), Res.ok_bind]
  rfl

/-- Encoding a public key. -/
theorem toPublicKeyDer_eq (k : PublicKey) (hn : (intOctets k.n.val).length ≤ 2 ^ 20)
    (he : (intOctets k.e.val).length ≤ 2 ^ 20) :
    k.toPublicKeyDer = .ok (subjectPublicKeyInfo rsaEncryptionAlg (rsaPublicKey k.n.val k.e.val)) := by
  have hv : ∀ x : BoxedUint, beVal x.toBeBytes = x.val := by
    intro x
    unfold toBeBytes
    rw [beVal_beBytes, pow256, Nat.mod_eq_of_lt]
    have := x.isLt
    rwa [show 8 * (8 * x.nlimbs) = 64 * x.nlimbs by ring]
  have h1 := der_length_le (tag := 0x02) (c := intOctets k.n.val) (by omega)
  have h2 := der_length_le (tag := 0x02) (c := intOctets k.e.val) (by omega)
  have hl := rsaPublicKey_length hn he
  have h3 := der_length_le (tag := 0x03) (c := 0 :: rsaPublicKey k.n.val k.e.val) (by rw [List.length_cons]; omega)
  rw [List.length_cons] at h3
  have h4 := GoodAlg.rsa.length
  unfold PublicKey.toPublicKeyDer der.encodeRsaPublicKey
  rw [encodeUint_eq (hv _) (by unfold der.maxLen; omega), Res.ok_bind,
    encodeUint_eq (hv _) (by unfold der.maxLen; omega), Res.ok_bind,
    tlv_eq (by rw [List.length_append]; unfold derInt der.maxLen; omega), Res.ok_bind]
  unfold der.encodeSubjectPublicKeyInfo
  rw [encodeAlgorithmId_rsa, Res.ok_bind]
  show (der.tlv 0x03 (0 :: rsaPublicKey k.n.val k.e.val) >>= _) = _
  rw [tlv_eq (by rw [List.length_cons]; unfold der.maxLen; omega), Res.ok_bind,
    tlv_eq (by rw [List.length_append]; unfold der.maxLen; omega)]
  rfl

theorem mapErrMalformed_ok {α : Type} {r : Res α} {a : α} : mapErrMalformed r = .ok a ↔ r = .ok a := by
  cases r <;> simp [mapErrMalformed]

/-- What an accepted public key encoding is: strict DER of the key, nothing else. -/
theorem fromPublicKeyDer_ok {b : Bytes} {k : PublicKey} (h : PublicKey.fromPublicKeyDer b = .ok k) :
    ∃ a alg n e, GoodAlg a alg ∧ b = subjectPublicKeyInfo alg (rsaPublicKey n e) ∧
      PublicKey.new (stored n) (stored e) = .ok k := by
  unfold PublicKey.fromPublicKeyDer at h
  rw [Res.bind_eq_ok] at h
  obtain ⟨i, hi, h⟩ := h
  unfold PublicKey.tryFromSpki at h
  rw [Res.bind_eq_ok] at h
  obtain ⟨_, hv, h⟩ := h
  by_cases hu : i.unusedBits ≠ 0
  · rw [if_pos hu] at h; cases h
  rw [if_neg hu, Res.bind_eq_ok] at h
  rw [not_not] at hu
  obtain ⟨pk, hpk, h⟩ := h
  -- outer structure
  unfold der.decodeSubjectPublicKeyInfo at hi
  rw [Res.bind_eq_ok] at hi
  obtain ⟨⟨c, r⟩, h1, hi⟩ := hi
  rw [orErr_ok] at h1
  simp only at hi
  rw [Res.bind_eq_ok] at hi
  obtain ⟨_, hf, hi⟩ := hi
  rw [finish_ok] at hf
  rw [Res.bind_eq_ok] at hi
  obtain ⟨⟨a, c1⟩, h2, hi⟩ := hi
  simp only at hi
  rw [Res.bind_eq_ok] at hi
  obtain ⟨⟨kb, c2⟩, h3, hi⟩ := hi
  rw [orErr_ok] at h3
  simp only at hi
  rw [Res.bind_eq_ok] at hi
  obtain ⟨_, hf2, hi⟩ := hi
  rw [finish_ok] at hf2
  subst hf hf2
  cases kb with
  | nil => cases hi
  | cons u bs =>
    simp only at hi
    split at hi
    · cases hi
    · obtain rfl := Res.ok.inj hi
      simp only at hu hv hpk
      subst hu
      obtain ⟨alg, ha, hc⟩ := readAlgorithmId_ok h2 hv
      obtain ⟨_, hb⟩ := readTlv_some h1
      obtain ⟨_, hc1⟩ := readTlv_some h3
      -- inner structure
      unfold der.decodeRsaPublicKey at hpk
      rw [Res.bind_eq_ok] at hpk
      obtain ⟨⟨d, r⟩, h4, hpk⟩ := hpk
      rw [orErr_ok] at h4
      simp only at hpk
      rw [Res.bind_eq_ok] at hpk
      obtain ⟨_, hf, hpk⟩ := hpk
      rw [finish_ok] at hf
      rw [Res.bind_eq_ok] at hpk
      obtain ⟨⟨nb, d1⟩, h5, hpk⟩ := hpk
      simp only at hpk
      rw [Res.bind_eq_ok] at hpk
      obtain ⟨⟨eb, d2⟩, h6, hpk⟩ := hpk
      simp only at hpk
      rw [Res.bind_eq_ok] at hpk
      obtain ⟨_, hf2, hpk⟩ := hpk
      rw [finish_ok] at hf2
      subst hf hf2
      obtain rfl := Res.ok.inj hpk
      obtain ⟨hl1, hn1, hd⟩ := readUint_ok h5
      obtain ⟨hl2, hn2, hd1⟩ := readUint_ok h6
      obtain ⟨_, hbs⟩ := readTlv_some h4
      refine ⟨a, alg, beVal nb, beVal eb, ha, ?_, ?_⟩
      · rw [hb, hc, hc1, hbs, hd, hd1]
        simp only [List.append_nil]
        rfl
      · simp only at h
        have l1 := uintBytes_length_le_intOctets (beVal nb)
        have l2 := uintBytes_length_le_intOctets (beVal eb)
        rw [← hn1] at l1
        rw [← hn2] at l2
        rw [lenBitsChecked_eq (by omega), Res.ok_bind] at h
        have e1 : uintFromSlice nb (nb.length * 8) = .ok (stored (beVal nb)) := by
          have := uintFromSlice_uintBytes (uintBytes_length_pos (beVal nb)) (uintBytes_lt (beVal nb))
          rw [← hn1] at this
          rw [this]; unfold stored; rw [← hn1]
        have e2 : uintFromSlice eb (eb.length * 8) = .ok (stored (beVal eb)) := by
          have := uintFromSlice_uintBytes (uintBytes_length_pos (beVal eb)) (uintBytes_lt (beVal eb))
          rw [← hn2] at this
          rw [this]; unfold stored; rw [← hn2]
        rw [e1, Res.ok_bind, lenBitsChecked_eq (by omega), Res.ok_bind, e2, Res.ok_bind] at h
        exact mapErrMalformed_ok.mp h

/-! ### private keys -/

theorem orErr_some {α : Type} (a : α) : der.orErr (some a) = .ok a := rfl

theorem finish_nil : der.finish [] = .ok () := rfl

/-- Sizes within which the length octets are not an issue. -/
def Small (v : Nat) : Prop := (intOctets v).length ≤ 2 ^ 20

theorem Small.of_lt {v len : Nat} (hl : len < 2 ^ 20) (h : v < 256 ^ len) : Small v := by
  have := intOctets_length_le h
  unfold Small; omega

theorem Small.derInt {v : Nat} (h : Small v) : (derInt v).length ≤ 2 ^ 20 + 6 := by
  unfold Small at h
  have := der_length_le (tag := 0x02) (c := intOctets v) (by omega)
  unfold Spec.derInt; omega

theorem Small.lt {v : Nat} (h : Small v) : (intOctets v).length < der.maxLen := by
  unfold Small at h; unfold der.maxLen; omega

theorem rsaPrivateKey_length {n e d p q dp dq qi : Nat} (hn : Small n) (he : Small e) (hd : Small d) (hp : Small p)
    (hq : Small q) (hdp : Small dp) (hdq : Small dq) (hqi : Small qi) :
    (derInt 0 ++ derInt n ++ derInt e ++ derInt d ++ derInt p ++ derInt q ++ derInt dp ++ derInt dq ++
      derInt qi).length ≤ 2 ^ 24 - 6 ∧
    (rsaPrivateKey n e d p q dp dq qi).length ≤ 2 ^ 24 := by
  have h0 : (derInt 0).length = 3 := by decide +kernel
  have h1 := hn.derInt
  have h2 := he.derInt
  have h3 := hd.derInt
  have h4 := hp.derInt
  have h5 := hq.derInt
  have h6 := hdp.derInt
  have h7 := hdq.derInt
  have h8 := hqi.derInt
  have hc : (derInt 0 ++ derInt n ++ derInt e ++ derInt d ++ derInt p ++ derInt q ++ derInt dp ++ derInt dq ++
      derInt qi).length ≤ 2 ^ 24 - 6 := by
    simp only [List.length_append]; omega
  refine ⟨hc, ?_⟩
  unfold rsaPrivateKey
  refine le_trans (der_length_le (by omega)) (by omega)

theorem decodeRsaPrivateKey_eq {n e d p q dp dq qi : Nat} (hn : Small n) (he : Small e) (hd : Small d) (hp : Small p)
    (hq : Small q) (hdp : Small dp) (hdq : Small dq) (hqi : Small qi) :
    der.decodeRsaPrivateKey (rsaPrivateKey n e d p q dp dq qi) =
      .ok ⟨false, uintBytes n, uintBytes e, uintBytes d, uintBytes p, uintBytes q, uintBytes dp, uintBytes dq,
        uintBytes qi⟩ := by
  have hl := (rsaPrivateKey_length hn he hd hp hq hdp hdq hqi).1
  have hz : Small 0 := by unfold Small; decide +kernel
  unfold der.decodeRsaPrivateKey rsaPrivateKey
  rw [readTlv_der' (by unfold der.maxLen; omega)]
  simp only [List.append_assoc, orErr_some, Res.ok_bind, finish_nil, readUint_derInt hz.lt, readUint_derInt hn.lt,
    readUint_derInt he.lt, readUint_derInt hd.lt, readUint_derInt hp.lt, readUint_derInt hq.lt, readUint_derInt hdp.lt,
    readUint_derInt hdq.lt]
  have := readUint_derInt (n := qi) (r := []) hqi.lt
  rw [List.append_nil] at this
  rw [this, Res.ok_bind]
  rfl

theorem decodePrivateKeyInfo_eq {a : der.AlgorithmId} {alg key : Bytes} (ha : GoodAlg a alg) (hl : key.length ≤ 2 ^ 24) :
    der.decodePrivateKeyInfo (privateKeyInfo alg key) = .ok ⟨a, key⟩ := by
  have h1 := ha.length
  have h0 : (derInt 0).length = 3 := by decide +kernel
  have hz : Small 0 := by unfold Small; decide +kernel
  have h3 := der_length_le (tag := 0x04) (c := key) (by omega)
  unfold der.decodePrivateKeyInfo privateKeyInfo
  rw [readTlv_der' (by simp only [List.length_append]; unfold der.maxLen; omega)]
  simp only [List.append_assoc, orErr_some, Res.ok_bind, finish_nil, readUint_derInt hz.lt, ha.read,
    readTlv_der' (show key.length < der.maxLen by unfold der.maxLen; omega)]
  rfl

theorem beVal_toBeBytes (x : BoxedUint) : beVal x.toBeBytes = x.val := by
  unfold toBeBytes
  rw [beVal_beBytes, pow256, Nat.mod_eq_of_lt]
  have := x.isLt
  rwa [show 8 * (8 * x.nlimbs) = 64 * x.nlimbs by ring]

/-- The decoder on a version 0 structure: the key is rebuilt from `n`, `e`, `d` and the two primes alone. -/
theorem fromPkcs8Der_eq {a : der.AlgorithmId} {alg : Bytes} (ha : GoodAlg a alg) {n e d p q dp dq qi : Nat}
    (hn : Small n) (he : Small e) (hd : Small d) (hp : Small p) (hq : Small q) (hdp : Small dp) (hdq : Small dq)
    (hqi : Small qi) :
    PrivateKey.fromPkcs8Der (privateKeyInfo alg (rsaPrivateKey n e d p q dp dq qi)) =
      match OddUint.new (stored n) with
      | none => .err .pkcs8
      | some nOdd =>
        uintFromSlice (uintBytes d) ((uintBytes n).length * 8) >>= fun d =>
        uintFromSlice (uintBytes p) ((uintBytes n).length * 8) >>= fun p =>
        uintFromSlice (uintBytes q) ((uintBytes n).length * 8) >>= fun q =>
        mapErrMalformed (PrivateKey.fromComponents nOdd (stored e) d [p, q]) := by
  have hl := (rsaPrivateKey_length hn he hd hp hq hdp hdq hqi).2
  have l1 := uintBytes_length_le_intOctets n
  have l2 := uintBytes_length_le_intOctets e
  have hn' := hn.lt
  have he' := he.lt
  unfold PrivateKey.fromPkcs8Der
  rw [decodePrivateKeyInfo_eq ha hl, Res.ok_bind]
  unfold PrivateKey.tryFromInfo
  simp only
  rw [ha.verify, Res.ok_bind, decodeRsaPrivateKey_eq hn he hd hp hq hdp hdq hqi, Res.ok_bind]
  simp only [Bool.false_eq_true, if_false]
  rw [lenBitsChecked_eq (by omega), Res.ok_bind,
    uintFromSlice_uintBytes (uintBytes_length_pos n) (uintBytes_lt n), Res.ok_bind]
  show (match OddUint.new (stored n) with | none => _ | some n => _) = _
  cases OddUint.new (stored n) with
  | none => rfl
  | some nOdd =>
    simp only
    rw [lenBitsChecked_eq (by omega), Res.ok_bind,
      uintFromSlice_uintBytes (uintBytes_length_pos e) (uintBytes_lt e), Res.ok_bind]
    rfl

/-- The CRT exponent written by the encoder. -/
theorem crtExponent_eq {d p : BoxedUint} (hw : p.prec ≤ d.prec) (hp : 1 < p.val) :
    ∃ x, crtExponent d p = .ok x ∧ x.val = d.val % (p.val - 1) := by
  obtain ⟨p', h1, h2, h3⟩ := widen_exists hw
  obtain ⟨z, h4, h5, h6⟩ := sub_exists (x := p') (y := BoxedUint.one) (by rw [one_val, h2]; omega)
  rw [h2, one_val] at h5
  refine ⟨d.rem z, ?_, ?_⟩
  · unfold crtExponent
    rw [h1, Res.ok_bind, h4, Res.ok_bind, expectNonZero_of_ne (by omega), Res.ok_bind]
  · rw [rem_val _ _ (by omega), h5]

/-- Encoding a private key with two primes. -/
theorem toPkcs8Der_eq (k : PrivateKey) {p q qi : BoxedUint} (hps : k.primes = [p, q]) (hpw : p.prec ≤ k.d.prec)
    (hqw : q.prec ≤ k.d.prec) (hp1 : 1 < p.val) (hq1 : 1 < q.val) (hqi : q.invMod p = some qi) (hn : Small k.pub.n.val)
    (he : Small k.pub.e.val) (hd : Small k.d.val) (hp : Small p.val) (hq : Small q.val)
    (hdp : Small (k.d.val % (p.val - 1))) (hdq : Small (k.d.val % (q.val - 1))) (hqis : Small qi.val) :
    k.toPkcs8Der = .ok (privateKeyInfo rsaEncryptionAlg (rsaPrivateKey k.pub.n.val k.pub.e.val k.d.val p.val q.val
      (k.d.val % (p.val - 1)) (k.d.val % (q.val - 1)) qi.val)) := by
  obtain ⟨x1, hx1, hv1⟩ := crtExponent_eq hpw hp1
  obtain ⟨x2, hx2, hv2⟩ := crtExponent_eq hqw hq1
  obtain ⟨hl1, hl2⟩ := rsaPrivateKey_length hn he hd hp hq hdp hdq hqis
  have h0 : (derInt 0).length = 3 := by decide +kernel
  have h3 := GoodAlg.rsa.length
  have h4 := der_length_le (tag := 0x04) (c := rsaPrivateKey k.pub.n.val k.pub.e.val k.d.val p.val q.val
    (k.d.val % (p.val - 1)) (k.d.val % (q.val - 1)) qi.val) (by omega)
  unfold PrivateKey.toPkcs8Der
  rw [hps, if_neg (by simp)]
  have hp0 : primeAt [p, q] 0 = .ok p := rfl
  have hp1 : primeAt [p, q] 1 = .ok q := rfl
  have hc : k.crtCoefficient = .ok (some qi) := by
    unfold PrivateKey.crtCoefficient
    rw [hps, hp0, Res.ok_bind, hp1, Res.ok_bind, hqi]
  simp only
  rw [hp0, Res.ok_bind, hp1, Res.ok_bind, hx1, Res.ok_bind, hx2, Res.ok_bind, hc, Res.ok_bind]
  simp only
  unfold der.encodeRsaPrivateKey
  simp only [Bool.false_eq_true, if_false]
  rw [encodeUint_zero, Res.ok_bind, encodeUint_eq (beVal_toBeBytes _) hn.lt, Res.ok_bind,
    encodeUint_eq (beVal_toBeBytes _) he.lt, Res.ok_bind, encodeUint_eq (beVal_toBeBytes _) hd.lt, Res.ok_bind,
    encodeUint_eq (beVal_toBeBytes _) hp.lt, Res.ok_bind, encodeUint_eq (beVal_toBeBytes _) hq.lt, Res.ok_bind,
    encodeUint_eq ((beVal_toBeBytes _).trans hv1) hdp.lt, Res.ok_bind,
    encodeUint_eq ((beVal_toBeBytes _).trans hv2) hdq.lt, Res.ok_bind, encodeUint_eq (beVal_toBeBytes _) hqis.lt, Res.ok_bind,
    tlv_eq (by unfold der.maxLen; omega), Res.ok_bind]
  unfold der.encodePrivateKeyInfo
  simp only
  rw [encodeUint_zero, Res.ok_bind, encodeAlgorithmId_rsa, Res.ok_bind]
  show (der.tlv 0x04 (rsaPrivateKey ..) >>= _) = _
  rw [tlv_eq (by unfold der.maxLen; omega), Res.ok_bind,
    tlv_eq (by simp only [List.length_append]; unfold der.maxLen; omega)]
  rfl

theorem octetLen_bounds {n len : Nat} (h1 : 256 ^ len ≤ n) (h2 : n < 256 ^ (len + 1)) : octetLen n = len + 1 := by
  unfold octetLen
  rw [pow256] at h1 h2
  have a := Nat.lt_size.mpr h1
  have b := Nat.size_le.mpr h2
  omega

theorem uintBytes_length {n : Nat} (h : n ≠ 0) : (uintBytes n).length = octetLen n := by
  obtain ⟨len, h1, h2⟩ := exists_len h
  unfold uintBytes
  rw [if_neg h, natOctets_eq len n h1 h2, beBytes_length, octetLen_bounds h1 h2]

theorem lt_octetLen (n : Nat) : n < 256 ^ octetLen n := by
  rw [pow256]
  apply Nat.size_le.mp
  unfold octetLen; omega

theorem octetLen_le {n len : Nat} (h : n < 256 ^ len) : octetLen n ≤ len := by
  rw [pow256] at h
  have := Nat.size_le.mpr h
  unfold octetLen; omega

theorem octetLen_pos {n : Nat} (h : n ≠ 0) : 1 ≤ octetLen n := by
  have := Nat.size_pos.mpr (Nat.pos_of_ne_zero h)
  unfold octetLen; omega

theorem limbsFor_octets (n : Nat) : limbsFor (octetLen n * 8) = max 1 ((n.size + 63) / 64) := by
  unfold limbsFor octetLen
  congr 1
  omega

theorem stored_nlimbs {n : Nat} (h : n ≠ 0) : (stored n).nlimbs = limbsFor (octetLen n * 8) := by
  unfold stored; rw [uintBytes_length h, wrap_nlimbs]

/-- A number below `2^4096` decodes into at most 64 limbs. -/
theorem stored_prec_le {n : Nat} (h0 : n ≠ 0) (h : n < 2 ^ 4096) : (stored n).prec ≤ 4096 := by
  have := Nat.size_le.mpr h
  unfold prec
  rw [stored_nlimbs h0, limbsFor_octets]
  omega

/-- The decoder on fields that fit the modulus length. -/
theorem fromPkcs8Der_fits {a : der.AlgorithmId} {alg : Bytes} (ha : GoodAlg a alg) {n e d p q dp dq qi : Nat}
    (hodd : n % 2 = 1) (hn : octetLen n < 2 ^ 20) (he : Small e) (hdp : Small dp) (hdq : Small dq) (hqi : Small qi)
    (hd : d < 256 ^ octetLen n) (hp : p < 256 ^ octetLen n) (hq : q < 256 ^ octetLen n) :
    PrivateKey.fromPkcs8Der (privateKeyInfo alg (rsaPrivateKey n e d p q dp dq qi)) =
      mapErrMalformed (PrivateKey.fromComponents ⟨stored n, by rw [stored_val]; exact hodd⟩ (stored e)
        (wrap (stored n).nlimbs d) [wrap (stored n).nlimbs p, wrap (stored n).nlimbs q]) := by
  have h0 : n ≠ 0 := by omega
  have hL := octetLen_pos h0
  rw [fromPkcs8Der_eq ha (Small.of_lt hn (lt_octetLen n)) he (Small.of_lt hn hd) (Small.of_lt hn hp) (Small.of_lt hn hq)
    hdp hdq hqi]
  have ho : OddUint.new (stored n) = some ⟨stored n, by rw [stored_val]; exact hodd⟩ := by
    unfold OddUint.new
    rw [dif_pos (by rw [stored_val]; exact hodd)]
  rw [ho]
  simp only
  rw [uintBytes_length h0, uintFromSlice_uintBytes hL hd, Res.ok_bind, uintFromSlice_uintBytes hL hp, Res.ok_bind,
    uintFromSlice_uintBytes hL hq, Res.ok_bind, stored_nlimbs h0]

/-- The decoder refuses a private exponent longer than the modulus. -/
theorem fromPkcs8Der_wide_d {a : der.AlgorithmId} {alg : Bytes} (ha : GoodAlg a alg) {n e d p q dp dq qi : Nat}
    (hn : Small n) (h0 : n ≠ 0) (he : Small e) (hd : Small d) (hp : Small p) (hq : Small q) (hdp : Small dp)
    (hdq : Small dq) (hqi : Small qi) (hw : 256 ^ octetLen n ≤ d) :
    PrivateKey.fromPkcs8Der (privateKeyInfo alg (rsaPrivateKey n e d p q dp dq qi)) = .err .pkcs8 := by
  rw [fromPkcs8Der_eq ha hn he hd hp hq hdp hdq hqi]
  cases OddUint.new (stored n) with
  | none => rfl
  | some nOdd =>
    simp only
    rw [uintFromSlice_too_long]
    · rfl
    · rw [uintBytes_length h0]
      have h1 := uintBytes_lt d
      have h2 := (Nat.pow_lt_pow_iff_right (by norm_num : 1 < 256)).mp (lt_of_le_of_lt hw h1)
      unfold divCeil; omega

theorem uintFromSlice_ok {b : Bytes} {bits : Nat} {x : BoxedUint} (h : uintFromSlice b bits = .ok x) :
    b.length ≤ divCeil bits 8 ∧ x = wrap (limbsFor bits) (beVal b) := by
  unfold uintFromSlice at h
  cases hf : fromBeSlice b bits with
  | ok y =>
    rw [hf] at h
    obtain rfl := Res.ok.inj h
    obtain ⟨h1, _, h3⟩ := fromBeSlice_eq_ok_iff.mp hf
    exact ⟨h1, h3⟩
  | err e => rw [hf] at h; cases h
  | panic e => rw [hf] at h; cases h
  | loop => rw [hf] at h; cases h

/-- What an accepted private key encoding holds. -/
theorem tryFromInfo_ok {i : der.PrivateKeyInfo} {k : PrivateKey} (h : PrivateKey.tryFromInfo i = .ok k) :
    verifyAlgorithmId i.algorithm = .ok () ∧
    ∃ (n e d p q dp dq qi : Nat) (nOdd : OddUint), i.privateKey = rsaPrivateKey n e d p q dp dq qi ∧
      nOdd.toBoxedUint = stored n ∧ n ≠ 0 ∧
      d < 256 ^ octetLen n ∧ p < 256 ^ octetLen n ∧ q < 256 ^ octetLen n ∧
      PrivateKey.fromComponents nOdd (stored e) (wrap (stored n).nlimbs d)
        [wrap (stored n).nlimbs p, wrap (stored n).nlimbs q] = .ok k := by
  unfold PrivateKey.tryFromInfo at h
  rw [Res.bind_eq_ok] at h
  obtain ⟨_, hv, h⟩ := h
  refine ⟨hv, ?_⟩
  rw [Res.bind_eq_ok] at h
  obtain ⟨pk, hpk, h⟩ := h
  by_cases hm : pk.multi = true
  · rw [if_pos hm] at h; cases h
  rw [if_neg hm] at h
  unfold der.decodeRsaPrivateKey at hpk
  rw [Res.bind_eq_ok] at hpk
  obtain ⟨⟨c, r⟩, h1, hpk⟩ := hpk
  rw [orErr_ok] at h1
  simp only at hpk
  rw [Res.bind_eq_ok] at hpk
  obtain ⟨_, hf, hpk⟩ := hpk
  rw [finish_ok] at hf
  rw [Res.bind_eq_ok] at hpk
  obtain ⟨⟨vb, c0⟩, g0, hpk⟩ := hpk
  simp only at hpk
  rw [Res.bind_eq_ok] at hpk
  obtain ⟨⟨nb, c1⟩, g1, hpk⟩ := hpk
  simp only at hpk
  rw [Res.bind_eq_ok] at hpk
  obtain ⟨⟨eb, c2⟩, g2, hpk⟩ := hpk
  simp only at hpk
  rw [Res.bind_eq_ok] at hpk
  obtain ⟨⟨db, c3⟩, g3, hpk⟩ := hpk
  simp only at hpk
  rw [Res.bind_eq_ok] at hpk
  obtain ⟨⟨pb, c4⟩, g4, hpk⟩ := hpk
  simp only at hpk
  rw [Res.bind_eq_ok] at hpk
  obtain ⟨⟨qb, c5⟩, g5, hpk⟩ := hpk
  simp only at hpk
  rw [Res.bind_eq_ok] at hpk
  obtain ⟨⟨dpb, c6⟩, g6, hpk⟩ := hpk
  simp only at hpk
  rw [Res.bind_eq_ok] at hpk
  obtain ⟨⟨dqb, c7⟩, g7, hpk⟩ := hpk
  simp only at hpk
  rw [Res.bind_eq_ok] at hpk
  obtain ⟨⟨qib, c8⟩, g8, hpk⟩ := hpk
  simp only at hpk
  obtain ⟨_, hv0, e0⟩ := readUint_ok g0
  obtain ⟨hl1, hn1, e1⟩ := readUint_ok g1
  obtain ⟨hl2, hn2, e2⟩ := readUint_ok g2
  obtain ⟨_, hn3, e3⟩ := readUint_ok g3
  obtain ⟨_, hn4, e4⟩ := readUint_ok g4
  obtain ⟨_, hn5, e5⟩ := readUint_ok g5
  obtain ⟨_, _, e6⟩ := readUint_ok g6
  obtain ⟨_, _, e7⟩ := readUint_ok g7
  obtain ⟨_, _, e8⟩ := readUint_ok g8
  obtain ⟨_, hb⟩ := readTlv_some h1
  have hcase : vb = [0] ∧ c8 = [] ∧ pk = ⟨false, nb, eb, db, pb, qb, dpb, dqb, qib⟩ := by
    by_cases h0 : vb = [0]
    · rw [if_pos h0, Res.bind_eq_ok] at hpk
      obtain ⟨_, hf8, hpk⟩ := hpk
      exact ⟨h0, finish_ok.mp hf8, (Res.ok.inj hpk).symm⟩
    · rw [if_neg h0] at hpk
      by_cases h1 : vb = [1]
      · rw [if_pos h1, Res.bind_eq_ok] at hpk
        obtain ⟨_, _, hpk⟩ := hpk
        rw [Res.bind_eq_ok] at hpk
        obtain ⟨_, _, hpk⟩ := hpk
        obtain rfl := Res.ok.inj hpk
        exact absurd rfl hm
      · rw [if_neg h1] at hpk; cases hpk
  obtain ⟨rfl, rfl, rfl⟩ := hcase
  simp only at h
  have l1 := uintBytes_length_le_intOctets (beVal nb)
  have l2 := uintBytes_length_le_intOctets (beVal eb)
  rw [← hn1] at l1
  rw [← hn2] at l2
  rw [lenBitsChecked_eq (by omega), Res.ok_bind] at h
  have s1 : uintFromSlice nb (nb.length * 8) = .ok (stored (beVal nb)) := by
    have := uintFromSlice_uintBytes (uintBytes_length_pos (beVal nb)) (uintBytes_lt (beVal nb))
    rw [← hn1] at this
    rw [this]; unfold stored; rw [← hn1]
  have s2 : uintFromSlice eb (eb.length * 8) = .ok (stored (beVal eb)) := by
    have := uintFromSlice_uintBytes (uintBytes_length_pos (beVal eb)) (uintBytes_lt (beVal eb))
    rw [← hn2] at this
    rw [this]; unfold stored; rw [← hn2]
  rw [s1, Res.ok_bind] at h
  cases ho : OddUint.new (stored (beVal nb)) with
  | none => rw [ho] at h; cases h
  | some nOdd =>
    rw [ho] at h
    simp only at h
    rw [lenBitsChecked_eq (by omega), Res.ok_bind, s2, Res.ok_bind, Res.bind_eq_ok] at h
    obtain ⟨d', t1, h⟩ := h
    rw [Res.bind_eq_ok] at h
    obtain ⟨p', t2, h⟩ := h
    rw [Res.bind_eq_ok] at h
    obtain ⟨q', t3, h⟩ := h
    have hno : nOdd.toBoxedUint = stored (beVal nb) := by
      unfold OddUint.new at ho
      split at ho
      · obtain rfl := Option.some.inj ho; rfl
      · cases ho
    have hn0 : beVal nb ≠ 0 := by
      intro h0
      have := nOdd.odd
      rw [hno, stored_val, h0] at this
      omega
    have hln : nb.length = octetLen (beVal nb) := by
      have := uintBytes_length hn0
      rwa [← hn1] at this
    have fit : ∀ {x : Bytes} {y : BoxedUint}, uintFromSlice x (nb.length * 8) = .ok y →
        beVal x < 256 ^ octetLen (beVal nb) ∧ y = wrap (stored (beVal nb)).nlimbs (beVal x) := by
      intro x y hx
      obtain ⟨a1, a2⟩ := uintFromSlice_ok hx
      refine ⟨lt_of_lt_of_le (beVal_lt x) (Nat.pow_le_pow_right (by norm_num) ?_), ?_⟩
      · rw [← hln]; unfold divCeil at a1; omega
      · rw [a2, stored_nlimbs hn0, hln]
    obtain ⟨b1, rfl⟩ := fit t1
    obtain ⟨b2, rfl⟩ := fit t2
    obtain ⟨b3, rfl⟩ := fit t3
    refine ⟨beVal nb, beVal eb, beVal db, beVal pb, beVal qb, beVal dpb, beVal dqb, beVal qib, nOdd, ?_, hno, hn0, b1, b2,
      b3, mapErrMalformed_ok.mp h⟩
    rw [hb, hf, e0, e1, e2, e3, e4, e5, e6, e7, e8]
    simp only [List.append_nil]
    unfold rsaPrivateKey
    simp only [List.append_assoc]
    rfl

theorem fromPkcs8Der_ok {b : Bytes} {k : PrivateKey} (h : PrivateKey.fromPkcs8Der b = .ok k) :
    ∃ i, der.decodePrivateKeyInfo b = .ok i ∧ PrivateKey.tryFromInfo i = .ok k := by
  unfold PrivateKey.fromPkcs8Der at h
  rwa [Res.bind_eq_ok] at h

theorem stored_nlimbs_le (x : BoxedUint) (h : x.val ≠ 0) : (stored x.val).nlimbs ≤ x.nlimbs := by
  have h1 := Nat.size_le.mpr x.isLt
  have h2 := nlimbs_pos_of_val_pos x (Nat.pos_of_ne_zero h)
  rw [stored_nlimbs h, limbsFor_octets]
  omega

theorem stored_nlimbs_pos (v : Nat) : 1 ≤ (stored v).nlimbs := by
  unfold stored limbsFor; rw [wrap_nlimbs]; omega

/-- Small values fit the width the decoder uses for a modulus. -/
theorem lt_stored {n v : Nat} (h0 : n ≠ 0) (h : v < 256 ^ octetLen n) : v < 2 ^ (64 * (stored n).nlimbs) := by
  rw [stored_nlimbs h0]; exact lt_limbsFor_bytes h

/-- The components of a validated two-prime key are accepted again after having gone through the decoder's storage. -/
theorem fromComponents_stored (k : PrivateKey) {p q : BoxedUint} (hv : k.validate = .ok ()) (hps : k.primes = [p, q])
    (hd : k.d.val < 256 ^ octetLen k.pub.n.val) (hp : p.val < 256 ^ octetLen k.pub.n.val)
    (hq : q.val < 256 ^ octetLen k.pub.n.val) (hodd : (stored k.pub.n.val).val % 2 = 1) :
    ∃ k', PrivateKey.fromComponents ⟨stored k.pub.n.val, hodd⟩ (stored k.pub.e.val)
        (wrap (stored k.pub.n.val).nlimbs k.d.val)
        [wrap (stored k.pub.n.val).nlimbs p.val, wrap (stored k.pub.n.val).nlimbs q.val] = .ok k' ∧
      k'.validate = .ok () := by
  have h0 : k.pub.n.val ≠ 0 := by intro h; rw [stored_val, h] at hodd; omega
  have hl : 1 ≤ k.pub.n.nlimbs := nlimbs_pos_of_val_pos _ (Nat.pos_of_ne_zero h0)
  obtain ⟨hc, hprod, hx⟩ := (PrivateKey.validate_ok_iff k hl).mp hv
  obtain ⟨c1, c2, c3, c4, c5, c6⟩ := (checkPublic_ok _).mp hc
  have hle := stored_nlimbs_le k.pub.n h0
  rw [hps] at hx hprod
  obtain ⟨_, x1, x2⟩ := hx p (by simp)
  obtain ⟨_, y1, y2⟩ := hx q (by simp)
  have vd := wrap_val_of_lt (lt_stored h0 hd)
  have vp := wrap_val_of_lt (lt_stored h0 hp)
  have vq := wrap_val_of_lt (lt_stored h0 hq)
  have hs := stored_nlimbs_pos k.pub.n.val
  have hpow : 2 ^ (stored k.pub.n.val).prec ∣ 2 ^ k.pub.n.prec := pow_dvd_pow _ (by unfold prec; omega)
  obtain ⟨k', hk'⟩ := PrivateKey.fromComponents_ok_of_validate (n := ⟨stored k.pub.n.val, hodd⟩) (e := stored k.pub.e.val)
    (d := wrap (stored k.pub.n.val).nlimbs k.d.val) (p := wrap (stored k.pub.n.val).nlimbs p.val)
    (q := wrap (stored k.pub.n.val).nlimbs q.val) (rest := []) hs le_rfl le_rfl (by
      rw [PrivateKey.validate_ok_iff _ hs]
      refine ⟨?_, ?_, ?_⟩
      · rw [checkPublic_ok]
        simp only [stored_val]
        refine ⟨?_, c2, c3, c4, c5, c6⟩
        have : (stored k.pub.n.val).prec ≤ k.pub.n.prec := by unfold prec; omega
        omega
      · simp only [List.map_cons, List.map_nil, List.prod_cons, List.prod_nil, mul_one, vp, vq, stored_val] at hprod ⊢
        have := congrArg (· % 2 ^ (stored k.pub.n.val).prec) hprod
        simp only [Nat.mod_mod_of_dvd _ hpow] at this
        rw [this, Nat.mod_eq_of_lt]
        have := (stored k.pub.n.val).isLt
        rwa [stored_val] at this
      · intro r hr
        have hw : (stored k.pub.n.val).nlimbs ≤ limbsFor (2 * (64 * (stored k.pub.n.val).nlimbs)) := by
          unfold limbsFor; omega
        simp only [List.mem_cons, List.not_mem_nil, or_false] at hr
        rcases hr with rfl | rfl
        · refine ⟨?_, by rw [vp]; exact x1, ?_⟩
          · unfold prec; simp only [wrap_nlimbs]; omega
          · simp only [vp, vd, stored_val]; exact x2
        · refine ⟨?_, by rw [vq]; exact y1, ?_⟩
          · unfold prec; simp only [wrap_nlimbs]; omega
          · simp only [vq, vd, stored_val]; exact y2)
  refine ⟨k', hk', ?_⟩
  exact (PrivateKey.fromComponents_ok (by simp) hk').2.2.2.2.2.2.1

end RSA
