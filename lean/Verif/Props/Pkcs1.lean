import Verif.Model.Pkcs1
import Verif.Props.Encoding

/-! C71: the bare PKCS#1 documents (`to_pkcs1_der`, `from_pkcs1_der`). -/
namespace RSA
open BoxedUint Spec

theorem encodeUint_uintBytes {v : Nat} (h : Small v) : der.encodeUint (uintBytes v) = .ok (derInt v) := by
  have hne : uintBytes v ≠ [] := by
    intro h0
    have := uintBytes_length_pos v
    rw [h0] at this
    exact absurd this (by decide)
  have := encodeUint_eq (uintBytes_beVal v) h.lt
  rwa [uintRef_eq _ hne, uintBytes_beVal] at this

theorem encodeRsaPrivateKey_eq {n e d p q dp dq qi : Nat} (hn : Small n) (he : Small e) (hd : Small d) (hp : Small p)
    (hq : Small q) (hdp : Small dp) (hdq : Small dq) (hqi : Small qi) :
    der.encodeRsaPrivateKey ⟨false, uintBytes n, uintBytes e, uintBytes d, uintBytes p, uintBytes q, uintBytes dp,
      uintBytes dq, uintBytes qi⟩ = .ok (rsaPrivateKey n e d p q dp dq qi) := by
  have hl := (rsaPrivateKey_length hn he hd hp hq hdp hdq hqi).1
  unfold der.encodeRsaPrivateKey
  simp only [Bool.false_eq_true, if_false]
  rw [encodeUint_zero, Res.ok_bind, encodeUint_uintBytes hn, Res.ok_bind, encodeUint_uintBytes he, Res.ok_bind,
    encodeUint_uintBytes hd, Res.ok_bind, encodeUint_uintBytes hp, Res.ok_bind, encodeUint_uintBytes hq, Res.ok_bind,
    encodeUint_uintBytes hdp, Res.ok_bind, encodeUint_uintBytes hdq, Res.ok_bind, encodeUint_uintBytes hqi, Res.ok_bind,
    tlv_eq (by unfold der.maxLen; omega)]
  rfl

theorem encodeRsaPublicKey_eq {n e : Nat} (hn : Small n) (he : Small e) :
    der.encodeRsaPublicKey ⟨uintBytes n, uintBytes e⟩ = .ok (rsaPublicKey n e) := by
  have h1 := hn.derInt
  have h2 := he.derInt
  unfold der.encodeRsaPublicKey
  rw [encodeUint_uintBytes hn, Res.ok_bind, encodeUint_uintBytes he, Res.ok_bind,
    tlv_eq (by rw [List.length_append]; unfold der.maxLen; omega)]
  rfl

/-- Unwrapping a PKCS#8 document that holds a version 0 structure gives that structure. -/
theorem toPkcs1Der_of_pkcs8 {k : PrivateKey} {n e d p q dp dq qi : Nat} (hn : Small n) (he : Small e) (hd : Small d)
    (hp : Small p) (hq : Small q) (hdp : Small dp) (hdq : Small dq) (hqi : Small qi)
    (h : k.toPkcs8Der = .ok (privateKeyInfo rsaEncryptionAlg (rsaPrivateKey n e d p q dp dq qi))) :
    k.toPkcs1Der = .ok (rsaPrivateKey n e d p q dp dq qi) := by
  unfold PrivateKey.toPkcs1Der
  rw [h, Res.ok_bind, decodePrivateKeyInfo_eq GoodAlg.rsa (rsaPrivateKey_length hn he hd hp hq hdp hdq hqi).2, Res.ok_bind]
  simp only
  rw [show assertAlgorithmOid der.algorithmId der.rsaEncryptionOid = .ok () from by decide, Res.ok_bind,
    decodeRsaPrivateKey_eq hn he hd hp hq hdp hdq hqi, Res.ok_bind, encodeRsaPrivateKey_eq hn he hd hp hq hdp hdq hqi]

theorem toPkcs1Der_public {k : PublicKey} (hn : Small k.n.val) (he : Small k.e.val) :
    k.toPkcs1Der = .ok (rsaPublicKey k.n.val k.e.val) := by
  unfold PublicKey.toPkcs1Der
  rw [toPublicKeyDer_eq k hn he, Res.ok_bind, decodeSpki_eq GoodAlg.rsa (rsaPublicKey_length hn he), Res.ok_bind]
  simp only
  rw [show assertAlgorithmOid der.algorithmId der.rsaEncryptionOid = .ok () from by decide, Res.ok_bind,
    decodeRsaPublicKey_eq hn he, Res.ok_bind, encodeRsaPublicKey_eq hn he]

/-- What the public key decoder makes of the inner structure. -/
theorem tryFromSpki_ok {i : der.SubjectPublicKeyInfo} {k : PublicKey} (h : PublicKey.tryFromSpki i = .ok k) :
    ∃ n e, i.subjectPublicKey = rsaPublicKey n e ∧ PublicKey.new (stored n) (stored e) = .ok k := by
  unfold PublicKey.tryFromSpki at h
  rw [Res.bind_eq_ok] at h
  obtain ⟨_, hv, h⟩ := h
  by_cases hu : i.unusedBits ≠ 0
  · rw [if_pos hu] at h; cases h
  rw [if_neg hu, Res.bind_eq_ok] at h
  obtain ⟨pk, hpk, h⟩ := h
  unfold der.decodeRsaPublicKey at hpk
  rw [Res.bind_eq_ok] at hpk
  obtain ⟨⟨d, r⟩, h4, hpk⟩ := hpk
  rw [orErr_ok] at h4
  simp only at hpk
  rw [Res.bind_eq_ok] at hpk
  obtain ⟨_, hf, hpk⟩ := hpk
  rw [finish_ok] at hf
  rw [Res.bind_eq_ok] at hpk
  obtain ⟨⟨nb, d1⟩, h5, hpk⟩ := hpk
  simp only at hpk
  rw [Res.bind_eq_ok] at hpk
  obtain ⟨⟨eb, d2⟩, h6, hpk⟩ := hpk
  simp only at hpk
  rw [Res.bind_eq_ok] at hpk
  obtain ⟨_, hf2, hpk⟩ := hpk
  rw [finish_ok] at hf2
  subst hf hf2
  obtain rfl := Res.ok.inj hpk
  obtain ⟨hl1, hn1, hd⟩ := readUint_ok h5
  obtain ⟨hl2, hn2, hd1⟩ := readUint_ok h6
  obtain ⟨_, hbs⟩ := readTlv_some h4
  refine ⟨beVal nb, beVal eb, ?_, ?_⟩
  · rw [hbs, hd, hd1]
    simp only [List.append_nil]
    rfl
  · simp only at h
    have l1 := uintBytes_length_le_intOctets (beVal nb)
    have l2 := uintBytes_length_le_intOctets (beVal eb)
    rw [← hn1] at l1
    rw [← hn2] at l2
    rw [lenBitsChecked_eq (by omega), Res.ok_bind] at h
    have e1 : uintFromSlice nb (nb.length * 8) = .ok (stored (beVal nb)) := by
      have := uintFromSlice_uintBytes (uintBytes_length_pos (beVal nb)) (uintBytes_lt (beVal nb))
      rw [← hn1] at this
      rw [this]; unfold stored; rw [← hn1]
    have e2 : uintFromSlice eb (eb.length * 8) = .ok (stored (beVal eb)) := by
      have := uintFromSlice_uintBytes (uintBytes_length_pos (beVal eb)) (uintBytes_lt (beVal eb))
      rw [← hn2] at this
      rw [this]; unfold stored; rw [← hn2]
    rw [e1, Res.ok_bind, lenBitsChecked_eq (by omega), Res.ok_bind, e2, Res.ok_bind] at h
    exact mapErrMalformed_ok.mp h

/-- C71: reading a PKCS#1 document is reading the PKCS#8 (SPKI) document that wraps it under rsaEncryption; both agree on
every byte string, well-formed or not, including in how they fail. -/
theorem C71_same_as_wrapped (b : Bytes) (hb : b.length ≤ 2 ^ 24) :
    PrivateKey.fromPkcs1Der b = PrivateKey.fromPkcs8Der (privateKeyInfo rsaEncryptionAlg b) ∧
    PublicKey.fromPkcs1Der b = PublicKey.fromPublicKeyDer (subjectPublicKeyInfo rsaEncryptionAlg b) := by
  constructor
  · unfold PrivateKey.fromPkcs1Der PrivateKey.fromPkcs8Der
    rw [if_pos (by unfold der.maxLen; omega), decodePrivateKeyInfo_eq GoodAlg.rsa hb, Res.ok_bind]
  · unfold PublicKey.fromPkcs1Der PublicKey.fromPublicKeyDer
    rw [if_pos (by unfold der.maxLen; omega), decodeSpki_eq GoodAlg.rsa hb, Res.ok_bind]

example : ([0x30, 0x06, 0x02, 0x01, 0x05, 0x02, 0x01, 0x03] : Bytes).length ≤ 2 ^ 24 ∧
    (match PublicKey.fromPkcs1Der [0x30, 0x06, 0x02, 0x01, 0x05, 0x02, 0x01, 0x03] with
      | .ok k => decide (k.n.val = 5 ∧ k.e.val = 3)
      | _ => false) = true := by decide +kernel

/-- C71: a byte string is accepted as a PKCS#1 public key exactly if it is the strict DER encoding of an acceptable modulus
and exponent; the decoder always returns; a decoded key encodes to the very bytes it came from. -/
theorem C71_public_exact (b : Bytes) :
    (PublicKey.fromPkcs1Der b).Returns ∧
    ((∃ k, PublicKey.fromPkcs1Der b = .ok k) ↔
      ∃ n e, b = rsaPublicKey n e ∧ n < 2 ^ 4096 ∧ e < n ∧ n % 2 = 1 ∧ e % 2 = 1 ∧ 2 ≤ e ∧ e ≤ 2 ^ 33 - 1) ∧
    (∀ k, PublicKey.fromPkcs1Der b = .ok k →
      b = rsaPublicKey k.n.val k.e.val ∧ k.Coherent ∧ checkPublic k = .ok () ∧ k.toPkcs1Der = .ok b) := by
  have main : ∀ k, PublicKey.fromPkcs1Der b = .ok k →
      b = rsaPublicKey k.n.val k.e.val ∧ k.Coherent ∧ checkPublic k = .ok () ∧ k.toPkcs1Der = .ok b := by
    intro k h
    unfold PublicKey.fromPkcs1Der at h
    by_cases hl : b.length + 1 < der.maxLen
    · rw [if_pos hl] at h
      obtain ⟨n, e, hb, hk⟩ := tryFromSpki_ok h
      simp only at hb
      subst hb
      obtain ⟨hv, h1, h2, hc⟩ := publicKey_new_some hk
      have hn : k.n.val = n := by rw [h1, stored_val]
      have he : k.e.val = e := by rw [h2, stored_val]
      subst hn he
      obtain ⟨s1, s2⟩ := public_small hv
      exact ⟨rfl, hc, hv, toPkcs1Der_public s1 s2⟩
    · rw [if_neg hl] at h; cases h
  refine ⟨?_, ⟨?_, ?_⟩, main⟩
  · unfold PublicKey.fromPkcs1Der
    split
    · exact tryFromSpki_ret _
    · trivial
  · rintro ⟨k, h⟩
    obtain ⟨hb, _, hv, _⟩ := main k h
    obtain ⟨c1, c2⟩ := (checkPublic_ok _).mp hv
    exact ⟨k.n.val, k.e.val, hb, lt_of_lt_of_le k.n.isLt (Nat.pow_le_pow_right (by norm_num) c1), c2⟩
  · rintro ⟨n, e, rfl, hn, h1, h2, h3, h4, h5⟩
    have s1 : Small n := Small.of_lt (len := 512) (by norm_num) (by rw [pow256]; exact hn)
    have s2 : Small e := Small.of_lt (len := 5) (by norm_num) (by omega)
    rw [(C71_same_as_wrapped _ (rsaPublicKey_length s1 s2)).2]
    exact (C56_public_decoding_strict _).2.1.mpr ⟨n, e, _, rfl, Or.inl rfl, hn, h1, h2, h3, h4, h5⟩

/-- A trailing byte, a non-minimal integer and a negative modulus are refused. -/
example : PublicKey.fromPkcs1Der [0x30, 0x06, 0x02, 0x01, 0x05, 0x02, 0x01, 0x03, 0x00] = .err .pkcs8 ∧
    PublicKey.fromPkcs1Der [0x30, 0x07, 0x02, 0x02, 0x00, 0x05, 0x02, 0x01, 0x03] = .err .pkcs8 ∧
    PublicKey.fromPkcs1Der [0x30, 0x06, 0x02, 0x01, 0x85, 0x02, 0x01, 0x03] = .err .pkcs8 := by decide +kernel

/-- C71: an accepted public key written as PKCS#1 is the RFC 8017 structure of its two numbers and reads back as an equal
key. -/
theorem C71_public_round_trip (k : PublicKey) (hc : k.Coherent) (hv : checkPublic k = .ok ()) :
    k.toPkcs1Der = .ok (rsaPublicKey k.n.val k.e.val) ∧
    ∃ k', PublicKey.fromPkcs1Der (rsaPublicKey k.n.val k.e.val) = .ok k' ∧ k'.eq k = true ∧ k'.Coherent := by
  obtain ⟨hn, he⟩ := public_small hv
  obtain ⟨_, k', h1, h2, h3, _⟩ := C37_public_round_trip k hc hv
  refine ⟨toPkcs1Der_public hn he, k', ?_, h2, h3⟩
  rw [(C71_same_as_wrapped _ (rsaPublicKey_length hn he)).2, h1]

example : Ex.pub.Coherent ∧ checkPublic Ex.pub = .ok () := ⟨rfl, by decide +kernel⟩

/-- C71: a validated key with two coprime primes is written as exactly the version 0 structure of RFC 8017 A.1.2. -/
theorem C71_private_encoding_exact (k : PrivateKey) (p q : BoxedUint) (hv : k.validate = .ok ())
    (hps : k.primes = [p, q]) (hpw : p.prec ≤ k.d.prec) (hqw : q.prec ≤ k.d.prec) (hd : k.d.prec < 2 ^ 23)
    (hco : Nat.Coprime q.val p.val) :
    ∃ qi, qi < p.val ∧ qi * q.val % p.val = 1 ∧
      k.toPkcs1Der = .ok (rsaPrivateKey k.pub.n.val k.pub.e.val k.d.val p.val q.val
        (k.d.val % (p.val - 1)) (k.d.val % (q.val - 1)) qi) := by
  obtain ⟨hodd, hn, he⟩ := small_of_validate hv
  obtain ⟨qi, h1, h2, h3⟩ := C55_private_encoding_exact k p q hv hps hpw hqw hd hco
  have sm : ∀ v, v < 2 ^ k.d.prec → Small v := by
    intro v hv
    refine Small.of_lt (len := 8 * k.d.nlimbs) (by unfold prec at hd; omega) ?_
    rw [pow256]; rwa [show 8 * (8 * k.d.nlimbs) = k.d.prec by unfold prec; ring]
  have lp : p.val < 2 ^ k.d.prec := lt_of_lt_of_le p.isLt (Nat.pow_le_pow_right (by norm_num) hpw)
  have lq : q.val < 2 ^ k.d.prec := lt_of_lt_of_le q.isLt (Nat.pow_le_pow_right (by norm_num) hqw)
  refine ⟨qi, h1, h2, toPkcs1Der_of_pkcs8 (Small.of_lt (by omega) (lt_octetLen _)) he (sm _ k.d.isLt) (sm _ lp) (sm _ lq)
    (sm _ (lt_of_le_of_lt (Nat.mod_le _ _) k.d.isLt)) (sm _ (lt_of_le_of_lt (Nat.mod_le _ _) k.d.isLt)) (sm _ (by omega)) h3⟩

example : Ex.key.validate = .ok () ∧ Nat.Coprime (2 ^ 127 - 1) (2 ^ 89 - 1) ∧
    (wrap 2 (2 ^ 127 - 1)).prec ≤ Ex.key.d.prec ∧ Ex.key.d.prec < 2 ^ 23 := by decide +kernel

/-- C71: whatever is accepted as a PKCS#1 private key is the strict DER of a version 0 structure whose numbers the key
holds; the key is validated. If its primes are coprime, writing it gives a document that reads back as the identical key,
and gives the original bytes if the three CRT fields (which are ignored on reading) were the correct ones. -/
theorem C71_private_decoding_sound (b : Bytes) (k : PrivateKey) (h : PrivateKey.fromPkcs1Der b = .ok k) :
    k.validate = .ok () ∧ k.pub.Coherent ∧
    ∃ p q dp dq qi, k.primes = [p, q] ∧
      b = rsaPrivateKey k.pub.n.val k.pub.e.val k.d.val p.val q.val dp dq qi ∧
      (Nat.Coprime q.val p.val → ∃ b', k.toPkcs1Der = .ok b' ∧ PrivateKey.fromPkcs1Der b' = .ok k ∧
        (dp = k.d.val % (p.val - 1) → dq = k.d.val % (q.val - 1) → qi < p.val → qi * q.val % p.val = 1 → b' = b)) := by
  unfold PrivateKey.fromPkcs1Der at h
  by_cases hl : b.length < der.maxLen
  case neg => rw [if_neg hl] at h; cases h
  rw [if_pos hl] at h
  obtain ⟨_, n, e, d, p, q, dp, dq, qi, nOdd, hpk, hno, h0, hd, hp, hq, hk⟩ := tryFromInfo_ok h
  simp only at hpk
  obtain ⟨g1, g2, g3, g4, g5, _, g7, _, _⟩ := PrivateKey.fromComponents_ok (by simp) hk
  have hn : k.pub.n.val = n := by rw [g1, hno, stored_val]
  have he : k.pub.e.val = e := by rw [g2, stored_val]
  have hdv : k.d.val = d := by rw [g4, wrap_val_of_lt (lt_stored h0 hd)]
  have hpv := wrap_val_of_lt (lt_stored h0 hp)
  have hqv := wrap_val_of_lt (lt_stored h0 hq)
  refine ⟨g7, by unfold PublicKey.Coherent; rw [g3, g1], _, _, dp, dq, qi, g5, ?_, ?_⟩
  · rw [hpk, hn, he, hdv, hpv, hqv]
  · intro hco
    obtain ⟨c1, _⟩ := (checkPublic_ok _).mp (checkPublic_of_validate g7)
    have hodd := nOdd.odd
    rw [hno, stored_val] at hodd
    have hdp : k.d.prec = (stored n).prec := by rw [g4]; rfl
    have hd23 : k.d.prec < 2 ^ 23 := by rw [hdp]; rw [g1, hno] at c1; omega
    obtain ⟨qi', q1, q2, hb⟩ := C71_private_encoding_exact k _ _ g7 g5 (by rw [hdp]; exact le_rfl)
      (by rw [hdp]; exact le_rfl) hd23 hco
    obtain ⟨_, hs, hes⟩ := small_of_validate g7
    rw [hpv, hqv] at hb q2 ⊢
    rw [hpv] at q1
    rw [hn, he, hdv] at hb
    rw [he] at hes
    rw [hn] at hs
    have sm : ∀ v, v < 256 ^ octetLen n → Small v := fun v hv => Small.of_lt (by omega) hv
    have s1 := sm _ (lt_of_le_of_lt (Nat.mod_le d (p - 1)) hd)
    have s2 := sm _ (lt_of_le_of_lt (Nat.mod_le d (q - 1)) hd)
    have s3 : Small qi' := sm _ (by omega)
    refine ⟨_, hb, ?_, ?_⟩
    · rw [(C71_same_as_wrapped _ (rsaPrivateKey_length (sm _ (lt_octetLen n)) hes (sm _ hd) (sm _ hp) (sm _ hq) s1 s2 s3).2).1,
        fromPkcs8Der_fits GoodAlg.rsa hodd (by omega) hes s1 s2 s3 hd hp hq]
      have : nOdd = ⟨stored n, by rw [stored_val]; exact hodd⟩ := by
        obtain ⟨m, hm⟩ := nOdd
        simp only at hno
        subst hno
        rfl
      rw [← this, hk]
      rfl
    · intro e1 e2 e3 e4
      have hqq : qi' = qi := by
        have hco' : Nat.Coprime q p := by rwa [hqv, hpv] at hco
        have hm : qi' * q ≡ qi * q [MOD p] := by
          unfold Nat.ModEq; rw [q2, e4]
        have := Nat.ModEq.cancel_right_of_coprime (Nat.coprime_comm.mp hco') hm
        rwa [Nat.ModEq, Nat.mod_eq_of_lt q1, Nat.mod_eq_of_lt e3] at this
      rw [hpk, e1, e2, hqq, hdv]

example : (match PrivateKey.fromPkcs1Der (rsaPrivateKey ((2 ^ 89 - 1) * (2 ^ 127 - 1)) 65537 Ex.dVal (2 ^ 89 - 1)
      (2 ^ 127 - 1) 1 2 3) with
    | .ok k => decide (k.d.val = Ex.dVal)
    | _ => false) = true := by decide +kernel

/-- C71: well-formed keys with `d` below the modulus always survive PKCS#1. -/
theorem C71_private_round_trip (k : PrivateKey) (p q : BoxedUint) (hwf : WellFormed k) (hv : k.validate = .ok ())
    (hps : k.primes = [p, q]) (hpw : p.prec ≤ k.d.prec) (hqw : q.prec ≤ k.d.prec) (hd : k.d.prec < 2 ^ 23)
    (hd' : k.d.val < k.pub.n.val) :
    ∃ b k', k.toPkcs1Der = .ok b ∧ PrivateKey.fromPkcs1Der b = .ok k' ∧ k'.eq k = true ∧ WellFormed k' ∧
      k'.precomputed ≠ none := by
  obtain ⟨b8, k', hb8, hk', h3, h4, h5⟩ := C36_well_formed_round_trip k p q hwf hv hps hpw hqw hd hd'
  have hN := hwf.numbers
  rw [hps] at hN
  have hpp := hN.prime p.val (by simp)
  have hqp := hN.prime q.val (by simp)
  have hne : p.val ≠ q.val := by
    have := hN.nodup
    simp only [List.map_cons, List.map_nil, List.nodup_cons, List.mem_singleton] at this
    exact this.1
  have hco := (Nat.coprime_primes hqp hpp).mpr (Ne.symm hne)
  obtain ⟨hodd, hn, he⟩ := small_of_validate hv
  obtain ⟨qi, q1, _, hb⟩ := C55_private_encoding_exact k p q hv hps hpw hqw hd hco
  have sm : ∀ v, v < 2 ^ k.d.prec → Small v := by
    intro v hv
    refine Small.of_lt (len := 8 * k.d.nlimbs) (by unfold prec at hd; omega) ?_
    rw [pow256]; rwa [show 8 * (8 * k.d.nlimbs) = k.d.prec by unfold prec; ring]
  have lp : p.val < 2 ^ k.d.prec := lt_of_lt_of_le p.isLt (Nat.pow_le_pow_right (by norm_num) hpw)
  have lq : q.val < 2 ^ k.d.prec := lt_of_lt_of_le q.isLt (Nat.pow_le_pow_right (by norm_num) hqw)
  have s0 : Small k.pub.n.val := Small.of_lt (by omega) (lt_octetLen _)
  have s1 := sm _ (lt_of_le_of_lt (Nat.mod_le k.d.val (p.val - 1)) k.d.isLt)
  have s2 := sm _ (lt_of_le_of_lt (Nat.mod_le k.d.val (q.val - 1)) k.d.isLt)
  have s3 : Small qi := sm _ (by omega)
  refine ⟨_, k', toPkcs1Der_of_pkcs8 s0 he (sm _ k.d.isLt) (sm _ lp) (sm _ lq) s1 s2 s3 hb, ?_, h3, h4, h5⟩
  rw [(C71_same_as_wrapped _ (rsaPrivateKey_length s0 he (sm _ k.d.isLt) (sm _ lp) (sm _ lq) s1 s2 s3).2).1]
  rw [hb8] at hb
  rw [← Res.ok.inj hb]
  exact hk'

example : WellFormed Ex.key ∧ Ex.key.d.val < Ex.key.pub.n.val := ⟨Ex.key_wf, by decide +kernel⟩

/-- C71: reading a PKCS#1 private key returns for every byte string unless it parses with a prime equal to 1; the
version-1 (multi-prime) form is refused. -/
theorem C71_private_returns (b : Bytes) :
    ((∀ r, der.decodeRsaPrivateKey b = .ok r → beVal r.prime1 ≠ 1 ∧ beVal r.prime2 ≠ 1) →
      (PrivateKey.fromPkcs1Der b).Returns) ∧
    (∀ r, der.decodeRsaPrivateKey b = .ok r → r.multi = true → PrivateKey.fromPkcs1Der b = .err .pkcs8) := by
  constructor
  · intro h
    unfold PrivateKey.fromPkcs1Der
    split
    · exact tryFromInfo_ret _ h C28_returns_partial.2.1
    · trivial
  · intro r hr hm
    unfold PrivateKey.fromPkcs1Der
    split
    · unfold PrivateKey.tryFromInfo
      rw [show verifyAlgorithmId der.algorithmId = .ok () from by decide, Res.ok_bind, hr, Res.ok_bind, if_pos hm]
    · rfl

example : (PrivateKey.fromPkcs1Der (rsaPrivateKey 15 3 3 1 15 0 0 0)).Panics := by decide +kernel

end RSA
