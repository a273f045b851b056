import Verif.Props.Decoding
import Verif.Props.EncodingTotal
import Verif.Props.Serde
import Verif.Spec.Document

/-
C84: the outcome of decoding a private key document, for every byte string.
-/
namespace RSA
open BoxedUint Spec

/-- Contents of fewer than `2^28` octets are those that give a structure of fewer than `2^28 + 6`. -/
theorem der_maxLen (t : UInt8) (c : Bytes) : c.length < der.maxLen ↔ (Spec.der t c).length < 2 ^ 28 + 6 := by
  unfold der.maxLen
  constructor
  · intro h
    have := der_length_le (tag := t) (c := c) (by omega)
    omega
  · intro h
    by_contra hge
    have h4 : 4 ≤ (natOctets c.length).length := by
      by_contra hlt
      have h1 := beVal_lt (natOctets c.length)
      rw [natOctets_beVal] at h1
      have h2 : 256 ^ (natOctets c.length).length ≤ 256 ^ 3 := Nat.pow_le_pow_right (by norm_num) (by omega)
      omega
    unfold Spec.der derLen at h
    rw [if_neg (by omega)] at h
    simp only [List.length_cons, List.length_append] at h
    omega

theorem optional_length (t : UInt8) {c : Bytes} {o : Option Bytes} (h : o = some c) :
    c.length ≤ (optional t o).length := by
  subst h; exact der_length t c

/-- The decoder of the envelope reads every document. -/
theorem decodePrivateKeyInfo_document {a : der.AlgorithmId} {alg : Bytes} (ha : GoodAlg a alg) (key : Bytes)
    (attrs pub : Option Bytes) (hl : (oneAsymmetricKey alg key attrs pub).length < 2 ^ 28 + 6) :
    der.decodePrivateKeyInfo (oneAsymmetricKey alg key attrs pub) = .ok ⟨a, key⟩ := by
  unfold oneAsymmetricKey at hl ⊢
  rw [← der_maxLen] at hl
  have hk := der_length 0x04 key
  have h1 : (intOctets (if pub.isSome then 1 else 0)).length < der.maxLen := by
    cases pub
    · show (intOctets 0).length < _; decide +kernel
    · show (intOctets 1).length < _; decide +kernel
  have hc := hl
  simp only [List.length_append] at hc
  unfold der.decodePrivateKeyInfo
  rw [readTlv_der' hl]
  simp only [List.append_assoc, orErr_some, Res.ok_bind, finish_nil, readUint_derInt h1, ha.read,
    readTlv_der (show key.length < der.maxLen by omega)]
  have fin : (if uintBytes (if pub.isSome then 1 else 0) = [0] then (do der.finish (optional 0x81 pub); .ok ⟨a, key⟩)
      else if uintBytes (if pub.isSome then 1 else 0) = [1] then (do
        let x ← der.orErr (der.readTlv 0x81 (optional 0x81 pub))
        der.finish x.2
        .ok ⟨a, key⟩) else .err .pkcs8 : Res der.PrivateKeyInfo) = .ok ⟨a, key⟩ := by
    cases pub with
    | none => rfl
    | some p =>
      have hp := optional_length 0x81 (o := some p) rfl
      have e : uintBytes (if (some p).isSome then 1 else 0) = [1] := by
        show uintBytes 1 = [1]; decide +kernel
      have hr : der.readTlv 0x81 (optional 0x81 (some p)) = some (p, []) := readTlv_der' (by omega)
      rw [e, if_neg (by decide), if_pos rfl, hr]
      rfl
  cases attrs with
  | none =>
    cases pub with
    | none => exact fin
    | some p => exact fin
  | some a =>
    have ha := optional_length 0xa0 (o := some a) rfl
    have hr : der.readTlv 0xa0 (optional 0xa0 (some a) ++ optional 0x81 pub) = some (a, optional 0x81 pub) :=
      readTlv_der (by omega)
    rw [hr]
    exact fin

/-- And nothing else, as far as the identifier is accepted. -/
theorem decodePrivateKeyInfo_exact {b : Bytes} {i : der.PrivateKeyInfo} (h : der.decodePrivateKeyInfo b = .ok i)
    (hv : verifyAlgorithmId i.algorithm = .ok ()) :
    ∃ alg attrs pub, GoodAlg i.algorithm alg ∧ b.length < 2 ^ 28 + 6 ∧
      b = oneAsymmetricKey alg i.privateKey attrs pub := by
  unfold der.decodePrivateKeyInfo at h
  rw [Res.bind_eq_ok] at h
  obtain ⟨⟨c, rest⟩, h1, h⟩ := h
  simp only at h
  rw [Res.bind_eq_ok] at h
  obtain ⟨_, h2, h⟩ := h
  rw [Res.bind_eq_ok] at h
  obtain ⟨⟨v, c1⟩, h3, h⟩ := h
  simp only at h
  rw [Res.bind_eq_ok] at h
  obtain ⟨⟨a, c2⟩, h4, h⟩ := h
  simp only at h
  rw [Res.bind_eq_ok] at h
  obtain ⟨⟨k, c3⟩, h5, h⟩ := h
  simp only at h
  obtain ⟨hl, hb⟩ := readTlv_some (orErr_ok.mp h1)
  obtain rfl := finish_ok.mp h2
  rw [List.append_nil] at hb
  obtain ⟨_, hv1, hc⟩ := readUint_ok h3
  obtain ⟨_, hk⟩ := readTlv_some (orErr_ok.mp h5)
  have hlen : b.length < 2 ^ 28 + 6 := by rw [hb, ← der_maxLen]; exact hl
  -- the rest of the structure
  have fin : ∀ attrs c4, c3 = optional 0xa0 attrs ++ c4 →
      (if v = [0] then (do der.finish c4; .ok ⟨a, k⟩) else if v = [1] then (do
        let (_, c) ← der.orErr (der.readTlv 0x81 c4)
        der.finish c
        .ok ⟨a, k⟩) else .err .pkcs8 : Res der.PrivateKeyInfo) = .ok i →
      ∃ alg attrs pub, GoodAlg i.algorithm alg ∧ b.length < 2 ^ 28 + 6 ∧
        b = oneAsymmetricKey alg i.privateKey attrs pub := by
    intro attrs c4 h6 h
    have galg : i = ⟨a, k⟩ → ∃ alg, GoodAlg i.algorithm alg ∧ c1 = alg ++ c2 := by
      rintro rfl; exact readAlgorithmId_ok h4 hv
    split at h
    next v0 =>
      rw [Res.bind_eq_ok] at h
      obtain ⟨_, h7, h⟩ := h
      obtain rfl := finish_ok.mp h7
      obtain ⟨alg, hg, hc1⟩ := galg (Res.ok.inj h).symm
      obtain rfl := Res.ok.inj h
      refine ⟨alg, attrs, none, hg, hlen, ?_⟩
      rw [hb, hc, hc1, hk, h6, v0]
      simp [oneAsymmetricKey, Spec.optional, beVal]
    next v0 =>
      split at h
      next v1 =>
        rw [Res.bind_eq_ok] at h
        obtain ⟨⟨pub, c5⟩, h7, h⟩ := h
        simp only at h
        rw [Res.bind_eq_ok] at h
        obtain ⟨_, h8, h⟩ := h
        obtain rfl := finish_ok.mp h8
        obtain ⟨_, hp⟩ := readTlv_some (orErr_ok.mp h7)
        obtain ⟨alg, hg, hc1⟩ := galg (Res.ok.inj h).symm
        obtain rfl := Res.ok.inj h
        refine ⟨alg, attrs, some pub, hg, hlen, ?_⟩
        rw [hb, hc, hc1, hk, h6, v1, hp]
        simp [oneAsymmetricKey, Spec.optional, beVal]
      next => cases h
  split at h
  next =>
    rw [Res.bind_eq_ok] at h
    obtain ⟨⟨at', c5⟩, h6, h⟩ := h
    obtain ⟨_, h8⟩ := readTlv_some (orErr_ok.mp h6)
    exact fin (some at') c5 h8 h
  next =>
    exact fin none c3 rfl h

/-- What `from_components` makes of the numbers as the decoder stores them. -/
theorem fromComponents_holds {n e d p q : Nat} (h : n % 2 = 1) (hd : d < 256 ^ octetLen n)
    (hp : p < 256 ^ octetLen n) (hq : q < 256 ^ octetLen n) (hok : FieldsOk n e d p q) :
    ∃ k, PrivateKey.fromComponents ⟨stored n, by rw [stored_val]; exact h⟩ (stored e)
        (wrap (stored n).nlimbs d) [wrap (stored n).nlimbs p, wrap (stored n).nlimbs q] = .ok k ∧
      HoldsNumbers k n e d p q := by
  have h0 : n ≠ 0 := by omega
  obtain ⟨k, hk⟩ := (fromComponents_fields (e := e) h hd hp hq).1.mpr hok
  refine ⟨k, hk, ?_⟩
  obtain ⟨⟨⟨_, _, _, eo, e2, _⟩, _, _, _, hm⟩, p1, q1, _, _⟩ := hok
  obtain ⟨g1, g2, g3, g4, g5, _, _, g8, g9⟩ := PrivateKey.fromComponents_ok (by simp) hk
  have hw := stored_prec h0
  have vd : (wrap (stored n).nlimbs d).val = d := wrap_val_of_lt (lt_stored h0 hd)
  have vp : (wrap (stored n).nlimbs p).val = p := wrap_val_of_lt (lt_stored h0 hp)
  have vq : (wrap (stored n).nlimbs q).val = q := wrap_val_of_lt (lt_stored h0 hq)
  have pr : ∀ v, (wrap (stored n).nlimbs v).prec = wordBits n := fun v => hw
  have hl : 1 ≤ (wrap (stored n).nlimbs d).nlimbs := stored_nlimbs_pos n
  have hpq : p % 2 = 1 ∧ q % 2 = 1 := by
    have : 2 ∣ 2 ^ wordBits n := dvd_pow_self 2 (by
      have := octetLen_pos h0
      unfold wordBits; omega)
    have h2 : p * q % 2 = 1 := by rw [← Nat.mod_mod_of_dvd (p * q) this, hm]; exact h
    rcases Nat.mod_two_eq_zero_or_one p with hp | hp <;> rcases Nat.mod_two_eq_zero_or_one q with hq | hq <;>
      simp [Nat.mul_mod, hp, hq] at h2 ⊢
  refine ⟨?_, ?_, ?_, ?_, ⟨_, _, g5, ⟨vp, pr p⟩, ⟨vq, pr q⟩⟩, ?_, ?_⟩
  · rw [g1]; exact ⟨stored_val n, hw⟩
  · rw [g2]; exact ⟨stored_val e, stored_prec (by omega)⟩
  · rw [g3, g1]
  · rw [g4]; exact ⟨vd, pr d⟩
  · intro hco
    obtain ⟨pre, hpre⟩ := precomputeValues_exists (rest := []) hl (p := wrap (stored n).nlimbs p)
      (q := wrap (stored n).nlimbs q) (le_refl _) (le_refl _) (by rw [vp]; exact hpq.1) (by rw [vq]; exact hpq.2)
      (by rw [vp]; exact p1) (by rw [vq]; exact q1) (by rw [vp, vq]; exact hco)
    cases hk' : k.precomputed with
    | none =>
      obtain ⟨er, he⟩ := g9 hk'
      rw [he] at hpre; cases hpre
    | some pre' =>
      refine ⟨pre', rfl, ?_⟩
      obtain ⟨p', q', rest, c1, _, _, _, _, _, _, c2, c3, c4, c5, c6, c7, c8, c9⟩ := precomputeValues_ok hl (g8 pre' hk')
      rw [← g4] at c2 c3 c8 c9
      exact ⟨⟨p', q', rest, g5.trans c1, c2, c3, c4, c5, c6⟩, c7, c8, c9⟩
  · intro hco
    cases hk' : k.precomputed with
    | none => rfl
    | some pre' =>
      exfalso
      obtain ⟨p', q', rest, c1, _, _, _, _, p1', _, _, _, _, _, c6, _, _, _⟩ := precomputeValues_ok hl (g8 pre' hk')
      injection c1 with c1 c1'
      injection c1' with c1' _
      subst c1 c1'
      rw [vp, vq] at c6
      apply hco
      have hd := Nat.gcd_dvd q p
      have h1 : Nat.gcd q p ∣ pre'.qinv.res * q := dvd_mul_of_dvd_right hd.1 _
      have h2 : Nat.gcd q p ∣ 1 := by rw [← c6]; exact (Nat.dvd_mod_iff hd.2).mpr h1
      exact Nat.dvd_one.mp h2

/-- The conversion from the parsed envelope, with the key it makes. -/
theorem tryFromInfo_holds {a : der.AlgorithmId} (ha : verifyAlgorithmId a = .ok ()) {n e d p q dp dq qi : Nat}
    (hl : (rsaPrivateKey n e d p q dp dq qi).length < der.maxLen) :
    (FieldsOk n e d p q → ∃ k, PrivateKey.tryFromInfo ⟨a, rsaPrivateKey n e d p q dp dq qi⟩ = .ok k ∧
      HoldsNumbers k n e d p q) ∧
    (FieldsPanic n e d p q → (PrivateKey.tryFromInfo ⟨a, rsaPrivateKey n e d p q dp dq qi⟩).Panics) ∧
    (¬ FieldsOk n e d p q → ¬ FieldsPanic n e d p q →
      PrivateKey.tryFromInfo ⟨a, rsaPrivateKey n e d p q dp dq qi⟩ = .err .pkcs8) := by
  obtain ⟨f1, f2⟩ := tryFromInfo_fields ha hl
  have no : FieldsFit n e d p q → n % 2 = 1 ∧ d < 256 ^ octetLen n ∧ p < 256 ^ octetLen n ∧ q < 256 ^ octetLen n :=
    fun h => ⟨h.1.2.2.1, h.2.1, h.2.2.1, h.2.2.2.1⟩
  by_cases hfit : n % 2 = 1 ∧ d < 256 ^ octetLen n ∧ p < 256 ^ octetLen n ∧ q < 256 ^ octetLen n
  · obtain ⟨h, hd, hp, hq⟩ := hfit
    rw [f1 h hd hp hq]
    obtain ⟨g1, g2⟩ := fromComponents_fields (e := e) h hd hp hq
    refine ⟨fun hok => ?_, fun hx => ?_, fun h1 h2 => ?_⟩
    · obtain ⟨k, hk, hn⟩ := fromComponents_holds h hd hp hq hok
      exact ⟨k, by rw [hk]; rfl, hn⟩
    · rw [mapErrMalformed_panics]; exact g2.mpr hx
    · have hlim : 1 ≤ (wrap (stored n).nlimbs d).nlimbs := stored_nlimbs_pos n
      have hlo := (C74_from_components ⟨stored n, by rw [stored_val]; exact h⟩ (stored e) (wrap (stored n).nlimbs d)
        [wrap (stored n).nlimbs p, wrap (stored n).nlimbs q] hlim (by simp)).2.2
      cases hr : PrivateKey.fromComponents ⟨stored n, by rw [stored_val]; exact h⟩ (stored e) (wrap (stored n).nlimbs d)
        [wrap (stored n).nlimbs p, wrap (stored n).nlimbs q] with
      | ok k => exact absurd (g1.mp ⟨k, hr⟩) h1
      | err er => rfl
      | panic x => exact absurd (g2.mp (by rw [hr]; exact trivial)) h2
      | loop => exact absurd hr hlo
  · exact ⟨fun h => absurd (no h.1) hfit, fun h => absurd (no h.1) hfit, fun _ _ => f2 hfit⟩

/-- A decoder of the parsed envelope is refused what is not a document. -/
theorem tryFromInfo_noDocument {b : Bytes} {i : der.PrivateKeyInfo} (h : der.decodePrivateKeyInfo b = .ok i)
    (hno : ¬ ∃ alg n e d p q, (alg = rsaEncryptionAlg ∨ alg = rsassaPssAlg) ∧ Document b alg n e d p q) :
    PrivateKey.tryFromInfo i = .err .pkcs8 := by
  have hl := decodePrivateKeyInfo_len h
  obtain ⟨v1, v2, v3⟩ := C75_private_verdict i hl
  have key : ∀ {n e d p q dp dq qi}, verifyAlgorithmId i.algorithm = .ok () →
      i.privateKey = rsaPrivateKey n e d p q dp dq qi → False := by
    intro n e d p q dp dq qi hv hk
    obtain ⟨alg, attrs, pub, hg, hlen, hb⟩ := decodePrivateKeyInfo_exact h hv
    refine hno ⟨alg, n, e, d, p, q, ?_, hlen, dp, dq, qi, attrs, pub, by rw [hb, hk]⟩
    generalize i.algorithm = a at hg
    cases hg
    · exact Or.inl rfl
    · exact Or.inr rfl
  rcases v3 with v | v | v
  · obtain ⟨ha, n, e, d, p, q, dp, dq, qi, hk, _⟩ := v1.mp v
    exact (key ((algAccepted_iff _).mpr ha) hk).elim
  · obtain ⟨ha, n, e, d, p, q, dp, dq, qi, hk, _⟩ := v2.mp v
    exact (key ((algAccepted_iff _).mpr ha) hk).elim
  · exact v

theorem rsaPrivateKey_in_document {b alg : Bytes} {n e d p q : Nat} (h : Document b alg n e d p q) :
    ∃ dp dq qi attrs pub, (rsaPrivateKey n e d p q dp dq qi).length < der.maxLen ∧ b.length < 2 ^ 28 + 6 ∧
      b = oneAsymmetricKey alg (rsaPrivateKey n e d p q dp dq qi) attrs pub := by
  obtain ⟨hl, dp, dq, qi, attrs, pub, rfl⟩ := h
  refine ⟨dp, dq, qi, attrs, pub, ?_, hl, rfl⟩
  unfold oneAsymmetricKey at hl
  rw [← der_maxLen] at hl
  have := der_length 0x04 (rsaPrivateKey n e d p q dp dq qi)
  simp only [List.length_append] at hl
  omega

/-- C84: what `RsaPrivateKey::from_pkcs8_der` does with every byte string. A `OneAsymmetricKey` document under one of the two
identifiers gives a key that holds exactly the numbers in it, a crash, or `KeyMalformed`, as the numbers decide; everything
else gives `KeyMalformed`. -/
theorem C84_pkcs8 (b : Bytes) :
    (∀ alg n e d p q, (alg = rsaEncryptionAlg ∨ alg = rsassaPssAlg) → Document b alg n e d p q →
      (FieldsOk n e d p q → ∃ k, PrivateKey.fromPkcs8Der b = .ok k ∧ HoldsNumbers k n e d p q) ∧
      (FieldsPanic n e d p q → (PrivateKey.fromPkcs8Der b).Panics) ∧
      (¬ FieldsOk n e d p q → ¬ FieldsPanic n e d p q → PrivateKey.fromPkcs8Der b = .err .pkcs8)) ∧
    ((¬ ∃ alg n e d p q, (alg = rsaEncryptionAlg ∨ alg = rsassaPssAlg) ∧ Document b alg n e d p q) →
      PrivateKey.fromPkcs8Der b = .err .pkcs8) := by
  constructor
  · intro alg n e d p q halg hdoc
    obtain ⟨dp, dq, qi, attrs, pub, hk, hl, rfl⟩ := rsaPrivateKey_in_document hdoc
    obtain ⟨a, ha⟩ : ∃ a, GoodAlg a alg := by
      rcases halg with rfl | rfl
      · exact ⟨_, .rsa⟩
      · exact ⟨_, .pss⟩
    unfold PrivateKey.fromPkcs8Der
    rw [decodePrivateKeyInfo_document ha _ attrs pub hl, Res.ok_bind]
    exact tryFromInfo_holds ha.verify hk
  · intro hno
    rcases C75_pkcs8_verdict b with ⟨h, _⟩ | ⟨i, hi, _, h⟩
    · exact h
    · rw [h]; exact tryFromInfo_noDocument hi hno

theorem publicDocument_decodes {a : der.AlgorithmId} {alg b : Bytes} (ha : GoodAlg a alg) {n e : Nat}
    (h : PublicDocument b alg n e) :
    der.decodeSubjectPublicKeyInfo b = .ok ⟨a, 0, rsaPublicKey n e⟩ ∧
    PublicKey.fromPublicKeyDer b = mapErrMalformed (PublicKey.new (stored n) (stored e)) := by
  obtain ⟨rfl, h1, h2, _⟩ := h
  have hs : ∀ v, v < 2 ^ 4096 → (intOctets v).length ≤ 2 ^ 20 := by
    intro v hv
    exact Small.of_lt (len := 512) (by norm_num) (by rw [pow256]; exact hv)
  have he := hs e (by omega)
  exact ⟨decodeSpki_eq ha (rsaPublicKey_length (hs n h1) he), fromPublicKeyDer_eq ha (hs n h1) he⟩

/-- C84, public keys: what `RsaPublicKey::from_public_key_der` does with every byte string. -/
theorem C84_public (b : Bytes) :
    (∀ alg n e, (alg = rsaEncryptionAlg ∨ alg = rsassaPssAlg) → PublicDocument b alg n e →
      ∃ k, PublicKey.fromPublicKeyDer b = .ok k ∧ HeldIn k.n n (wordBits n) ∧ HeldIn k.e e (wordBits e) ∧
        k.nParams.modulus.toBoxedUint = k.n) ∧
    ((¬ ∃ alg n e, (alg = rsaEncryptionAlg ∨ alg = rsassaPssAlg) ∧ PublicDocument b alg n e) →
      PublicKey.fromPublicKeyDer b = .err .pkcs8) := by
  obtain ⟨hret, hok, _⟩ := C56_public_decoding_strict b
  constructor
  · intro alg n e halg hdoc
    obtain ⟨a, ha⟩ : ∃ a, GoodAlg a alg := by
      rcases halg with rfl | rfl
      · exact ⟨_, .rsa⟩
      · exact ⟨_, .pss⟩
    obtain ⟨k, hk⟩ := hok.mpr ⟨n, e, alg, hdoc.1, halg, hdoc.2⟩
    refine ⟨k, hk, ?_⟩
    rw [(publicDocument_decodes ha hdoc).2, mapErrMalformed_ok] at hk
    obtain ⟨_, h1, h2, h3, h4, h5, h6⟩ := hdoc
    obtain ⟨_, g1, g2, hc⟩ := publicKey_new_some hk
    refine ⟨?_, ?_, hc⟩
    · rw [g1]; exact ⟨stored_val n, stored_prec (by omega)⟩
    · rw [g2]; exact ⟨stored_val e, stored_prec (by omega)⟩
  · intro hno
    cases hr : PublicKey.fromPublicKeyDer b with
    | ok k =>
      obtain ⟨n, e, alg, hb, halg, h⟩ := hok.mp ⟨k, hr⟩
      exact absurd ⟨alg, n, e, halg, hb, h⟩ hno
    | err er =>
      rw [(C75_one_error b ⟨0, fun _ => [], fun _ => rfl⟩ ⟨0, fun _ => [], fun _ => rfl⟩ [] none er).2.1 hr]
    | panic x => rw [hr] at hret; exact absurd hret (by intro h; exact h)
    | loop => rw [hr] at hret; exact absurd hret (by intro h; exact h)

theorem bind_bind {α β γ : Type} (x : Res α) (f : α → Res β) (g : β → Res γ) :
    (x >>= f) >>= g = x >>= fun a => f a >>= g := by cases x <;> rfl

theorem bind_err_of_mal {α β : Type} {r : Res α} (hret : r.Returns) (hm : OnlyMalformed r) {f : α → Res β}
    (hf : ∀ a, r = .ok a → f a = .err .pkcs8) : (r >>= f) = .err .pkcs8 := by
  cases hr : r with
  | ok a => rw [Res.ok_bind]; exact hf a hr
  | err er => rw [hm er hr]; rfl
  | panic x => rw [hr] at hret; exact absurd hret (by intro h; exact h)
  | loop => rw [hr] at hret; exact absurd hret (by intro h; exact h)

theorem verify_bind {α : Type} (a : der.AlgorithmId) {x : Res α} (h : verifyAlgorithmId a ≠ .ok () → x = .err .pkcs8) :
    (verifyAlgorithmId a >>= fun _ => x) = x := by
  by_cases hv : verifyAlgorithmId a = .ok ()
  · rw [hv]; rfl
  · rw [h hv, (verifyAlgorithmId_cases a).resolve_left hv]; rfl

/-- C84, typed keys: the PSS keys are read from exactly the documents of the plain keys, with the digest length as salt
length; the PKCS#1 v1.5 keys only from those under `rsaEncryption`; the encryption keys from all. -/
theorem C84_typed {D MGD : HashFn} (oid b : Bytes) (l : Option Bytes) :
    (pss.SigningKey.deserialize (D := D) b = PrivateKey.fromPkcs8Der b >>= fun k => .ok ⟨k, D.outLen⟩) ∧
    (pss.BlindedSigningKey.deserialize (D := D) b = PrivateKey.fromPkcs8Der b >>= fun k => .ok ⟨k, D.outLen⟩) ∧
    (pss.VerifyingKey.deserialize (D := D) b = PublicKey.fromPublicKeyDer b >>= fun k => .ok ⟨k, D.outLen⟩) ∧
    (pkcs1v15.DecryptingKey.deserialize b = PrivateKey.fromPkcs8Der b >>= fun k => .ok ⟨k⟩) ∧
    (pkcs1v15.EncryptingKey.deserialize b = PublicKey.fromPublicKeyDer b >>= fun k => .ok ⟨k⟩) ∧
    (oaep.DecryptingKey.deserialize (D := D) (MGD := MGD) (b, l) = PrivateKey.fromPkcs8Der b >>= fun k => .ok ⟨k, l⟩) ∧
    (oaep.EncryptingKey.deserialize (D := D) (MGD := MGD) (b, l) = PublicKey.fromPublicKeyDer b >>= fun k => .ok ⟨k, l⟩) ∧
    (∀ n e d p q, Document b rsaEncryptionAlg n e d p q →
      pkcs1v15.SigningKey.deserialize (D := D) oid b = PrivateKey.fromPkcs8Der b >>= fun k => pkcs1v15.SigningKey.new oid k) ∧
    ((¬ ∃ n e d p q, Document b rsaEncryptionAlg n e d p q) →
      pkcs1v15.SigningKey.deserialize (D := D) oid b = .err .pkcs8) ∧
    (∀ n e, PublicDocument b rsaEncryptionAlg n e →
      pkcs1v15.VerifyingKey.deserialize (D := D) oid b =
        PublicKey.fromPublicKeyDer b >>= fun k => pkcs1v15.VerifyingKey.new oid k) ∧
    ((¬ ∃ n e, PublicDocument b rsaEncryptionAlg n e) →
      pkcs1v15.VerifyingKey.deserialize (D := D) oid b = .err .pkcs8) := by
  have noPriv : ∀ i : der.PrivateKeyInfo, verifyAlgorithmId i.algorithm ≠ .ok () → PrivateKey.tryFromInfo i = .err .pkcs8 := by
    intro i h
    unfold PrivateKey.tryFromInfo
    rw [(verifyAlgorithmId_cases _).resolve_left h]; rfl
  have noPub : ∀ i : der.SubjectPublicKeyInfo, verifyAlgorithmId i.algorithm ≠ .ok () →
      PublicKey.tryFromSpki i = .err .pkcs8 := by
    intro i h
    unfold PublicKey.tryFromSpki
    rw [(verifyAlgorithmId_cases _).resolve_left h]; rfl
  refine ⟨?_, ?_, ?_, rfl, rfl, rfl, rfl, ?_, ?_, ?_, ?_⟩
  · unfold pss.SigningKey.deserialize PrivateKey.fromPkcs8Der
    rw [bind_bind]
    congr 1; funext i
    unfold pss.SigningKey.tryFromInfo
    exact verify_bind _ fun h => by rw [noPriv i h]; rfl
  · unfold pss.BlindedSigningKey.deserialize PrivateKey.fromPkcs8Der
    rw [bind_bind]
    rfl
  · unfold pss.VerifyingKey.deserialize PublicKey.fromPublicKeyDer
    rw [bind_bind]
    congr 1; funext i
    unfold pss.VerifyingKey.tryFromSpki
    split
    · rfl
    · next h =>
      rw [noPub i]
      · rfl
      · intro hv
        rcases (verifyAlgorithmId_ok _).mp hv with h' | h' <;> rw [h'] at h <;> simp [der.algorithmId] at h
  · intro n e d p q hdoc
    obtain ⟨dp, dq, qi, attrs, pub, hk, hl, rfl⟩ := rsaPrivateKey_in_document hdoc
    unfold pkcs1v15.SigningKey.deserialize PrivateKey.fromPkcs8Der
    rw [decodePrivateKeyInfo_document .rsa _ attrs pub hl, Res.ok_bind, Res.ok_bind]
    rfl
  · intro hno
    unfold pkcs1v15.SigningKey.deserialize
    refine bind_err_of_mal (decodePrivateKeyInfo_ret b) (decodePrivateKeyInfo_mal b) fun i hi => ?_
    unfold pkcs1v15.SigningKey.tryFromInfo assertAlgorithmOid
    split
    next ho =>
      rw [Res.ok_bind]
      by_cases hd : ∃ alg n e d p q, (alg = rsaEncryptionAlg ∨ alg = rsassaPssAlg) ∧ Document b alg n e d p q
      · obtain ⟨alg, n, e, d, p, q, halg, hdoc⟩ := hd
        rcases halg with rfl | rfl
        · exact absurd ⟨n, e, d, p, q, hdoc⟩ hno
        · exfalso
          obtain ⟨dp, dq, qi, attrs, pub, hk, hl, rfl⟩ := rsaPrivateKey_in_document hdoc
          rw [decodePrivateKeyInfo_document .pss _ attrs pub hl] at hi
          obtain rfl := Res.ok.inj hi
          have ho : der.rsassaPssOid = der.rsaEncryptionOid := ho
          revert ho; decide
      · rw [tryFromInfo_noDocument hi hd]; rfl
    next => rfl
  · intro n e hdoc
    unfold pkcs1v15.VerifyingKey.deserialize PublicKey.fromPublicKeyDer
    rw [(publicDocument_decodes .rsa hdoc).1, Res.ok_bind, Res.ok_bind]
    rfl
  · intro hno
    unfold pkcs1v15.VerifyingKey.deserialize
    refine bind_err_of_mal (decodeSpki_ret b) (decodeSpki_mal b) fun i hi => ?_
    unfold pkcs1v15.VerifyingKey.tryFromSpki assertAlgorithmOid
    split
    next ho =>
      rw [Res.ok_bind]
      have hf : PublicKey.fromPublicKeyDer b = PublicKey.tryFromSpki i := by
        unfold PublicKey.fromPublicKeyDer; rw [hi, Res.ok_bind]
      by_cases hd : ∃ alg n e, (alg = rsaEncryptionAlg ∨ alg = rsassaPssAlg) ∧ PublicDocument b alg n e
      · obtain ⟨alg, n, e, halg, hdoc⟩ := hd
        rcases halg with rfl | rfl
        · exact absurd ⟨n, e, hdoc⟩ hno
        · exfalso
          rw [(publicDocument_decodes .pss hdoc).1] at hi
          obtain rfl := Res.ok.inj hi
          have ho : der.rsassaPssOid = der.rsaEncryptionOid := ho
          revert ho; decide
      · rw [← hf, (C84_public b).2 hd]; rfl
    next => rfl

/-- C84, PKCS#1: what `RsaPrivateKey::from_pkcs1_der` does with every byte string. -/
theorem C84_pkcs1 (b : Bytes) :
    (∀ n e d p q dp dq qi, b.length < 2 ^ 28 → b = rsaPrivateKey n e d p q dp dq qi →
      (FieldsOk n e d p q → ∃ k, PrivateKey.fromPkcs1Der b = .ok k ∧ HoldsNumbers k n e d p q) ∧
      (FieldsPanic n e d p q → (PrivateKey.fromPkcs1Der b).Panics) ∧
      (¬ FieldsOk n e d p q → ¬ FieldsPanic n e d p q → PrivateKey.fromPkcs1Der b = .err .pkcs8)) ∧
    ((¬ ∃ n e d p q dp dq qi, b.length < 2 ^ 28 ∧ b = rsaPrivateKey n e d p q dp dq qi) →
      PrivateKey.fromPkcs1Der b = .err .pkcs8) := by
  constructor
  · intro n e d p q dp dq qi hl hb
    have he : PrivateKey.fromPkcs1Der b = PrivateKey.tryFromInfo ⟨der.algorithmId, b⟩ := by
      unfold PrivateKey.fromPkcs1Der der.maxLen; rw [if_pos hl]
    rw [he]
    subst hb
    exact tryFromInfo_holds GoodAlg.rsa.verify hl
  · intro hno
    obtain ⟨v1, v2, v3⟩ := C75_pkcs1_verdict b
    rcases v3 with v | v | v
    · obtain ⟨hl, n, e, d, p, q, dp, dq, qi, hb, _⟩ := v1.mp v
      exact absurd ⟨n, e, d, p, q, dp, dq, qi, hl, hb⟩ hno
    · obtain ⟨hl, n, e, d, p, q, dp, dq, qi, hb, _⟩ := v2.mp v
      exact absurd ⟨n, e, d, p, q, dp, dq, qi, hl, hb⟩ hno
    · exact v

theorem deserialize_holds (hr : Bool) (d : SerdeData) (b : Bytes) : deserializeHexOrBin hr d = .ok b ↔ Holds hr d b := by
  have hb := C63_byte_layer hr
  cases hr
  · cases d with
    | str s => exact ⟨fun h => (by cases h), fun h => by rcases h with ⟨h, _⟩ | ⟨_, h⟩ <;> cases h⟩
    | bytes x =>
      constructor
      · intro h; cases h; exact Or.inr ⟨rfl, rfl⟩
      · rintro (⟨h, _⟩ | ⟨_, h⟩)
        · cases h
        · cases h; rfl
  · cases d with
    | str s =>
      constructor
      · intro h; exact Or.inl ⟨rfl, s, rfl, (hb.2.2.2.1 s b).mp h⟩
      · rintro (⟨_, s', h, hs⟩ | ⟨h, _⟩)
        · cases h; exact (hb.2.2.2.1 s b).mpr hs
        · cases h
    | bytes x => exact ⟨fun h => (by cases h), fun h => by rcases h with ⟨_, s, h, _⟩ | ⟨h, _⟩ <;> cases h⟩

/-- Reading through the byte layer. -/
theorem serde_read {α : Type} (hr : Bool) (d : SerdeData) (f : Bytes → Res α) (hf : ∀ b, OnlyMalformed (f b)) :
    (∀ b, Holds hr d b → (deserializeHexOrBin hr d >>= fun b => serdeErr (f b)) = f b) ∧
    ((∀ b, ¬ Holds hr d b) → (deserializeHexOrBin hr d >>= fun b => serdeErr (f b)) = .err .pkcs8) := by
  constructor
  · intro b hb
    rw [(deserialize_holds hr d b).mpr hb, Res.ok_bind]
    cases h : f b with
    | err er => rw [hf b er h]; rfl
    | _ => rfl
  · intro hno
    refine bind_err_of_mal ((C63_byte_layer hr).2.2.2.2.2.2 d) ?_ fun b hb =>
      absurd ((deserialize_holds hr d b).mp hb) (hno b)
    intro er he
    cases hr <;> cases d <;> first | exact (Res.err.inj he).symm | cases he | skip
    exact orErr_mal _ er he

/-- C84, serde: every deserializer of a key gives, for every document of the format, what the DER decoder makes of the octets
in it, and refuses all other data. -/
theorem C84_serde {D : HashFn} (hr : Bool) (oid : Bytes) (d : SerdeData) :
    (∀ b, Holds hr d b →
      PrivateKey.serdeDeserialize hr d = PrivateKey.fromPkcs8Der b ∧
      PublicKey.serdeDeserialize hr d = PublicKey.fromPublicKeyDer b ∧
      pkcs1v15.SigningKey.serdeDeserialize (D := D) oid hr d = pkcs1v15.SigningKey.deserialize oid b ∧
      pkcs1v15.VerifyingKey.serdeDeserialize (D := D) oid hr d = pkcs1v15.VerifyingKey.deserialize oid b ∧
      pss.SigningKey.serdeDeserialize (D := D) hr d = pss.SigningKey.deserialize b ∧
      pss.BlindedSigningKey.serdeDeserialize (D := D) hr d = pss.BlindedSigningKey.deserialize b ∧
      pss.VerifyingKey.serdeDeserialize (D := D) hr d = pss.VerifyingKey.deserialize b) ∧
    ((∀ b, ¬ Holds hr d b) →
      PrivateKey.serdeDeserialize hr d = .err .pkcs8 ∧ PublicKey.serdeDeserialize hr d = .err .pkcs8 ∧
      pkcs1v15.SigningKey.serdeDeserialize (D := D) oid hr d = .err .pkcs8 ∧
      pkcs1v15.VerifyingKey.serdeDeserialize (D := D) oid hr d = .err .pkcs8 ∧
      pss.SigningKey.serdeDeserialize (D := D) hr d = .err .pkcs8 ∧
      pss.BlindedSigningKey.serdeDeserialize (D := D) hr d = .err .pkcs8 ∧
      pss.VerifyingKey.serdeDeserialize (D := D) hr d = .err .pkcs8) := by
  have one := fun b er => C75_one_error b D D oid none er
  have s1 := serde_read hr d PrivateKey.fromPkcs8Der fun b er h => (one b er).1 h
  have s2 := serde_read hr d PublicKey.fromPublicKeyDer fun b er h => (one b er).2.1 h
  have s3 := serde_read hr d (pkcs1v15.SigningKey.deserialize (D := D) oid) fun b er h =>
    (one b er).2.2.2.2.2.2.2.2.2.2.2.1 h
  have s4 := serde_read hr d (pkcs1v15.VerifyingKey.deserialize (D := D) oid) fun b er h =>
    (one b er).2.2.2.2.2.2.2.2.2.2.2.2 h
  have s5 := serde_read hr d (pss.SigningKey.deserialize (D := D)) fun b er h => (one b er).2.2.2.2.1 h
  have s6 := serde_read hr d (pss.BlindedSigningKey.deserialize (D := D)) fun b er h => (one b er).2.2.2.2.2.1 h
  have s7 := serde_read hr d (pss.VerifyingKey.deserialize (D := D)) fun b er h => (one b er).2.2.2.2.2.2.1 h
  exact ⟨fun b hb => ⟨s1.1 b hb, s2.1 b hb, s3.1 b hb, s4.1 b hb, s5.1 b hb, s6.1 b hb, s7.1 b hb⟩,
    fun hno => ⟨s1.2 hno, s2.2 hno, s3.2 hno, s4.2 hno, s5.2 hno, s6.2 hno, s7.2 hno⟩⟩

/- The key 35 = 5 * 7 in a version 1 document with attributes and a public key; the same document calling itself version 0,
and one with the public key before the attributes, are refused. -/
example :
    Document (oneAsymmetricKey rsaEncryptionAlg (rsaPrivateKey 35 5 5 5 7 1 5 3) (some [0x30, 0]) (some [0])) rsaEncryptionAlg
      35 5 5 5 7 ∧
    FieldsOk 35 5 5 5 7 ∧
    (match PrivateKey.fromPkcs8Der
        (oneAsymmetricKey rsaEncryptionAlg (rsaPrivateKey 35 5 5 5 7 1 5 3) (some [0x30, 0]) (some [0])) with
      | .ok k => decide (k.pub.n.val = 35 ∧ k.d.val = 5) | _ => false) = true ∧
    PrivateKey.fromPkcs8Der (Spec.der 0x30 (derInt 0 ++ rsaEncryptionAlg ++ Spec.der 0x04 (rsaPrivateKey 35 5 5 5 7 1 5 3) ++
      Spec.der 0xa0 [0x30, 0] ++ Spec.der 0x81 [0])) = .err .pkcs8 ∧
    PrivateKey.fromPkcs8Der (Spec.der 0x30 (derInt 1 ++ rsaEncryptionAlg ++ Spec.der 0x04 (rsaPrivateKey 35 5 5 5 7 1 5 3) ++
      Spec.der 0x81 [0] ++ Spec.der 0xa0 [0x30, 0])) = .err .pkcs8 := by
  refine ⟨⟨by decide +kernel, 1, 5, 3, _, _, rfl⟩, ?_, by decide +kernel, by decide +kernel, by decide +kernel⟩
  unfold FieldsOk FieldsFit PublicOk wordBits; decide +kernel

/- `Holds` for hexadecimal text, and data that holds nothing. -/
example : Holds true (.str ['3', '0', '0', '0']) [0x30, 0] ∧ ∀ b, ¬ Holds true (.str ['3', '0', '0']) b := by
  refine ⟨(deserialize_holds ..).mp (by decide +kernel), fun b h => ?_⟩
  have := (deserialize_holds ..).mpr h
  rw [show deserializeHexOrBin true (.str ['3', '0', '0']) = .err .pkcs8 by decide +kernel] at this
  cases this

/- A public document. -/
example : PublicDocument (subjectPublicKeyInfo rsassaPssAlg (rsaPublicKey 35 5)) rsassaPssAlg 35 5 := by
  refine ⟨rfl, ?_, by norm_num, by norm_num, by norm_num, by norm_num, by norm_num⟩
  exact lt_of_lt_of_le (by norm_num : 35 < 2 ^ 6) (Nat.pow_le_pow_right (by norm_num) (by norm_num))

end RSA
