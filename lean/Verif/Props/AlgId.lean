import Verif.Model.AlgId
import Verif.Props.Wrappers

/-
C65: the DER form of the algorithm identifiers the key types publish.
-/
namespace RSA
open BoxedUint Spec

theorem sha1Oid_eq : sha1Oid = oidOctets 1 3 [14, 3, 2, 26] := by decide +kernel

theorem mgf1Oid_eq : mgf1Oid = oidOctets 1 2 [840, 113549, 1, 1, 8] := by decide +kernel

theorem encodeAlgorithmId_null {oid : Bytes} (h : oid.length < 2 ^ 20) :
    der.encodeAlgorithmId ⟨oid, some der.nullAny⟩ = .ok (nullAlg oid) := by
  have hm : der.maxLen = 2 ^ 28 := rfl
  have h1 : (Spec.der 0x06 oid).length ≤ oid.length + 6 := der_length_le (by omega)
  unfold der.encodeAlgorithmId
  dsimp only [der.nullAny]
  rw [tlv_eq (by omega), Res.ok_bind, tlv_eq (by decide +kernel), Res.ok_bind, tlv_eq]
  · rfl
  · rw [List.length_append, show (Spec.der 0x05 []).length = 2 by decide +kernel]; omega

theorem nullAlg_length {oid : Bytes} (h : oid.length < 2 ^ 20) : (nullAlg oid).length ≤ oid.length + 14 := by
  have h1 : (Spec.der 0x06 oid).length ≤ oid.length + 6 := der_length_le (by omega)
  have h2 : (Spec.der 0x05 []).length = 2 := by decide +kernel
  have h3 : (Spec.der 0x06 oid ++ Spec.der 0x05 []).length ≤ oid.length + 8 := by
    rw [List.length_append]; omega
  have h4 := der_length_le (tag := 0x30) (c := Spec.der 0x06 oid ++ Spec.der 0x05 []) (by omega)
  show (Spec.der 0x30 (Spec.der 0x06 oid ++ Spec.der 0x05 [])).length ≤ _
  omega

theorem optField_eq {b : Bool} {p : Prop} [Decidable p] (hb : b = decide p) {tag : UInt8} {r : Res Bytes} {c : Bytes}
    (hr : r = .ok c) (hc : c.length < der.maxLen) :
    optField b tag r = .ok (if p then [] else Spec.der tag c) := by
  subst hb hr
  unfold optField
  by_cases hp : p
  · rw [if_pos (by simpa using hp), if_pos hp]
  · rw [if_neg (by simpa using hp), if_neg hp, Res.ok_bind, tlv_eq hc]

theorem salt_int (x : UInt8) : der.encodeUint [x] = .ok (derInt x.toNat) := by
  have h : (intOctets x.toNat).length < der.maxLen := by
    have hm : der.maxLen = 2 ^ 28 := rfl
    have := intOctets_length_le (n := x.toNat) (len := 1) (by have := x.toNat_lt; omega)
    omega
  exact encodeUint_eq (beVal_singleton x) h

theorem pssParams_content {oid : Bytes} (h : oid.length < 2 ^ 20) (salt : UInt8) :
    ∃ c, pss.PssParams.encode ⟨oid, oid, salt⟩ = .ok c ∧ Spec.der 0x30 c = rsassaPssParams oid oid salt.toNat ∧
      c.length < 2 ^ 22 := by
  have hm : der.maxLen = 2 ^ 28 := rfl
  have hn := nullAlg_length h
  have hs := salt_int salt
  have hsl : (derInt salt.toNat).length ≤ 8 := by
    have := intOctets_length_le (n := salt.toNat) (len := 1) (by have := salt.toNat_lt; omega)
    have h2 := der_length_le (tag := 0x02) (c := intOctets salt.toNat) (by omega)
    show (Spec.der 0x02 _).length ≤ _
    omega
  have ho : (Spec.der 0x06 (oidOctets 1 2 [840, 113549, 1, 1, 8])).length = 11 := by decide +kernel
  have hml : (Spec.der 0x06 (oidOctets 1 2 [840, 113549, 1, 1, 8]) ++ nullAlg oid).length ≤ oid.length + 25 := by
    rw [List.length_append]; omega
  have hm2 := der_length_le (tag := 0x30) (c := Spec.der 0x06 (oidOctets 1 2 [840, 113549, 1, 1, 8]) ++ nullAlg oid)
    (by omega)
  have hmgf : (do
      let o ← der.tlv 0x06 mgf1Oid
      let a ← der.encodeAlgorithmId ⟨oid, some der.nullAny⟩
      der.tlv 0x30 (o ++ a)) =
      Res.ok (Spec.der 0x30 (Spec.der 0x06 (oidOctets 1 2 [840, 113549, 1, 1, 8]) ++ nullAlg oid)) := by
    rw [mgf1Oid_eq, tlv_eq (by decide +kernel), Res.ok_bind, encodeAlgorithmId_null h, Res.ok_bind, tlv_eq (by omega)]
  refine ⟨(if oid = sha1Oid then [] else Spec.der 0xa0 (nullAlg oid)) ++
    (if oid = sha1Oid then [] else
      Spec.der 0xa1 (Spec.der 0x30 (Spec.der 0x06 (oidOctets 1 2 [840, 113549, 1, 1, 8]) ++ nullAlg oid))) ++
    (if salt = 20 then [] else Spec.der 0xa2 (derInt salt.toNat)), ?_, ?_, ?_⟩
  · unfold pss.PssParams.encode
    dsimp only
    rw [optField_eq rfl (encodeAlgorithmId_null h) (by omega), Res.ok_bind, optField_eq rfl hmgf (by omega), Res.ok_bind,
      optField_eq (p := salt = 20) rfl hs (by omega), Res.ok_bind]
  · unfold rsassaPssParams
    rw [sha1Oid_eq]
    have he : (if salt = 20 then ([] : Bytes) else Spec.der 0xa2 (derInt salt.toNat)) =
        (if salt.toNat = 20 then [] else Spec.der 0xa2 (derInt salt.toNat)) := by
      by_cases h20 : salt = 20
      · rw [if_pos h20, if_pos (by rw [h20]; rfl)]
      · rw [if_neg h20, if_neg (fun hh : salt.toNat = 20 => h20 (UInt8.toNat_inj.mp (by rw [hh]; rfl)))]
    rw [he]
  · have e1 : (if oid = sha1Oid then ([] : Bytes) else Spec.der 0xa0 (nullAlg oid)).length ≤ oid.length + 20 := by
      split
      · simp
      · have := der_length_le (tag := 0xa0) (c := nullAlg oid) (by omega); omega
    have e2 : (if oid = sha1Oid then ([] : Bytes) else
        Spec.der 0xa1 (Spec.der 0x30 (Spec.der 0x06 (oidOctets 1 2 [840, 113549, 1, 1, 8]) ++ nullAlg oid))).length ≤
        oid.length + 40 := by
      split
      · simp
      · have := der_length_le (tag := 0xa1)
          (c := Spec.der 0x30 (Spec.der 0x06 (oidOctets 1 2 [840, 113549, 1, 1, 8]) ++ nullAlg oid)) (by omega)
        omega
    have e3 : (if salt = 20 then ([] : Bytes) else Spec.der 0xa2 (derInt salt.toNat)).length ≤ 14 := by
      split
      · simp
      · have := der_length_le (tag := 0xa2) (c := derInt salt.toNat) (by omega); omega
    rw [List.length_append, List.length_append]
    omega

theorem pss_alg_der {oid : Bytes} (h : oid.length < 2 ^ 20) (salt : UInt8) :
    (pss.algoId ⟨oid, oid, salt⟩ >>= fun a => der.encodeAlgorithmId a) =
      .ok (rsassaPssSignatureAlg oid oid salt.toNat) := by
  obtain ⟨c, hc, hd, hl⟩ := pssParams_content h salt
  have hm : der.maxLen = 2 ^ 28 := rfl
  have hl2 := der_length_le (tag := 0x30) (c := c) (by omega)
  unfold pss.algoId
  rw [hc, Res.ok_bind, Res.ok_bind]
  unfold der.encodeAlgorithmId
  dsimp only
  rw [rsassaPssOid_eq, tlv_eq (by decide +kernel), Res.ok_bind, tlv_eq (by omega), Res.ok_bind, tlv_eq, hd]
  · rfl
  · rw [List.length_append, show (Spec.der 0x06 (oidOctets 1 2 [840, 113549, 1, 1, 10])).length = 11 by decide +kernel]
    omega

theorem der_inj {t : UInt8} {c c' r r' : Bytes} (h : c.length < 2 ^ 28) (h' : c'.length < 2 ^ 28)
    (he : Spec.der t c ++ r = Spec.der t c' ++ r') : c = c' ∧ r = r' := by
  have h1 := readTlv_der (tag := t) (c := c) (r := r) h
  rw [he, readTlv_der (tag := t) (c := c') (r := r') h'] at h1
  injection h1 with h1
  injection h1 with h1 h2
  exact ⟨h1.symm, h2.symm⟩

theorem der_inj' {t : UInt8} {c c' : Bytes} (h : c.length < 2 ^ 28) (h' : c'.length < 2 ^ 28)
    (he : Spec.der t c = Spec.der t c') : c = c' :=
  (der_inj (r := []) (r' := []) h h' (by rw [he])).1

theorem derInt_inj {a b : Nat} (ha : a < 2 ^ 64) (hb : b < 2 ^ 64) (h : derInt a = derInt b) : a = b := by
  have la := intOctets_length_le (n := a) (len := 8) (by norm_num; omega)
  have lb := intOctets_length_le (n := b) (len := 8) (by norm_num; omega)
  have h1 := der_inj' (t := 0x02) (by omega) (by omega) h
  have h2 := uintOfContent_intOctets a
  rw [h1, uintOfContent_intOctets b] at h2
  injection h2 with h2
  have := uintBytes_beVal a
  rw [← h2, uintBytes_beVal b] at this
  exact this.symm

theorem nullAlg_inj {a b : Bytes} (ha : a.length < 2 ^ 20) (hb : b.length < 2 ^ 20) (h : nullAlg a = nullAlg b) :
    a = b := by
  have e5 : (Spec.der 0x05 []).length = 2 := by decide +kernel
  have la : (Spec.der 0x06 a).length ≤ a.length + 6 := der_length_le (by omega)
  have lb : (Spec.der 0x06 b).length ≤ b.length + 6 := der_length_le (by omega)
  have h1 := der_inj' (t := 0x30) (c := Spec.der 0x06 a ++ Spec.der 0x05 []) (c' := Spec.der 0x06 b ++ Spec.der 0x05 [])
    (by rw [List.length_append]; omega) (by rw [List.length_append]; omega) h
  exact (der_inj (by omega) (by omega) h1).1

/-- Length bounds for the fields and the whole of the parameters. -/
theorem pssFields_lens (x : Bytes) (u : Nat) (hx : x.length < 2 ^ 20) (hu : u < 2 ^ 64) :
    (derInt u).length ≤ 15 ∧
      (Spec.der 0x30 (Spec.der 0x06 (oidOctets 1 2 [840, 113549, 1, 1, 8]) ++ nullAlg x)).length ≤ x.length + 31 ∧
      ((if x = oidOctets 1 3 [14, 3, 2, 26] then [] else Spec.der 0xa0 (nullAlg x)) ++
        (if x = oidOctets 1 3 [14, 3, 2, 26] then []
          else Spec.der 0xa1 (Spec.der 0x30 (Spec.der 0x06 (oidOctets 1 2 [840, 113549, 1, 1, 8]) ++ nullAlg x))) ++
        (if u = 20 then [] else Spec.der 0xa2 (derInt u))).length < 2 ^ 27 := by
  have ho : (Spec.der 0x06 (oidOctets 1 2 [840, 113549, 1, 1, 8])).length = 11 := by decide +kernel
  have nx := nullAlg_length hx
  have l1 := intOctets_length_le (n := u) (len := 8) (by norm_num; omega)
  have l2 : (derInt u).length ≤ _ := der_length_le (tag := 0x02) (c := intOctets u) (by omega)
  have l3 : (Spec.der 0x06 (oidOctets 1 2 [840, 113549, 1, 1, 8]) ++ nullAlg x).length ≤ x.length + 25 := by
    rw [List.length_append]; omega
  have l4 := der_length_le (tag := 0x30) (c := Spec.der 0x06 (oidOctets 1 2 [840, 113549, 1, 1, 8]) ++ nullAlg x)
    (by omega)
  have l5 := der_length_le (tag := 0xa0) (c := nullAlg x) (by omega)
  have l6 := der_length_le (tag := 0xa1)
    (c := Spec.der 0x30 (Spec.der 0x06 (oidOctets 1 2 [840, 113549, 1, 1, 8]) ++ nullAlg x)) (by omega)
  have l7 := der_length_le (tag := 0xa2) (c := derInt u) (by omega)
  refine ⟨by omega, by omega, ?_⟩
  rw [List.length_append, List.length_append]
  by_cases c1 : x = oidOctets 1 3 [14, 3, 2, 26] <;> by_cases c2 : u = 20
  · rw [if_pos c1, if_pos c1, if_pos c2]; simp
  · rw [if_pos c1, if_pos c1, if_neg c2]; simp only [List.length_nil]; omega
  · rw [if_neg c1, if_neg c1, if_pos c2]; simp only [List.length_nil]; omega
  · rw [if_neg c1, if_neg c1, if_neg c2]; omega
theorem rsassaPssParams_inj {a b : Bytes} {s t : Nat} (ha : a.length < 2 ^ 20) (hb : b.length < 2 ^ 20)
    (hs : s < 2 ^ 64) (ht : t < 2 ^ 64) (h : rsassaPssParams a a s = rsassaPssParams b b t) : a = b ∧ s = t := by
  have na := nullAlg_length ha
  have nb := nullAlg_length hb
  have ho : (Spec.der 0x06 (oidOctets 1 2 [840, 113549, 1, 1, 8])).length = 11 := by decide +kernel
  obtain ⟨ls, lma, lca⟩ := pssFields_lens a s ha hs
  obtain ⟨lt, lmb, lcb⟩ := pssFields_lens b t hb ht
  have hc := der_inj' (by omega) (by omega) h
  -- the last field
  have salt : ∀ u v : Nat, u < 2 ^ 64 → v < 2 ^ 64 → (derInt u).length ≤ 15 → (derInt v).length ≤ 15 →
      (if u = 20 then ([] : Bytes) else Spec.der 0xa2 (derInt u)) =
        (if v = 20 then [] else Spec.der 0xa2 (derInt v)) → u = v := by
    intro u v hu hv lu lv he
    by_cases hu2 : u = 20
    · rw [if_pos hu2] at he
      by_cases hv2 : v = 20
      · omega
      · rw [if_neg hv2] at he; exact absurd he (by simp [Spec.der])
    · rw [if_neg hu2] at he
      by_cases hv2 : v = 20
      · rw [if_pos hv2] at he; exact absurd he (by simp [Spec.der])
      · rw [if_neg hv2] at he
        exact derInt_inj hu hv (der_inj' (by omega) (by omega) he)
  by_cases h1 : a = oidOctets 1 3 [14, 3, 2, 26]
  · rw [if_pos h1, if_pos h1] at hc
    by_cases h2 : b = oidOctets 1 3 [14, 3, 2, 26]
    · rw [if_pos h2, if_pos h2] at hc
      exact ⟨h1.trans h2.symm, salt s t hs ht ls lt hc⟩
    · rw [if_neg h2, if_neg h2] at hc
      exfalso
      by_cases h3 : s = 20
      · rw [if_pos h3] at hc; exact absurd hc (by simp [Spec.der])
      · rw [if_neg h3] at hc
        have := congrArg List.head? hc
        simp [Spec.der] at this
  · rw [if_neg h1, if_neg h1] at hc
    by_cases h2 : b = oidOctets 1 3 [14, 3, 2, 26]
    · rw [if_pos h2, if_pos h2] at hc
      exfalso
      by_cases h3 : t = 20
      · rw [if_pos h3] at hc; exact absurd hc (by simp [Spec.der])
      · rw [if_neg h3] at hc
        have := congrArg List.head? hc
        simp [Spec.der] at this
    · rw [if_neg h2, if_neg h2, List.append_assoc, List.append_assoc] at hc
      obtain ⟨e1, e2⟩ := der_inj (by omega) (by omega) hc
      obtain ⟨e3, e4⟩ := der_inj (by omega) (by omega) e2
      exact ⟨nullAlg_inj ha hb e1, salt s t hs ht ls lt e4⟩

theorem rsassaPssSignatureAlg_inj {a b : Bytes} {s t : Nat} (ha : a.length < 2 ^ 20) (hb : b.length < 2 ^ 20)
    (hs : s < 2 ^ 64) (ht : t < 2 ^ 64) (h : rsassaPssSignatureAlg a a s = rsassaPssSignatureAlg b b t) :
    a = b ∧ s = t := by
  have hl : ∀ x : Bytes, ∀ u : Nat, x.length < 2 ^ 20 → u < 2 ^ 64 →
      (Spec.der 0x06 (oidOctets 1 2 [840, 113549, 1, 1, 10]) ++ rsassaPssParams x x u).length < 2 ^ 28 ∧
      (rsassaPssParams x x u).length < 2 ^ 28 := by
    intro x u hx hu
    obtain ⟨-, -, l⟩ := pssFields_lens x u hx hu
    have l2 : (rsassaPssParams x x u).length ≤ _ := der_length_le (tag := 0x30) (by omega)
    have l3 : (Spec.der 0x06 (oidOctets 1 2 [840, 113549, 1, 1, 10])).length = 11 := by decide +kernel
    rw [List.length_append]
    omega
  have h1 := der_inj' (hl a s ha hs).1 (hl b t hb ht).1 h
  exact rsassaPssParams_inj ha hb hs ht (List.append_cancel_left h1)

/-- C65 (full statement: the identifier a PSS signing key publishes is the RFC 4055 identifier of the hash, MGF1 over the
same hash and the salt length the key uses). Proved: it is the RFC 4055 identifier with the salt length modulo 256; that
structure determines hash and salt length; hence it is the right one exactly for salt lengths below 256.
Missing: longer salts, for which it is false (C41). -/
theorem C65_pss_identifier_partial {D : HashFn} (oid : Bytes) (ho : oid.length < 2 ^ 20) (k : PrivateKey)
    (saltLen : Nat) (hs : saltLen < 2 ^ 64) :
    (pss.SigningKey.mk (D := D) k saltLen).signatureAlgorithmDer oid =
      .ok (rsassaPssSignatureAlg oid oid (saltLen % 256)) ∧
    (pss.BlindedSigningKey.mk (D := D) k saltLen).signatureAlgorithmDer oid =
      .ok (rsassaPssSignatureAlg oid oid (saltLen % 256)) ∧
    pss.defaultSignatureAlgorithmDer D oid = .ok (rsassaPssSignatureAlg oid oid (D.outLen % 256)) ∧
    (∀ oid' salt', oid'.length < 2 ^ 20 → salt' < 2 ^ 64 →
      ((pss.SigningKey.mk (D := D) k saltLen).signatureAlgorithmDer oid =
        .ok (rsassaPssSignatureAlg oid' oid' salt') ↔ oid' = oid ∧ salt' = saltLen % 256)) ∧
    ((pss.SigningKey.mk (D := D) k saltLen).signatureAlgorithmDer oid =
      .ok (rsassaPssSignatureAlg oid oid saltLen) ↔ saltLen < 256) := by
  have e : ∀ n : Nat, (UInt8.ofNat n).toNat = n % 256 := fun n => by simp
  have h1 : (pss.SigningKey.mk (D := D) k saltLen).signatureAlgorithmDer oid =
      .ok (rsassaPssSignatureAlg oid oid (saltLen % 256)) := by
    rw [← e]; exact pss_alg_der ho _
  have h4 : ∀ oid' salt', oid'.length < 2 ^ 20 → salt' < 2 ^ 64 →
      ((pss.SigningKey.mk (D := D) k saltLen).signatureAlgorithmDer oid =
        .ok (rsassaPssSignatureAlg oid' oid' salt') ↔ oid' = oid ∧ salt' = saltLen % 256) := by
    intro oid' salt' hl hsl
    rw [h1]
    constructor
    · intro h
      injection h with h
      obtain ⟨a, b⟩ := rsassaPssSignatureAlg_inj ho hl (by omega) hsl h
      exact ⟨a.symm, b.symm⟩
    · rintro ⟨rfl, rfl⟩; rfl
  refine ⟨h1, ?_, ?_, h4, ?_⟩
  · rw [← e]; exact pss_alg_der ho _
  · rw [← e]; exact pss_alg_der ho _
  · rw [h4 oid saltLen ho hs]
    constructor
    · rintro ⟨-, h⟩; omega
    · intro h; exact ⟨rfl, by omega⟩

/- SHA-256 with a 32-byte salt: the parameters of RFC 4055 §6 (`rSASSA-PSS-SHA256-Identifier` with the salt length
added). -/
example : (pss.SigningKey.mk (D := Ex.hash4) Ex.key 32).signatureAlgorithmDer
      [0x60, 0x86, 0x48, 0x01, 0x65, 0x03, 0x04, 0x02, 0x01] =
    .ok [0x30, 0x41, 0x06, 0x09, 0x2a, 0x86, 0x48, 0x86, 0xf7, 0x0d, 0x01, 0x01, 0x0a, 0x30, 0x34, 0xa0, 0x0f, 0x30, 0x0d,
      0x06, 0x09, 0x60, 0x86, 0x48, 0x01, 0x65, 0x03, 0x04, 0x02, 0x01, 0x05, 0x00, 0xa1, 0x1c, 0x30, 0x1a, 0x06, 0x09,
      0x2a, 0x86, 0x48, 0x86, 0xf7, 0x0d, 0x01, 0x01, 0x08, 0x30, 0x0d, 0x06, 0x09, 0x60, 0x86, 0x48, 0x01, 0x65, 0x03,
      0x04, 0x02, 0x01, 0x05, 0x00, 0xa2, 0x03, 0x02, 0x01, 0x20] := by decide +kernel

/- SHA-1 with a 20-byte salt: all defaults, empty parameters. -/
example : (pss.SigningKey.mk (D := Ex.hash4) Ex.key 20).signatureAlgorithmDer [0x2b, 0x0e, 0x03, 0x02, 0x1a] =
    .ok [0x30, 0x0d, 0x06, 0x09, 0x2a, 0x86, 0x48, 0x86, 0xf7, 0x0d, 0x01, 0x01, 0x0a, 0x30, 0x00] := by decide +kernel

/-- RFC 8017 appendix A.2.4: last arc of the `…WithRSAEncryption` identifier of a hash function. -/
def rfcSignatureArc : pkcs1v15.OidHash → Nat
  | .sha1 => 5
  | .sha224 => 14
  | .sha256 => 11
  | .sha384 => 12
  | .sha512 => 13

/-- C65, PKCS#1 v1.5: the published identifier is the RFC 8017 one with NULL parameters and determines the hash; the key
identifier of every key type is `rsaEncryption`. -/
theorem C65_pkcs1v15_identifier (h h' : pkcs1v15.OidHash) :
    der.encodeAlgorithmId (pkcs1v15.signatureAlgorithmIdentifier h.signatureOid) =
      .ok (nullAlg (oidOctets 1 2 [840, 113549, 1, 1, rfcSignatureArc h])) ∧
    (pkcs1v15.signatureAlgorithmIdentifier h.signatureOid = pkcs1v15.signatureAlgorithmIdentifier h'.signatureOid →
      h = h') ∧
    der.encodeAlgorithmId associatedAlgorithmIdentifier = .ok rsaEncryptionAlg ∧
    verifyAlgorithmId (pkcs1v15.signatureAlgorithmIdentifier h.signatureOid) = .err .pkcs8 := by
  refine ⟨by cases h <;> decide +kernel, ?_, encodeAlgorithmId_rsa, by cases h <;> decide +kernel⟩
  cases h <;> cases h' <;> decide +kernel

end RSA
