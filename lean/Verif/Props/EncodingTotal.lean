import Verif.Props.Pkcs1
import Verif.Model.Serde

/-
C77: the outcome of encoding a key, for every key.
-/
namespace RSA
open BoxedUint Spec

/-- Encoding with one limiting content length. -/
private structure Enc (x : Res Bytes) (b : Bytes) (l : Nat) : Prop where
  fits : l < der.maxLen → x = .ok b
  over : der.maxLen ≤ l → x = .err .pkcs8

private theorem Enc.bind {x : Res Bytes} {f : Bytes → Res Bytes} {b b' : Bytes} {l l' : Nat} (h : Enc x b l)
    (hl : l ≤ l') (h' : Enc (f b) b' l') : Enc (x >>= f) b' l' where
  fits hlt := by rw [h.fits (by omega), Res.ok_bind, h'.fits hlt]
  over hge := by
    by_cases hb : l < der.maxLen
    · rw [h.fits hb, Res.ok_bind, h'.over hge]
    · rw [h.over (by omega)]; rfl

private theorem Enc.ok_bind {f : Bytes → Res Bytes} {x : Res Bytes} {b b' : Bytes} {l : Nat} (h : x = .ok b)
    (h' : Enc (f b) b' l) : Enc (x >>= f) b' l := by rw [h, Res.ok_bind]; exact h'

private theorem Enc.tlv (t : UInt8) (c : Bytes) : Enc (der.tlv t c) (Spec.der t c) c.length where
  fits h := tlv_eq h
  over h := by unfold der.tlv; rw [if_neg (by omega)]

private theorem Enc.uint {b : Bytes} {v : Nat} (hv : beVal b = v) :
    Enc (der.encodeUint (der.uintRef b)) (derInt v) (intOctets v).length := by
  unfold der.encodeUint derInt
  rw [uintContent_uintRef, hv]
  exact Enc.tlv _ _

private theorem derInt_ge (v : Nat) : (intOctets v).length ≤ (derInt v).length := der_length _ _

/-- Contents of fewer than `2^28` octets are those that give a structure of fewer than `2^28 + 6`. -/
private theorem der_limit (t : UInt8) (c : Bytes) : c.length < der.maxLen ↔ (Spec.der t c).length < 2 ^ 28 + 6 := by
  unfold der.maxLen
  constructor
  · intro h
    have := der_length_le (tag := t) (c := c) (by omega)
    omega
  · intro h
    by_contra hge
    have h4 : 4 ≤ (natOctets c.length).length := by
      by_contra hlt
      have h1 := beVal_lt (natOctets c.length)
      rw [natOctets_beVal] at h1
      have h2 : 256 ^ (natOctets c.length).length ≤ 256 ^ 3 := Nat.pow_le_pow_right (by norm_num) (by omega)
      omega
    unfold Spec.der derLen at h
    rw [if_neg (by omega)] at h
    simp only [List.length_cons, List.length_append] at h
    omega

private theorem enc_rsaPrivate {bn be bd bp bq b1 b2 bc : Bytes} {n e d p q dp dq qi : Nat} (hn : beVal bn = n)
    (he : beVal be = e) (hd : beVal bd = d) (hp : beVal bp = p) (hq : beVal bq = q) (h1 : beVal b1 = dp)
    (h2 : beVal b2 = dq) (hc : beVal bc = qi) :
    Enc (der.encodeRsaPrivateKey ⟨false, der.uintRef bn, der.uintRef be, der.uintRef bd, der.uintRef bp, der.uintRef bq,
      der.uintRef b1, der.uintRef b2, der.uintRef bc⟩) (rsaPrivateKey n e d p q dp dq qi)
      (derInt 0 ++ derInt n ++ derInt e ++ derInt d ++ derInt p ++ derInt q ++ derInt dp ++ derInt dq ++ derInt qi).length := by
  have g := fun v => derInt_ge v
  unfold der.encodeRsaPrivateKey
  simp only [Bool.false_eq_true, if_false]
  refine Enc.ok_bind encodeUint_zero ?_
  refine Enc.bind (Enc.uint hn) (by have := g n; simp only [List.length_append]; omega) ?_
  refine Enc.bind (Enc.uint he) (by have := g e; simp only [List.length_append]; omega) ?_
  refine Enc.bind (Enc.uint hd) (by have := g d; simp only [List.length_append]; omega) ?_
  refine Enc.bind (Enc.uint hp) (by have := g p; simp only [List.length_append]; omega) ?_
  refine Enc.bind (Enc.uint hq) (by have := g q; simp only [List.length_append]; omega) ?_
  refine Enc.bind (Enc.uint h1) (by have := g dp; simp only [List.length_append]; omega) ?_
  refine Enc.bind (Enc.uint h2) (by have := g dq; simp only [List.length_append]; omega) ?_
  refine Enc.bind (Enc.uint hc) (by have := g qi; simp only [List.length_append]; omega) ?_
  exact Enc.tlv _ _

private theorem enc_rsaPublic {bn be : Bytes} {n e : Nat} (hn : beVal bn = n) (he : beVal be = e) :
    Enc (der.encodeRsaPublicKey ⟨der.uintRef bn, der.uintRef be⟩) (rsaPublicKey n e) (derInt n ++ derInt e).length := by
  unfold der.encodeRsaPublicKey
  refine Enc.bind (Enc.uint hn) (by have := derInt_ge n; simp only [List.length_append]; omega) ?_
  refine Enc.bind (Enc.uint he) (by have := derInt_ge e; simp only [List.length_append]; omega) ?_
  exact Enc.tlv _ _

private theorem uintRef_uintBytes (v : Nat) : der.uintRef (uintBytes v) = uintBytes v := by
  have hne : uintBytes v ≠ [] := by
    intro h0
    have := uintBytes_length_pos v
    rw [h0] at this
    exact absurd this (by decide)
  rw [uintRef_eq _ hne, uintBytes_beVal]

private theorem int_lt {v l : Nat} (h : (derInt v).length ≤ l) (hl : l < der.maxLen) : (intOctets v).length < der.maxLen :=
  lt_of_le_of_lt (le_trans (derInt_ge v) h) hl

private theorem decode_private {n e d p q dp dq qi : Nat}
    (hl : (derInt 0 ++ derInt n ++ derInt e ++ derInt d ++ derInt p ++ derInt q ++ derInt dp ++ derInt dq ++
      derInt qi).length < der.maxLen) :
    der.decodeRsaPrivateKey (rsaPrivateKey n e d p q dp dq qi) =
      .ok ⟨false, uintBytes n, uintBytes e, uintBytes d, uintBytes p, uintBytes q, uintBytes dp, uintBytes dq,
        uintBytes qi⟩ := by
  have lt : ∀ v ∈ [0, n, e, d, p, q, dp, dq, qi], (intOctets v).length < der.maxLen := by
    intro v hv
    refine int_lt (l := _) ?_ hl
    simp only [List.length_append]
    simp only [List.mem_cons, List.not_mem_nil, or_false] at hv
    rcases hv with rfl | rfl | rfl | rfl | rfl | rfl | rfl | rfl | rfl <;> omega
  unfold der.decodeRsaPrivateKey rsaPrivateKey
  rw [readTlv_der' hl]
  simp only [List.append_assoc, orErr_some, Res.ok_bind, finish_nil, readUint_derInt (lt 0 (by simp)),
    readUint_derInt (lt n (by simp)), readUint_derInt (lt e (by simp)), readUint_derInt (lt d (by simp)),
    readUint_derInt (lt p (by simp)), readUint_derInt (lt q (by simp)), readUint_derInt (lt dp (by simp)),
    readUint_derInt (lt dq (by simp))]
  have := readUint_derInt (n := qi) (r := []) (lt qi (by simp))
  rw [List.append_nil] at this
  rw [this, Res.ok_bind]
  rfl

private theorem decode_info {a : der.AlgorithmId} {alg key : Bytes} (ha : GoodAlg a alg)
    (hl : (derInt 0 ++ alg ++ Spec.der 0x04 key).length < der.maxLen) :
    der.decodePrivateKeyInfo (privateKeyInfo alg key) = .ok ⟨a, key⟩ := by
  have hz : Small 0 := by unfold Small; decide +kernel
  have h3 := der_length 0x04 key
  unfold der.decodePrivateKeyInfo privateKeyInfo
  rw [readTlv_der' hl]
  simp only [List.length_append] at hl
  simp only [List.append_assoc, orErr_some, Res.ok_bind, finish_nil, readUint_derInt hz.lt, ha.read,
    readTlv_der' (show key.length < der.maxLen by omega)]
  rfl

private theorem decode_spki {a : der.AlgorithmId} {alg key : Bytes} (ha : GoodAlg a alg)
    (hl : (alg ++ Spec.der 0x03 (0 :: key)).length < der.maxLen) :
    der.decodeSubjectPublicKeyInfo (subjectPublicKeyInfo alg key) = .ok ⟨a, 0, key⟩ := by
  have h3 := der_length 0x03 (0 :: key)
  unfold der.decodeSubjectPublicKeyInfo subjectPublicKeyInfo
  rw [readTlv_der' hl]
  rw [List.length_append] at hl
  show (der.readAlgorithmId (alg ++ _) >>= _) = _
  rw [ha.read, Res.ok_bind]
  show (der.orErr (der.readTlv 0x03 _) >>= _) = _
  rw [readTlv_der' (by omega)]
  show (if (0 : UInt8) > 7 ∨ ((0 : UInt8) ≠ 0 ∧ key = []) then Res.err .pkcs8 else
    Res.ok (⟨a, 0, key⟩ : der.SubjectPublicKeyInfo)) = _
  rw [if_neg]
  rintro (h | ⟨h, _⟩)
  · exact absurd h (by decide)
  · exact h rfl

private theorem decode_public {n e : Nat} (hl : (derInt n ++ derInt e).length < der.maxLen) :
    der.decodeRsaPublicKey (rsaPublicKey n e) = .ok ⟨uintBytes n, uintBytes e⟩ := by
  unfold der.decodeRsaPublicKey rsaPublicKey
  rw [readTlv_der' hl]
  rw [List.length_append] at hl
  show (der.readUint (derInt n ++ derInt e) >>= _) = _
  rw [readUint_derInt (int_lt (Nat.le_add_right _ (derInt e).length) hl), Res.ok_bind]
  show (der.readUint (derInt e) >>= _) = _
  have := readUint_derInt (n := e) (r := []) (int_lt (Nat.le_add_left _ (derInt n).length) hl)
  rw [List.append_nil] at this
  rw [this]
  rfl

/-- C77: a public key is encoded for every pair of numbers, as RFC 5280 and RFC 8017 say; only a document of `2^28 + 6`
octets or more, which the DER library does not write, is an error. The bare PKCS#1 form is refused in the same cases. -/
theorem C77_public_verdict (k : PublicKey) :
    let doc := subjectPublicKeyInfo rsaEncryptionAlg (rsaPublicKey k.n.val k.e.val)
    (doc.length < 2 ^ 28 + 6 → k.toPublicKeyDer = .ok doc ∧ k.toPkcs1Der = .ok (rsaPublicKey k.n.val k.e.val)) ∧
    (2 ^ 28 + 6 ≤ doc.length → k.toPublicKeyDer = .err .pkcs8 ∧ k.toPkcs1Der = .err .pkcs8) := by
  intro doc
  have hbound : (derInt k.n.val ++ derInt k.e.val).length ≤
      (rsaEncryptionAlg ++ Spec.der 0x03 (0 :: rsaPublicKey k.n.val k.e.val)).length := by
    have h1 := der_length 0x03 (0 :: rsaPublicKey k.n.val k.e.val)
    have h2 : (derInt k.n.val ++ derInt k.e.val).length ≤ (rsaPublicKey k.n.val k.e.val).length := der_length _ _
    rw [List.length_cons] at h1
    rw [List.length_append (as := rsaEncryptionAlg)]
    omega
  have henc : Enc k.toPublicKeyDer doc (rsaEncryptionAlg ++ Spec.der 0x03 (0 :: rsaPublicKey k.n.val k.e.val)).length := by
    unfold PublicKey.toPublicKeyDer
    refine Enc.bind (enc_rsaPublic (beVal_toBeBytes _) (beVal_toBeBytes _)) hbound ?_
    unfold der.encodeSubjectPublicKeyInfo
    refine Enc.ok_bind encodeAlgorithmId_rsa ?_
    refine Enc.bind (Enc.tlv 0x03 (0 :: rsaPublicKey k.n.val k.e.val)) ?_ (Enc.tlv _ _)
    have := der_length 0x03 (0 :: rsaPublicKey k.n.val k.e.val)
    rw [List.length_append]; omega
  have hlim := der_limit 0x30 (rsaEncryptionAlg ++ Spec.der 0x03 (0 :: rsaPublicKey k.n.val k.e.val))
  constructor
  · intro h
    have hc := hlim.mpr h
    refine ⟨henc.fits hc, ?_⟩
    unfold PublicKey.toPkcs1Der
    rw [henc.fits hc, Res.ok_bind, decode_spki GoodAlg.rsa hc, Res.ok_bind]
    simp only
    rw [show assertAlgorithmOid der.algorithmId der.rsaEncryptionOid = .ok () from by decide, Res.ok_bind,
      decode_public (by omega), Res.ok_bind]
    have := enc_rsaPublic (uintBytes_beVal k.n.val) (uintBytes_beVal k.e.val)
    rw [uintRef_uintBytes, uintRef_uintBytes] at this
    exact this.fits (by omega)
  · intro h
    have hc : der.maxLen ≤ _ := not_lt.mp (fun hc => absurd (hlim.mp hc) (not_lt.mpr h))
    refine ⟨henc.over hc, ?_⟩
    unfold PublicKey.toPkcs1Der
    rw [henc.over hc]; rfl

private theorem crtExponent_cases (d p : BoxedUint) :
    ((1 < p.val ∧ p.prec ≤ d.prec) ∧ ∃ x, crtExponent d p = .ok x ∧ x.val = d.val % (p.val - 1)) ∨
    ((p.val ≤ 1 ∨ d.prec < p.prec) ∧ ∃ w, crtExponent d p = .panic w) := by
  by_cases hw : p.prec ≤ d.prec
  · by_cases hp : 1 < p.val
    · exact Or.inl ⟨⟨hp, hw⟩, crtExponent_eq hw hp⟩
    · refine Or.inr ⟨Or.inl (by omega), ?_⟩
      obtain ⟨p', h1, h2, h3⟩ := widen_exists hw
      unfold crtExponent
      rw [h1, Res.ok_bind]
      by_cases h0 : p.val = 0
      · refine ⟨.arith, ?_⟩
        have : p'.sub BoxedUint.one = .panic .arith := by
          unfold BoxedUint.sub
          rw [if_neg (by rw [one_val, h2]; omega)]
        rw [this]; rfl
      · obtain ⟨z, h4, h5, h6⟩ := sub_exists (x := p') (y := BoxedUint.one) (by rw [one_val, h2]; omega)
        rw [h2, one_val] at h5
        refine ⟨.unwrap, ?_⟩
        have hz : expectNonZero z = .panic .unwrap := by
          unfold expectNonZero nonZero
          rw [show z.val = 0 by omega]; rfl
        rw [h4, Res.ok_bind, hz]; rfl
  · refine Or.inr ⟨Or.inr (by omega), .precision, ?_⟩
    unfold crtExponent widen
    rw [if_neg hw]; rfl

/-- C77: encoding a private key, for every key whatsoever. More than two factors are refused with an error, fewer crash.
With two, the encoder crashes exactly when one of them is 0 or 1 or is stored wider than the private exponent; otherwise it
refuses factors with a common divisor; otherwise it writes the RFC 8017 / RFC 5208 structure with the CRT values computed
from `d`, `p` and `q`, unless that would be `2^28 + 6` octets or longer. -/
theorem C77_private_verdict (k : PrivateKey) :
    (2 < k.primes.length → k.toPkcs8Der = .err .pkcs8 ∧ k.toPkcs1Der = .err .pkcs8) ∧
    (k.primes.length < 2 → k.toPkcs8Der.Panics ∧ k.toPkcs1Der.Panics) ∧
    (∀ p q, k.primes = [p, q] →
      let sound := 1 < p.val ∧ 1 < q.val ∧ p.prec ≤ k.d.prec ∧ q.prec ≤ k.d.prec
      (¬ sound → k.toPkcs8Der.Panics ∧ k.toPkcs1Der.Panics) ∧
      (sound → ¬ Nat.Coprime q.val p.val → k.toPkcs8Der = .err .pkcs8 ∧ k.toPkcs1Der = .err .pkcs8) ∧
      (sound → Nat.Coprime q.val p.val → ∃ qi, qi < p.val ∧ qi * q.val % p.val = 1 ∧
        let key := rsaPrivateKey k.pub.n.val k.pub.e.val k.d.val p.val q.val (k.d.val % (p.val - 1)) (k.d.val % (q.val - 1)) qi
        let doc := privateKeyInfo rsaEncryptionAlg key
        (doc.length < 2 ^ 28 + 6 → k.toPkcs8Der = .ok doc ∧ k.toPkcs1Der = .ok key) ∧
        (2 ^ 28 + 6 ≤ doc.length → k.toPkcs8Der = .err .pkcs8 ∧ k.toPkcs1Der = .err .pkcs8))) := by
  have herr : k.toPkcs8Der = .err .pkcs8 → k.toPkcs8Der = .err .pkcs8 ∧ k.toPkcs1Der = .err .pkcs8 := by
    intro h
    refine ⟨h, ?_⟩
    unfold PrivateKey.toPkcs1Der
    rw [h]; rfl
  have hpan : (∃ w, k.toPkcs8Der = .panic w) → k.toPkcs8Der.Panics ∧ k.toPkcs1Der.Panics := by
    rintro ⟨w, h⟩
    refine ⟨by rw [h]; trivial, ?_⟩
    unfold PrivateKey.toPkcs1Der
    rw [h]; trivial
  refine ⟨fun h => herr ?_, fun h => hpan ?_, fun p q hps => ?_⟩
  · unfold PrivateKey.toPkcs8Der; rw [if_pos h]
  · refine ⟨.bounds, ?_⟩
    unfold PrivateKey.toPkcs8Der
    rw [if_neg (by omega)]
    match hp : k.primes with
    | [] => rfl
    | [p] => rfl
    | _ :: _ :: _ => rw [hp] at h; simp at h
  · have hp0 : primeAt [p, q] 0 = .ok p := rfl
    have hp1 : primeAt [p, q] 1 = .ok q := rfl
    have hpre : k.toPkcs8Der = (do
        let exponent1 ← crtExponent k.d p
        let exponent2 ← crtExponent k.d q
        match q.invMod p with
        | none => .err .pkcs8
        | some coefficient => do
          let privateKey ← der.encodeRsaPrivateKey
            ⟨false, der.uintRef k.pub.n.toBeBytes, der.uintRef k.pub.e.toBeBytes, der.uintRef k.d.toBeBytes,
              der.uintRef p.toBeBytes, der.uintRef q.toBeBytes, der.uintRef exponent1.toBeBytes,
              der.uintRef exponent2.toBeBytes, der.uintRef coefficient.toBeBytes⟩
          der.encodePrivateKeyInfo ⟨der.algorithmId, privateKey⟩) := by
      have hc : k.crtCoefficient = .ok (q.invMod p) := by
        unfold PrivateKey.crtCoefficient
        rw [hps, hp0, Res.ok_bind, hp1, Res.ok_bind]
      unfold PrivateKey.toPkcs8Der
      rw [hps, if_neg (by simp)]
      simp only
      rw [hp0, Res.ok_bind, hp1, Res.ok_bind, hc]
      rfl
    intro sound
    rcases crtExponent_cases k.d p with ⟨⟨p1, p2⟩, x1, hx1, hv1⟩ | ⟨hbad, w, hw⟩
    · rcases crtExponent_cases k.d q with ⟨⟨q1, q2⟩, x2, hx2, hv2⟩ | ⟨hbad, w, hw⟩
      · rw [hx1, Res.ok_bind, hx2, Res.ok_bind] at hpre
        refine ⟨fun h => absurd ⟨p1, q1, p2, q2⟩ h, fun _ hco => herr ?_, fun _ hco => ?_⟩
        · have hinv : q.invMod p = none := by
            unfold invMod
            rw [(natInvMod_none (by omega)).mpr hco]; rfl
          rw [hpre, hinv]
        · obtain ⟨qi, h1, h2, h3⟩ := qinv_exists p1 hco
          rw [h1] at hpre
          refine ⟨qi.val, h2, h3, ?_⟩
          intro key doc
          have hk8 : key = rsaPrivateKey k.pub.n.val k.pub.e.val k.d.val p.val q.val (k.d.val % (p.val - 1))
            (k.d.val % (q.val - 1)) qi.val := rfl
          have hkey : Enc _ key _ := enc_rsaPrivate (beVal_toBeBytes k.pub.n) (beVal_toBeBytes k.pub.e)
            (beVal_toBeBytes k.d) (beVal_toBeBytes p) (beVal_toBeBytes q) ((beVal_toBeBytes x1).trans hv1)
            ((beVal_toBeBytes x2).trans hv2) (beVal_toBeBytes qi)
          set content := (derInt 0 ++ derInt k.pub.n.val ++ derInt k.pub.e.val ++ derInt k.d.val ++ derInt p.val ++
            derInt q.val ++ derInt (k.d.val % (p.val - 1)) ++ derInt (k.d.val % (q.val - 1)) ++ derInt qi.val) with hcon
          have hbound : content.length ≤ (derInt 0 ++ rsaEncryptionAlg ++ Spec.der 0x04 key).length := by
            have g1 := der_length 0x04 key
            have g2 : content.length ≤ key.length := der_length _ _
            simp only [List.length_append]
            omega
          have henc : Enc k.toPkcs8Der doc (derInt 0 ++ rsaEncryptionAlg ++ Spec.der 0x04 key).length := by
            rw [hpre]
            refine Enc.bind hkey hbound ?_
            unfold der.encodePrivateKeyInfo
            refine Enc.ok_bind encodeUint_zero (Enc.ok_bind encodeAlgorithmId_rsa ?_)
            refine Enc.bind (Enc.tlv 0x04 key) ?_ (Enc.tlv _ _)
            have := der_length 0x04 key
            simp only [List.length_append]; omega
          have hlim := der_limit 0x30 (derInt 0 ++ rsaEncryptionAlg ++ Spec.der 0x04 key)
          constructor
          · intro h
            have hc := hlim.mpr h
            refine ⟨henc.fits hc, ?_⟩
            unfold PrivateKey.toPkcs1Der
            rw [henc.fits hc, Res.ok_bind, decode_info GoodAlg.rsa hc, Res.ok_bind]
            simp only
            rw [show assertAlgorithmOid der.algorithmId der.rsaEncryptionOid = .ok () from by decide, Res.ok_bind, hk8,
              decode_private (lt_of_le_of_lt hbound hc), Res.ok_bind]
            have := enc_rsaPrivate (uintBytes_beVal k.pub.n.val) (uintBytes_beVal k.pub.e.val) (uintBytes_beVal k.d.val)
              (uintBytes_beVal p.val) (uintBytes_beVal q.val) (uintBytes_beVal (k.d.val % (p.val - 1)))
              (uintBytes_beVal (k.d.val % (q.val - 1))) (uintBytes_beVal qi.val)
            simp only [uintRef_uintBytes] at this
            exact this.fits (lt_of_le_of_lt hbound hc)
          · intro h
            exact herr (henc.over (not_lt.mp (fun hc => absurd (hlim.mp hc) (not_lt.mpr h))))
      · have hns : ¬ sound := by
          rintro ⟨_, h1, _, h2⟩
          rcases hbad with h | h <;> omega
        refine ⟨fun _ => hpan ⟨w, ?_⟩, fun h => absurd h hns, fun h => absurd h hns⟩
        rw [hpre, hx1, Res.ok_bind, hw]; rfl
    · have hns : ¬ sound := by
        rintro ⟨h1, _, h2, _⟩
        rcases hbad with h | h <;> omega
      refine ⟨fun _ => hpan ⟨w, ?_⟩, fun h => absurd h hns, fun h => absurd h hns⟩
      rw [hpre, hw]; rfl

/-- C77: errors of the encoders reach the callers of `serde` as errors and crashes as crashes; the value handed to the
serializer is the document written by the encoder. -/
theorem C77_serde (hr : Bool) (k : PrivateKey) (pk : PublicKey) :
    (∀ b, k.toPkcs8Der = .ok b → k.serdeSerialize hr = .ok (serializeHexLowerOrBin hr b)) ∧
    (∀ er, k.toPkcs8Der = .err er → k.serdeSerialize hr = .err .pkcs8) ∧
    (k.toPkcs8Der.Panics → (k.serdeSerialize hr).Panics) ∧
    (∀ b, pk.toPublicKeyDer = .ok b → pk.serdeSerialize hr = .ok (serializeHexLowerOrBin hr b)) ∧
    (∀ er, pk.toPublicKeyDer = .err er → pk.serdeSerialize hr = .err .pkcs8) ∧
    (∀ d er, PrivateKey.serdeDeserialize hr d = .err er → er = .pkcs8) ∧
    (∀ d er, PublicKey.serdeDeserialize hr d = .err er → er = .pkcs8) := by
  have hde : ∀ d er, deserializeHexOrBin hr d = .err er → er = .pkcs8 := by
    intro d er h
    unfold deserializeHexOrBin der.orErr at h
    split at h
    · split at h <;> simp at h; exact h.symm
    · simp at h
    · simp at h; exact h.symm
  have hse : ∀ {α : Type} (r : Res α) er, serdeErr r = .err er → er = .pkcs8 := by
    intro α r er h
    cases r <;> simp [serdeErr] at h
    exact h.symm
  refine ⟨?_, ?_, ?_, ?_, ?_, ?_, ?_⟩
  · intro b h; unfold PrivateKey.serdeSerialize; rw [h]; rfl
  · intro er h; unfold PrivateKey.serdeSerialize; rw [h]; rfl
  · intro h
    unfold PrivateKey.serdeSerialize
    cases hx : k.toPkcs8Der <;> rw [hx] at h <;> first | exact h.elim | trivial
  · intro b h; unfold PublicKey.serdeSerialize; rw [h]; rfl
  · intro er h; unfold PublicKey.serdeSerialize; rw [h]; rfl
  · intro d er h
    unfold PrivateKey.serdeDeserialize at h
    rw [Res.bind_eq_err] at h
    rcases h with h | ⟨b, _, h⟩
    · exact hde d er h
    · exact hse _ er h
  · intro d er h
    unfold PublicKey.serdeDeserialize at h
    rw [Res.bind_eq_err] at h
    rcases h with h | ⟨b, _, h⟩
    · exact hde d er h
    · exact hse _ er h

/-- The example key is encoded; one with a factor 1, with one factor, with a
narrow exponent, with a repeated factor, or with three factors is treated as stated. -/
example :
    let k := Ex.key
    let with_ := fun (ps : List BoxedUint) (d : BoxedUint) => { k with primes := ps, d := d }
    (∃ b, k.toPkcs8Der = .ok b ∧ b.length < 2 ^ 28 + 6 ∧ 100 < b.length) ∧
    (with_ [wrap 2 1, wrap 2 7] (wrap 4 5)).toPkcs8Der = .panic .unwrap ∧
    (with_ [wrap 2 0, wrap 2 7] (wrap 4 5)).toPkcs8Der = .panic .arith ∧
    (with_ [wrap 2 7] (wrap 4 5)).toPkcs8Der = .panic .bounds ∧
    (with_ [wrap 2 5, wrap 2 7] (wrap 1 5)).toPkcs8Der = .panic .precision ∧
    (with_ [wrap 2 15, wrap 2 21] (wrap 4 5)).toPkcs8Der = .err .pkcs8 ∧
    (with_ [wrap 2 5, wrap 2 7, wrap 2 11] (wrap 4 5)).toPkcs8Der = .err .pkcs8 ∧
    (∃ b, (with_ [wrap 2 8, wrap 2 9] (wrap 4 5)).toPkcs8Der = .ok b) := by
  refine ⟨?_, by decide +kernel, by decide +kernel, by decide +kernel, by decide +kernel, by decide +kernel,
    by decide +kernel, ?_⟩
  · have h : (match Ex.key.toPkcs8Der with
      | .ok b => decide (b.length < 2 ^ 28 + 6 ∧ 100 < b.length)
      | _ => false) = true := by decide +kernel
    cases hx : Ex.key.toPkcs8Der <;> rw [hx] at h <;> simp at h
    exact ⟨_, rfl, h⟩
  · have h : (match ({ Ex.key with primes := [wrap 2 8, wrap 2 9], d := wrap 4 5 } : PrivateKey).toPkcs8Der with
      | .ok _ => true
      | _ => false) = true := by decide +kernel
    cases hx : ({ Ex.key with primes := [wrap 2 8, wrap 2 9], d := wrap 4 5 } : PrivateKey).toPkcs8Der <;>
      rw [hx] at h <;> simp at h
    exact ⟨_, rfl⟩

end RSA
