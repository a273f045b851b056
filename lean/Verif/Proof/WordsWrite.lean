import Verif.Model.WordsWrite
import Verif.Proof.WordsRecover
import Verif.Proof.WordsKey
import Verif.Proof.Encoding

/-! Documents written with words of any size. -/
namespace RSA
namespace words
open Uint Spec
open BoxedUint (beVal)

variable {w : Nat}

theorem beVal_toBeBytes (x : Uint w) : beVal x.toBeBytes = x.val := by
  unfold Uint.toBeBytes
  rw [BoxedUint.beVal_beBytes, BoxedUint.pow256, Nat.mod_eq_of_lt]
  have := x.isLt
  rwa [show 8 * (w * x.nlimbs) = 8 * w * x.nlimbs by ring]

theorem toPublicKeyDer_eq (k : PubKey w) (hn : (intOctets k.n.val).length ≤ 2 ^ 20)
    (he : (intOctets k.e.val).length ≤ 2 ^ 20) :
    toPublicKeyDer k = .ok (subjectPublicKeyInfo rsaEncryptionAlg (rsaPublicKey k.n.val k.e.val)) := by
  have hv := beVal_toBeBytes (w := w)
  have h1 := der_length_le (tag := 0x02) (c := intOctets k.n.val) (by omega)
  have h2 := der_length_le (tag := 0x02) (c := intOctets k.e.val) (by omega)
  have hl := rsaPublicKey_length hn he
  have h3 := der_length_le (tag := 0x03) (c := 0 :: rsaPublicKey k.n.val k.e.val) (by rw [List.length_cons]; omega)
  rw [List.length_cons] at h3
  have h4 := GoodAlg.rsa.length
  unfold toPublicKeyDer der.encodeRsaPublicKey
  rw [encodeUint_eq (hv _) (by unfold der.maxLen; omega), Res.ok_bind,
    encodeUint_eq (hv _) (by unfold der.maxLen; omega), Res.ok_bind,
    tlv_eq (by rw [List.length_append]; unfold derInt der.maxLen; omega), Res.ok_bind]
  unfold der.encodeSubjectPublicKeyInfo
  rw [encodeAlgorithmId_rsa, Res.ok_bind]
  show (der.tlv 0x03 (0 :: rsaPublicKey k.n.val k.e.val) >>= _) = _
  rw [tlv_eq (by rw [List.length_cons]; unfold der.maxLen; omega), Res.ok_bind,
    tlv_eq (by rw [List.length_append]; unfold der.maxLen; omega)]
  rfl

/-- The CRT exponent written by the encoder. -/
theorem crtExponent_eq (hw : 0 < w) {d p : Uint w} (hwp : p.prec ≤ d.prec) (hp : 1 < p.val) :
    ∃ x, crtExponent d p = .ok x ∧ x.val = d.val % (p.val - 1) := by
  obtain ⟨p', h1, h2, h3⟩ := widen_exists hw hwp
  obtain ⟨z, h4, h5, h6⟩ := sub_exists (x := p') (y := Uint.one) (by rw [one_val hw, h2]; omega)
  rw [h2, one_val hw] at h5
  refine ⟨d.rem z, ?_, ?_⟩
  · unfold crtExponent
    rw [h1, Res.ok_bind, h4, Res.ok_bind, expectNonZero_of_ne (by omega), Res.ok_bind]
  · rw [rem_val _ _ (by omega), h5]

/-- Encoding a private key with two primes. -/
theorem toPkcs8Der_eq (hw : 0 < w) (k : PrivKey w) {p q qi : Uint w} (hps : k.primes = [p, q]) (hpw : p.prec ≤ k.d.prec)
    (hqw : q.prec ≤ k.d.prec) (hp1 : 1 < p.val) (hq1 : 1 < q.val) (hqi : q.invMod p = some qi) (hn : Small k.pub.n.val)
    (he : Small k.pub.e.val) (hd : Small k.d.val) (hp : Small p.val) (hq : Small q.val)
    (hdp : Small (k.d.val % (p.val - 1))) (hdq : Small (k.d.val % (q.val - 1))) (hqis : Small qi.val) :
    toPkcs8Der k = .ok (privateKeyInfo rsaEncryptionAlg (rsaPrivateKey k.pub.n.val k.pub.e.val k.d.val p.val q.val
      (k.d.val % (p.val - 1)) (k.d.val % (q.val - 1)) qi.val)) := by
  obtain ⟨x1, hx1, hv1⟩ := crtExponent_eq hw hpw hp1
  obtain ⟨x2, hx2, hv2⟩ := crtExponent_eq hw hqw hq1
  obtain ⟨hl1, hl2⟩ := rsaPrivateKey_length hn he hd hp hq hdp hdq hqis
  have h0 : (derInt 0).length = 3 := by decide +kernel
  have h3 := GoodAlg.rsa.length
  have h4 := der_length_le (tag := 0x04) (c := rsaPrivateKey k.pub.n.val k.pub.e.val k.d.val p.val q.val
    (k.d.val % (p.val - 1)) (k.d.val % (q.val - 1)) qi.val) (by omega)
  unfold toPkcs8Der
  rw [hps, if_neg (by simp)]
  have hp0 : primeAt [p, q] 0 = .ok p := rfl
  have hp1 : primeAt [p, q] 1 = .ok q := rfl
  have hc : crtCoefficient k = .ok (some qi) := by
    unfold crtCoefficient
    rw [hps, hp0, Res.ok_bind, hp1, Res.ok_bind, hqi]
  rw [hp0, Res.ok_bind, hp1, Res.ok_bind, hx1, Res.ok_bind, hx2, Res.ok_bind, hc, Res.ok_bind]
  simp only
  unfold der.encodeRsaPrivateKey
  simp only [Bool.false_eq_true, if_false]
  rw [encodeUint_zero, Res.ok_bind, encodeUint_eq (beVal_toBeBytes _) hn.lt, Res.ok_bind,
    encodeUint_eq (beVal_toBeBytes _) he.lt, Res.ok_bind, encodeUint_eq (beVal_toBeBytes _) hd.lt, Res.ok_bind,
    encodeUint_eq (beVal_toBeBytes _) hp.lt, Res.ok_bind, encodeUint_eq (beVal_toBeBytes _) hq.lt, Res.ok_bind,
    encodeUint_eq ((beVal_toBeBytes _).trans hv1) hdp.lt, Res.ok_bind,
    encodeUint_eq ((beVal_toBeBytes _).trans hv2) hdq.lt, Res.ok_bind, encodeUint_eq (beVal_toBeBytes _) hqis.lt, Res.ok_bind,
    tlv_eq (by unfold der.maxLen; omega), Res.ok_bind]
  unfold der.encodePrivateKeyInfo
  simp only
  rw [encodeUint_zero, Res.ok_bind, encodeAlgorithmId_rsa, Res.ok_bind]
  show (der.tlv 0x04 (rsaPrivateKey ..) >>= _) = _
  rw [tlv_eq (by unfold der.maxLen; omega), Res.ok_bind,
    tlv_eq (by simp only [List.length_append]; unfold der.maxLen; omega)]
  rfl

end words
end RSA
