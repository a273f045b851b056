import Verif.Proof.WordsWrite
import Verif.Props.WordsRecover
import Verif.Props.WordsGenerate
import Verif.Props.Encoding

/-! C109: documents written on machines with words of other sizes. -/
namespace RSA
open Spec BoxedUint
open words (PubKey PrivKey)

variable {w w' : Nat}

/-! ### Words of eight octets -/

theorem crtExponent_word8 (d p : BoxedUint) : words.crtExponent d.atWord8 p.atWord8 =
    (crtExponent d p >>= fun x => .ok x.atWord8) := by
  unfold words.crtExponent crtExponent
  have h : d.atWord8.prec = d.prec := rfl
  have ho : (words.Uint.one : words.Uint 8) = BoxedUint.one.atWord8 := rfl
  rw [h, ho, widen_word8]
  cases p.widen d.prec with
  | ok p1 =>
    simp only [Res.ok_bind, sub_word8]
    cases p1.sub BoxedUint.one with
    | ok p2 =>
      simp only [Res.ok_bind, expectNonZero_word8]
      cases expectNonZero p2 <;> rfl
    | _ => rfl
  | _ => rfl

/-- C109: with words of eight octets the parametrised encoders are those of the rest of the model. -/
theorem C109_word8 (k : PrivateKey) (ho : k.pub.n.val % 2 = 1) :
    words.toPublicKeyDer (k.pub.atWord8 ho) = k.pub.toPublicKeyDer ∧
    words.toPkcs8Der (k.atWord8 ho) = k.toPkcs8Der := by
  refine ⟨rfl, ?_⟩
  unfold words.toPkcs8Der PrivateKey.toPkcs8Der words.crtCoefficient PrivateKey.crtCoefficient
  have hpr : (k.atWord8 ho).primes = k.primes.map BoxedUint.atWord8 := rfl
  have hd : (k.atWord8 ho).d = k.d.atWord8 := rfl
  rw [hpr, hd, List.length_map]
  by_cases h : k.primes.length > 2
  · rw [if_pos h, if_pos h]
  rw [if_neg h, if_neg h]
  simp only [primeAt_word8]
  cases primeAt k.primes 0 with
  | ok p =>
    simp only [Res.ok_bind]
    cases primeAt k.primes 1 with
    | ok q =>
      simp only [Res.ok_bind, crtExponent_word8]
      cases crtExponent k.d p with
      | ok x1 =>
        simp only [Res.ok_bind]
        cases crtExponent k.d q with
        | ok x2 =>
          simp only [Res.ok_bind, invMod_word8]
          cases q.invMod p <;> rfl
        | _ => rfl
      | _ => rfl
    | _ => rfl
  | _ => rfl

/-! ### Any words -/

theorem Small.of_4096 {v : Nat} (h : v < 2 ^ 4096) : Small v :=
  Small.of_lt (len := 512) (by norm_num) (by rw [pow256]; exact h)

theorem octetLen_mono {a b : Nat} (h : a ≤ b) : octetLen a ≤ octetLen b := by
  have := Nat.size_le_size h
  unfold octetLen
  omega

theorem readWidth_fits (hw : 0 < w) (hd : 8 * w ∣ 4096) {len : Nat} (h : len ≤ 512) :
    8 * w * words.readWidth w len ≤ 4096 := by
  obtain ⟨c, hc⟩ := hd
  have hc' : w * c = 512 := by rw [Nat.mul_assoc] at hc; omega
  have h1 : 1 ≤ c := by
    rcases Nat.eq_zero_or_pos c with h0 | h0
    · rw [h0] at hc'; omega
    · exact h0
  have h2 : words.readWidth w len ≤ c :=
    max_le h1 ((words.Uint.divCeil_le_iff hw len c).mpr (by omega))
  rw [hc]
  exact Nat.mul_le_mul_left _ h2

theorem PublicOk.lt_4096 {n : words.Uint w} {e : Nat} (h : PublicOk (8 * w * n.nlimbs) n.val e) : n.val < 2 ^ 4096 :=
  lt_of_lt_of_le n.isLt (Nat.pow_le_pow_right (by norm_num) h.1)

/-- C109: on every machine the document written of an acceptable public key is the RFC 5280 `SubjectPublicKeyInfo` around the
RFC 8017 `RSAPublicKey` of its numbers, and every machine whose words divide the greatest size allowed reads it as a key
with these numbers. -/
theorem C109_public (K : PubKey w) (hK : PublicOk (8 * w * K.n.nlimbs) K.n.val K.e.val) :
    words.toPublicKeyDer K = .ok (subjectPublicKeyInfo rsaEncryptionAlg (rsaPublicKey K.n.val K.e.val)) ∧
    ∀ w', 0 < w' → 8 * w' ∣ 4096 → ∃ K' : PubKey w',
      words.fromPublicKeyDer w' (subjectPublicKeyInfo rsaEncryptionAlg (rsaPublicKey K.n.val K.e.val)) = .ok K' ∧
        K'.n.val = K.n.val ∧ K'.e.val = K.e.val := by
  have hlt := PublicOk.lt_4096 hK
  have hn : Small K.n.val := Small.of_4096 hlt
  have he : Small K.e.val := Small.of_4096 (hK.2.1.trans hlt)
  refine ⟨words.toPublicKeyDer_eq K hn he, fun w' hw' hd' => ?_⟩
  have hodd : (stored K.n.val).val % 2 = 1 := by rw [stored_val]; exact hK.2.2.1
  have hn0 : K.n.val ≠ 0 := by have := hK.2.1; omega
  have hchk : checkPublicWithMaxSize (stored K.n.val) (stored K.e.val) maxSize = .ok () := by
    rw [checkPublicWithMaxSize_ok]
    simp only [stored_val]
    refine ⟨?_, hK.2⟩
    have h1 := stored_nlimbs_le (⟨64, K.n.val, hlt⟩ : BoxedUint) hn0
    have h2 : (stored K.n.val).nlimbs ≤ 64 := h1
    unfold prec maxSize
    omega
  have h64 : PublicKey.fromPublicKeyDer (subjectPublicKeyInfo rsaEncryptionAlg (rsaPublicKey K.n.val K.e.val)) =
      .ok ⟨stored K.n.val, stored K.e.val, ⟨⟨stored K.n.val, hodd⟩⟩⟩ := by
    rw [fromPublicKeyDer_eq GoodAlg.rsa hn he, publicKey_new_ok _ _ hodd hchk]; rfl
  have h8 := (C105_word8 (subjectPublicKeyInfo rsaEncryptionAlg (rsaPublicKey K.n.val K.e.val))).2.1
  rw [h64, Res.ok_bind, Res.bind_eq_ok] at h8
  obtain ⟨K8, hK8, hv⟩ := h8
  have hv := Res.ok.inj hv
  have hvn : K8.n.val = K.n.val := by
    have : K8.n = (stored K.n.val).atWord8 := congrArg Prod.fst hv
    rw [this]; exact stored_val _
  have hve : K8.e.val = K.e.val := by
    have : K8.e = (stored K.e.val).atWord8 := congrArg Prod.snd hv
    rw [this]; exact stored_val _
  obtain ⟨-, K', h1, h2, h3, -⟩ := C105_public (w := 8) (w' := w') (by norm_num) hw' (by norm_num) hd' hK8
  exact ⟨K', h1, h2.trans hvn, h3.trans hve⟩

theorem readBack_key (hw : 0 < w) {key : Bytes} {rk : der.RsaPrivateKey} (hl : key.length ≤ 2 ^ 24)
    (hdec : der.decodeRsaPrivateKey key = .ok rk) (hm : rk.multi = false) (hodd : beVal rk.modulus % 2 = 1)
    (h1 : rk.privateExponent.length ≤ rk.modulus.length) (h2 : rk.prime1.length ≤ rk.modulus.length)
    (h3 : rk.prime2.length ≤ rk.modulus.length)
    (hn : (words.Uint.wrap (w := w) (words.readWidth w rk.modulus.length) (beVal rk.modulus)).val % 2 = 1)
    (hval : words.validate (words.readKey w rk hn) = .ok ()) {K : PrivKey w}
    (hc : words.tryPrecompute (words.readKey w rk hn) = .ok K) :
    words.fromPkcs8Der w (privateKeyInfo rsaEncryptionAlg key) = .ok K := by
  unfold words.fromPkcs8Der
  rw [decodePrivateKeyInfo_eq GoodAlg.rsa hl, Res.ok_bind,
    words.tryFromInfo_eq hw GoodAlg.rsa.verify hdec hm hodd h1 h2 h3, hval, Res.ok_bind, hc]
  rfl

theorem readBack_wellFormed (hw : 0 < w) (hd : 8 * w ∣ 4096) {b : Bytes} {K : PrivKey w}
    (h : words.fromPkcs8Der w b = .ok K)
    (hn : RsaNumbers K.pub.n.val K.pub.e.val K.d.val (K.primes.map words.Uint.val)) :
    WordsWellFormed K ∧ WordsFor w (octetLen K.pub.n.val) K.pub.n.nlimbs :=
  ⟨(C105_private hw hw hd hd h).2.2.2.2.2.1 hn, (C105_private hw hw hd hd h).1⟩

/-- C109: on every machine the document written of a well-formed private key of two primes, with acceptable public part and
primes stored no wider than the private exponent, is the RFC 8017 `RSAPrivateKey` inside the RFC 5208 `PrivateKeyInfo` of
its numbers; if the private exponent is below the modulus, every machine whose words divide the greatest size allowed
reads it as a well-formed key with these numbers, its modulus without spare words. -/
theorem C109_private (hw : 0 < w) (K : PrivKey w) (hK : WordsWellFormed K)
    (hpub : PublicOk (8 * w * K.pub.n.nlimbs) K.pub.n.val K.pub.e.val) (p q : words.Uint w) (hps : K.primes = [p, q])
    (hp : p.nlimbs ≤ K.d.nlimbs) (hq : q.nlimbs ≤ K.d.nlimbs) (hd : K.d.val < K.pub.n.val) :
    ∃ qi, qi < p.val ∧ qi * q.val % p.val = 1 ∧
      words.toPkcs8Der K = .ok (privateKeyInfo rsaEncryptionAlg (rsaPrivateKey K.pub.n.val K.pub.e.val K.d.val p.val q.val
        (K.d.val % (p.val - 1)) (K.d.val % (q.val - 1)) qi)) ∧
      ∀ w', 0 < w' → 8 * w' ∣ 4096 → ∃ K' : PrivKey w',
        words.fromPkcs8Der w' (privateKeyInfo rsaEncryptionAlg (rsaPrivateKey K.pub.n.val K.pub.e.val K.d.val p.val q.val
          (K.d.val % (p.val - 1)) (K.d.val % (q.val - 1)) qi)) = .ok K' ∧
        K'.pub.n.val = K.pub.n.val ∧ K'.pub.e.val = K.pub.e.val ∧ K'.d.val = K.d.val ∧
        K'.primes.map words.Uint.val = [p.val, q.val] ∧ WordsWellFormed K' ∧
        WordsFor w' (octetLen K.pub.n.val) K'.pub.n.nlimbs := by
  have hnum := hK.numbers
  rw [hps] at hnum
  have hpp : p.val.Prime := hnum.prime _ (by simp)
  have hqp : q.val.Prime := hnum.prime _ (by simp)
  have hne : p.val ≠ q.val := by have := hnum.nodup; simpa using this
  have hprod : p.val * q.val = K.pub.n.val := by have := hnum.prod; simpa using this
  have hco : Nat.Coprime q.val p.val := (Nat.coprime_primes hqp hpp).mpr hne.symm
  have hlt := PublicOk.lt_4096 hpub
  have hple : p.val ≤ K.pub.n.val := by rw [← hprod]; exact Nat.le_mul_of_pos_right _ hqp.pos
  have hqle : q.val ≤ K.pub.n.val := by rw [← hprod]; exact Nat.le_mul_of_pos_left _ hpp.pos
  obtain ⟨r, hr⟩ := natInvMod_isSome hpp.pos hco
  obtain ⟨_, hrlt, _, heq⟩ := natInvMod_some hr
  have hv : (words.Uint.wrap (w := w) p.nlimbs r).val = r := words.Uint.wrap_val_of_lt (lt_trans hrlt p.isLt)
  have hinv : q.invMod p = some (words.Uint.wrap p.nlimbs r) := by unfold words.Uint.invMod; rw [hr]; rfl
  have sm : ∀ v, v ≤ K.pub.n.val → Small v := fun v h => Small.of_4096 (lt_of_le_of_lt h hlt)
  have sn := sm _ le_rfl
  have se := sm _ hpub.2.1.le
  have sd := sm _ hd.le
  have sp := sm _ hple
  have sq := sm _ hqle
  have s1 := sm (K.d.val % (p.val - 1)) ((Nat.mod_le _ _).trans hd.le)
  have s2 := sm (K.d.val % (q.val - 1)) ((Nat.mod_le _ _).trans hd.le)
  have s3 := sm r (hrlt.le.trans hple)
  have hdoc := words.toPkcs8Der_eq hw K hps (Nat.mul_le_mul_left _ hp) (Nat.mul_le_mul_left _ hq) hpp.one_lt hqp.one_lt hinv
    sn se sd sp sq s1 s2 (by rw [hv]; exact s3)
  rw [hv] at hdoc
  refine ⟨r, hrlt, by rw [mul_comm, heq, Nat.mod_eq_of_lt hpp.one_lt], hdoc, fun w' hw' hd' => ?_⟩
  have hl := (rsaPrivateKey_length sn se sd sp sq s1 s2 s3).2
  have hn0 : K.pub.n.val ≠ 0 := by omega
  have hdec := decodeRsaPrivateKey_eq sn se sd sp sq s1 s2 s3
  have len : ∀ v, v ≠ 0 → v ≤ K.pub.n.val → (uintBytes v).length ≤ (uintBytes K.pub.n.val).length := by
    intro v h0 h
    rw [uintBytes_length h0, uintBytes_length hn0]
    exact octetLen_mono h
  have hexp := hnum.exp
  have hd0 : K.d.val ≠ 0 := by
    intro h0
    have := hexp p.val (by simp)
    rw [h0, zero_mul, Nat.zero_mod] at this
    cases this
  have l1 := len _ hd0 hd.le
  have l2 := len _ hpp.pos.ne' hple
  have l3 := len _ hqp.pos.ne' hqle
  have hodd : beVal (uintBytes K.pub.n.val) % 2 = 1 := by rw [uintBytes_beVal]; exact hpub.2.2.1
  obtain ⟨rk, hdec, m0, m1, m2, m3, m4, m5⟩ : ∃ rk, der.decodeRsaPrivateKey (rsaPrivateKey K.pub.n.val K.pub.e.val K.d.val
      p.val q.val (K.d.val % (p.val - 1)) (K.d.val % (q.val - 1)) r) = .ok rk ∧ rk.multi = false ∧
      rk.modulus = uintBytes K.pub.n.val ∧ rk.publicExponent = uintBytes K.pub.e.val ∧
      rk.privateExponent = uintBytes K.d.val ∧ rk.prime1 = uintBytes p.val ∧ rk.prime2 = uintBytes q.val :=
    ⟨_, hdec, rfl, rfl, rfl, rfl, rfl, rfl⟩
  have hodd' : beVal rk.modulus % 2 = 1 := by rw [m1]; exact hodd
  have hn'' : (words.Uint.wrap (w := w') (words.readWidth w' rk.modulus.length) (beVal rk.modulus)).val % 2 = 1 := by
    unfold words.readWidth; rw [words.slice_val hw' le_rfl]; exact hodd'
  have k1 : rk.privateExponent.length ≤ rk.modulus.length := by rw [m1, m3]; exact l1
  have k2 : rk.prime1.length ≤ rk.modulus.length := by rw [m1, m4]; exact l2
  have k3 : rk.prime2.length ≤ rk.modulus.length := by rw [m1, m5]; exact l3
  obtain ⟨e1, e2, e3, e4⟩ := words.readKey_vals hw' hn'' k1 k2 k3
  rw [m1, uintBytes_beVal] at e1
  rw [m2, uintBytes_beVal] at e2
  rw [m3, uintBytes_beVal] at e3
  rw [m4, m5, uintBytes_beVal, uintBytes_beVal] at e4
  have hval : words.validate (words.readKey w' rk hn'') = .ok () := by
    rw [words.readKey_validate hw' hn'' k1 k2 k3, words_checkPublic_ok, e1, e2]
    rw [m1, m2, m3, m4, m5]
    simp only [uintBytes_beVal]
    have hlen : (uintBytes K.pub.n.val).length ≤ 512 := by
      rw [uintBytes_length hn0]
      exact octetLen_le (by rw [pow256]; exact hlt)
    refine ⟨⟨?_, hpub.2⟩, ?_, ?_⟩
    · show 8 * w' * words.readWidth w' rk.modulus.length ≤ 4096
      rw [m1]
      exact readWidth_fits hw' hd' hlen
    · rw [hprod, Nat.mod_eq_of_lt]
      have := (words.readKey w' rk hn'').pub.n.isLt
      rw [e1] at this
      have h : (words.readKey w' rk hn'').pub.n.nlimbs = words.readWidth w' (uintBytes K.pub.n.val).length := by
        show words.readWidth w' rk.modulus.length = _
        rw [m1]
      rwa [h] at this
    · intro x hx
      refine ⟨(hnum.prime x hx).one_lt, hexp x hx⟩
  obtain ⟨c, hc, -⟩ := words.readKey_precompute hw' hn'' k1 k2 k3 hval
  have hok : words.fromPkcs8Der w' (privateKeyInfo rsaEncryptionAlg (rsaPrivateKey K.pub.n.val K.pub.e.val K.d.val p.val
      q.val (K.d.val % (p.val - 1)) (K.d.val % (q.val - 1)) r)) =
      .ok { words.readKey w' rk hn'' with precomputed := c } := by
    exact readBack_key hw' hl hdec m0 hodd' k1 k2 k3 hn'' hval hc
  have hback := readBack_wellFormed hw' hd' hok ?_
  · refine ⟨_, hok, e1, e2, e3, e4, hback.1, ?_⟩
    rw [← e1]
    exact hback.2
  show RsaNumbers (words.readKey w' rk hn'').pub.n.val (words.readKey w' rk hn'').pub.e.val
    (words.readKey w' rk hn'').d.val ((words.readKey w' rk hn'').primes.map words.Uint.val)
  rw [e1, e2, e3, e4]
  exact hnum

/-- C109: a key that `from_p_q` makes of two primes on one machine can be written there, and read everywhere as a
well-formed key with the same numbers. -/
theorem C109_from_p_q (hw : 0 < w) (p q e : words.Uint w) (hp : p.val.Prime) (hq : q.val.Prime) (K : PrivKey w)
    (h : words.fromPQ p q e = .ok K) :
    ∃ doc, words.toPkcs8Der K = .ok doc ∧ ∀ w', 0 < w' → 8 * w' ∣ 4096 → ∃ K' : PrivKey w',
      words.fromPkcs8Der w' doc = .ok K' ∧ K'.pub.n.val = p.val * q.val ∧ K'.pub.e.val = e.val ∧ K'.d.val = K.d.val ∧
      K'.primes.map words.Uint.val = [p.val, q.val] ∧ WordsWellFormed K' ∧
      WordsFor w' (octetLen (p.val * q.val)) K'.pub.n.nlimbs := by
  obtain ⟨h1, h2⟩ := C106_from_p_q hw p q e hp hq
  obtain ⟨g1, g2, g3, g4, g5, g6, -, -, g9⟩ := h1 K h
  obtain ⟨-, -, -, -, hpub⟩ := h2.mp ⟨K, h⟩
  have hnl : K.pub.n.nlimbs = p.nlimbs + q.nlimbs := by rw [g1]; exact (words.mul_vals p q).2
  have hdn : K.d.val < K.pub.n.val := by
    have a := Nat.sub_lt hp.pos Nat.one_pos
    have b := Nat.sub_le q.val 1
    have hl : Nat.lcm (p.val - 1) (q.val - 1) ≤ (p.val - 1) * (q.val - 1) := by
      refine Nat.le_of_dvd (Nat.mul_pos ?_ ?_) (Nat.lcm_dvd_mul _ _)
      · have := hp.one_lt; omega
      · have := hq.one_lt; omega
    have hm : (p.val - 1) * (q.val - 1) ≤ p.val * q.val := Nat.mul_le_mul a.le b
    rw [g2]
    omega
  obtain ⟨qi, -, -, hdoc, hread⟩ := C109_private hw K g9 (by rw [hnl, g2, g3]; exact hpub) p q g4 (by omega) (by omega) hdn
  refine ⟨_, hdoc, fun w' hw' hd' => ?_⟩
  obtain ⟨K', r1, r2, r3, r4, r5, r6, r7⟩ := hread w' hw' hd'
  exact ⟨K', r1, r2.trans g2, r3.trans (by rw [g3]), r4, r5, r6, by rw [← g2]; exact r7⟩

/-- C109: a key with a prime stored wider than its private exponent makes the encoder panic. -/
theorem C109_wide_panics (hw : 0 < w) (K : PrivKey w) (p q : words.Uint w) (hps : K.primes = [p, q])
    (h : K.d.nlimbs < p.nlimbs) : (words.toPkcs8Der K).Panics := by
  unfold words.toPkcs8Der
  rw [hps, if_neg (by simp)]
  have hp0 : words.primeAt [p, q] 0 = .ok p := rfl
  have hp1 : words.primeAt [p, q] 1 = .ok q := rfl
  have hx : words.crtExponent K.d p = .panic .precision := by
    unfold words.crtExponent
    rw [words.widen_panic (show K.d.prec < p.prec from Nat.mul_lt_mul_of_pos_left h (by omega))]
    rfl
  rw [hp0, Res.ok_bind, hp1, Res.ok_bind, hx]
  trivial

/-! ### Examples -/

/-- The hypotheses of `C109_public` and `C109_private`, with words of four octets. -/
example : PublicOk (8 * 4 * Ex.key4.pub.n.nlimbs) Ex.key4.pub.n.val Ex.key4.pub.e.val ∧ WordsWellFormed Ex.key4 ∧
    (∃ p q, Ex.key4.primes = [p, q] ∧ p.nlimbs ≤ Ex.key4.d.nlimbs ∧ q.nlimbs ≤ Ex.key4.d.nlimbs) ∧
    Ex.key4.d.val < Ex.key4.pub.n.val ∧ 8 * 4 ∣ 4096 ∧ 8 * 8 ∣ 4096 :=
  ⟨by unfold PublicOk; decide +kernel, Ex.key4_wf, ⟨_, _, rfl, by decide, by decide⟩, by decide +kernel, by norm_num,
    by norm_num⟩

/-- A machine with words of four octets and one with words of eight write the same document of the same key. -/
example : words.toPublicKeyDer Ex.key4.pub = words.toPublicKeyDer Ex.key8.pub := by decide +kernel

/-- A key made of two primes with words of four octets is written there, and read with words of eight. -/
example : ∃ K doc, words.fromPQ (w := 4) (words.Uint.wrap 3 (2 ^ 89 - 1)) (words.Uint.wrap 4 (2 ^ 127 - 1))
    (words.Uint.wrap 1 65537) = .ok K ∧ words.toPkcs8Der K = .ok doc ∧ ∃ K' : PrivKey 8, words.fromPkcs8Der 8 doc = .ok K' ∧
      K'.pub.n.val = (2 ^ 89 - 1) * (2 ^ 127 - 1) ∧ K'.pub.n.nlimbs = 4 ∧ WordsWellFormed K' := by
  have h89 : (words.Uint.wrap (w := 4) 3 (2 ^ 89 - 1)).val = 2 ^ 89 - 1 := by decide +kernel
  have h127 : (words.Uint.wrap (w := 4) 4 (2 ^ 127 - 1)).val = 2 ^ 127 - 1 := by decide +kernel
  have hp := Ex.prime89
  have hq := Ex.prime127
  rw [← h89] at hp
  rw [← h127] at hq
  obtain ⟨K, hK⟩ := (C106_from_p_q (w := 4) (by norm_num) (words.Uint.wrap 3 (2 ^ 89 - 1)) (words.Uint.wrap 4 (2 ^ 127 - 1))
    (words.Uint.wrap 1 65537) hp hq).2.mpr (by unfold PublicOk; decide +kernel)
  obtain ⟨doc, hdoc, hread⟩ := C109_from_p_q (by norm_num) _ _ _ hp hq K hK
  obtain ⟨K', r1, r2, -, -, -, r6, r7⟩ := hread 8 (by norm_num) (by norm_num)
  rw [h89, h127] at r2 r7
  have ho : octetLen ((2 ^ 89 - 1) * (2 ^ 127 - 1)) = 27 := by decide +kernel
  rw [ho] at r7
  exact ⟨K, doc, hK, hdoc, K', r1, r2, by have := r7.2.1; have := r7.2.2 4 (by norm_num) (by norm_num); omega, r6⟩

example := C109_word8 Ex.key (by decide +kernel)

/-- A key with a prime wider than the private exponent. -/
example : (words.toPkcs8Der ({ Ex.key4 with d := words.Uint.wrap 2 5 } : PrivKey 4)).Panics :=
  C109_wide_panics (by norm_num) _ _ _ rfl (by decide)

end RSA
