import Verif.Proof.WordsKey
import Verif.Props.WordsPrivate

/-! C105: accepting keys, reading documents and encrypting on machines with words of other sizes. -/
namespace RSA
open Spec
open words (PubKey PrivKey)
open BoxedUint (beBytes beVal beVal_lt beVal_eq_os2ip i2osp_eq pow256)

/-! ### Words of eight octets -/

theorem checkPublicWithMaxSize_word8 (n e : BoxedUint) (m : Nat) :
    words.checkPublicWithMaxSize n.atWord8 e.atWord8 m = checkPublicWithMaxSize n e m := by
  unfold words.checkPublicWithMaxSize checkPublicWithMaxSize
  have h1 : (BoxedUint.ofU64 minPubExponent).val = minPubExponent.toNat := by decide
  have h2 : (BoxedUint.ofU64 maxPubExponent).val = maxPubExponent.toNat := by decide
  simp only [BoxedUint.lt, BoxedUint.gt, h1, h2]
  simp only [decide_eq_true_eq]
  rfl

theorem validateProduct_word8 : ∀ (ps : List BoxedUint) (m : BoxedUint),
    words.validateProduct (ps.map BoxedUint.atWord8) m.atWord8 =
      (PrivateKey.validateProduct ps m >>= fun x => .ok x.atWord8) := by
  intro ps
  induction ps with
  | nil => intro m; rfl
  | cons p ps ih =>
    intro m
    rw [List.map_cons, words.validateProduct, PrivateKey.validateProduct]
    have h1 : (p.lt BoxedUint.one = true) ↔ p.atWord8.val < 1 := by
      unfold BoxedUint.lt
      rw [decide_eq_true_eq]
      rfl
    by_cases h : p.atWord8.val < 1
    · rw [if_pos h, if_pos (h1.mpr h)]; rfl
    · rw [if_neg h, if_neg (fun h' => h (h1.mp h'))]
      exact ih (m.wrappingMul p)

theorem expectNonZeroDec_word8 (p : BoxedUint) : words.expectNonZero p.atWord8.wrappingDec =
    (expectNonZero (p.wrappingSub BoxedUint.one) >>= fun x => .ok x.atWord8) := by
  have : p.atWord8.wrappingDec = (p.wrappingSub BoxedUint.one).atWord8 := rfl
  rw [this]
  generalize p.wrappingSub BoxedUint.one = y
  unfold words.expectNonZero expectNonZero BoxedUint.nonZero
  have hv : y.atWord8.val = y.val := rfl
  rw [hv]
  by_cases h : y.val = 0
  · simp [h]
  · simp [h]

theorem validateExponents_word8 (de : BoxedUint) (b : Nat) : ∀ ps : List BoxedUint,
    words.validateExponents de.atWord8 b (ps.map BoxedUint.atWord8) = PrivateKey.validateExponents de b ps := by
  intro ps
  induction ps with
  | nil => rfl
  | cons p ps ih =>
    rw [List.map_cons, words.validateExponents, PrivateKey.validateExponents, widen_word8]
    cases p.widen b with
    | ok p' =>
      simp only [Res.ok_bind]
      rw [expectNonZeroDec_word8]
      cases expectNonZero (p'.wrappingSub BoxedUint.one) with
      | ok x =>
        simp only [Res.ok_bind]
        have h1 : (de.atWord8.rem x.atWord8).val = (de.rem x).val := rfl
        have h2 : ((de.atWord8.rem x.atWord8).val != 1) = !(de.rem x).isOne := by
          rw [h1]; unfold BoxedUint.isOne; rfl
        rw [h2, ih]
      | _ => rfl
    | _ => rfl

theorem validate_word8 (k : PrivateKey) (ho : k.pub.n.val % 2 = 1) : words.validate (k.atWord8 ho) = k.validate := by
  unfold words.validate PrivateKey.validate
  have hc : words.checkPublic (k.atWord8 ho).pub = checkPublic k.pub := checkPublicWithMaxSize_word8 _ _ _
  rw [hc]
  cases checkPublic k.pub with
  | ok u =>
    simp only [Res.ok_bind]
    have e1 : words.Uint.oneWithPrecision (w := 8) (k.atWord8 ho).pub.n.prec =
      (BoxedUint.oneWithPrecision k.pub.n.prec).atWord8 := rfl
    have e2 : (k.atWord8 ho).primes = k.primes.map BoxedUint.atWord8 := rfl
    rw [e1, e2, validateProduct_word8]
    cases PrivateKey.validateProduct k.primes (BoxedUint.oneWithPrecision k.pub.n.prec) with
    | ok m =>
      simp only [Res.ok_bind]
      have e3 : m.atWord8.beq (k.atWord8 ho).pub.n = m.beq k.pub.n := rfl
      rw [e3]
      split
      · rfl
      · have e4 : (k.atWord8 ho).d = k.d.atWord8 := rfl
        have e5 : k.d.atWord8.prec = k.d.prec := rfl
        rw [e4, e5, widen_word8]
        cases k.d.widen (2 * k.d.prec) with
        | ok d =>
          simp only [Res.ok_bind]
          exact validateExponents_word8 (d.wrappingMul k.pub.e) d.prec k.primes
        | _ => rfl
    | _ => rfl
  | _ => rfl

theorem uintFromSlice_word8 (b : Bytes) (bits : Nat) :
    words.uintFromSlice 8 b bits = (uintFromSlice b bits >>= fun x => .ok x.atWord8) := by
  unfold words.uintFromSlice uintFromSlice
  rw [fromBeSlice_word8]
  cases BoxedUint.fromBeSlice b bits <;> rfl

/-- The parts of a public key. -/
def PublicKey.parts8 (k : PublicKey) : words.Uint 8 × words.Uint 8 := (k.n.atWord8, k.e.atWord8)
/-- The parts of a private key. -/
def PrivateKey.parts8 (k : PrivateKey) :
    words.Uint 8 × words.Uint 8 × words.Uint 8 × List (words.Uint 8) × Option (words.Pre 8) :=
  (k.pub.n.atWord8, k.pub.e.atWord8, k.d.atWord8, k.primes.map BoxedUint.atWord8, k.precomputed.map Precomputed.atWord8)
/-- The parts of a private key of the parametrised model. -/
def words.PrivKey.parts {w : Nat} (k : PrivKey w) :
    words.Uint w × words.Uint w × words.Uint w × List (words.Uint w) × Option (words.Pre w) :=
  (k.pub.n, k.pub.e, k.d, k.primes, k.precomputed)

theorem mapErr_bind {α β : Type} (r : Res α) (f : α → β) :
    (mapErrMalformed r >>= fun x => .ok (f x)) = mapErrMalformed (r >>= fun x => .ok (f x)) := by
  cases r <;> rfl

theorem OddUint_new_cases (n : BoxedUint) : (∃ h : n.val % 2 = 1, OddUint.new n = some ⟨n, h⟩) ∨
    (¬ n.val % 2 = 1 ∧ OddUint.new n = none) := by
  unfold OddUint.new
  by_cases h : n.val % 2 = 1
  · exact Or.inl ⟨h, dif_pos h⟩
  · exact Or.inr ⟨h, dif_neg h⟩

theorem newPublic_word8 (n e : BoxedUint) : (words.newPublic n.atWord8 e.atWord8 >>= fun K => .ok (K.n, K.e)) =
    (PublicKey.new n e >>= fun k => .ok k.parts8) := by
  unfold words.newPublic PublicKey.new PublicKey.newWithMaxSize
  rw [checkPublicWithMaxSize_word8]
  cases checkPublicWithMaxSize n e maxSize with
  | ok u =>
    simp only [Res.ok_bind]
    rcases OddUint_new_cases n with ⟨h, hn⟩ | ⟨h, hn⟩
    · rw [hn, dif_pos (show n.atWord8.val % 2 = 1 from h)]
      have : expectNonZero n = .ok n := by
        unfold expectNonZero BoxedUint.nonZero
        have : n.val ≠ 0 := by intro h0; rw [h0] at h; cases h
        simp [this]
      simp only [this, Res.ok_bind]
      rfl
    · rw [hn, dif_neg (show ¬ n.atWord8.val % 2 = 1 from h)]; rfl
  | _ => rfl

theorem fromTwo_word8 (n : BoxedUint) (hn : n.val % 2 = 1) (e d p q : BoxedUint) :
    (words.fromTwo n.atWord8 hn e.atWord8 d.atWord8 p.atWord8 q.atWord8 >>= fun K => .ok K.parts) =
      (PrivateKey.fromComponents ⟨n, hn⟩ e d [p, q] >>= fun k => .ok k.parts8) := by
  unfold words.fromTwo PrivateKey.fromComponents
  have hz : n.nonZero = some n := by
    unfold BoxedUint.nonZero
    have : n.val ≠ 0 := by intro h0; rw [h0] at hn; cases hn
    simp [this]
  simp only [hz, Res.ok_bind]
  have hv := validate_word8 { pub := { n := n, e := e, nParams := ⟨⟨n, hn⟩⟩ }, d := d, primes := [p, q], precomputed := none } hn
  have hk : PrivateKey.atWord8 { pub := { n := n, e := e, nParams := ⟨⟨n, hn⟩⟩ }, d := d, primes := [p, q], precomputed := none } hn =
    { pub := ⟨n.atWord8, e.atWord8, hn⟩, d := d.atWord8, primes := [p.atWord8, q.atWord8], precomputed := none } := rfl
  rw [hk] at hv
  rw [hv]
  cases PrivateKey.validate { pub := { n := n, e := e, nParams := ⟨⟨n, hn⟩⟩ }, d := d, primes := [p, q], precomputed := none } with
  | ok u =>
    simp only [Res.ok_bind]
    unfold words.tryPrecompute PrivateKey.tryPrecompute PrivateKey.precompute
    have hp := C104_word8_precompute d [p, q]
    simp only [List.map_cons, List.map_nil] at hp
    simp only [hp, Option.isSome_none, Bool.false_eq_true, if_false]
    cases PrivateKey.precomputeValues d [p, q] <;> rfl
  | _ => rfl

/-- C105: with words of eight octets the parametrised functions are those of the rest of the model. -/
theorem C105_word8 (b : Bytes) :
    (∀ (k : PrivateKey) (ho : k.pub.n.val % 2 = 1), words.validate (k.atWord8 ho) = k.validate) ∧
    (words.fromPublicKeyDer 8 b >>= fun K => .ok (K.n, K.e)) = (PublicKey.fromPublicKeyDer b >>= fun k => .ok k.parts8) ∧
    (words.fromPkcs8Der 8 b >>= fun K => .ok K.parts) = (PrivateKey.fromPkcs8Der b >>= fun k => .ok k.parts8) := by
  refine ⟨validate_word8, ?_, ?_⟩
  · unfold words.fromPublicKeyDer PublicKey.fromPublicKeyDer
    cases der.decodeSubjectPublicKeyInfo b with
    | ok i =>
      simp only [Res.ok_bind]
      unfold words.tryFromSpki PublicKey.tryFromSpki
      cases verifyAlgorithmId i.algorithm with
      | ok u =>
        simp only [Res.ok_bind]
        by_cases hu : i.unusedBits ≠ 0
        · rw [if_pos hu, if_pos hu]; rfl
        · rw [if_neg hu, if_neg hu]
          cases der.decodeRsaPublicKey i.subjectPublicKey with
          | ok k =>
            simp only [Res.ok_bind]
            cases lenBitsChecked k.modulus.length with
            | ok bits =>
              simp only [Res.ok_bind, uintFromSlice_word8]
              cases uintFromSlice k.modulus bits with
              | ok n =>
                simp only [Res.ok_bind]
                cases lenBitsChecked k.publicExponent.length with
                | ok bitsE =>
                  simp only [Res.ok_bind]
                  cases uintFromSlice k.publicExponent bitsE with
                  | ok e =>
                    simp only [Res.ok_bind]
                    rw [mapErr_bind, mapErr_bind, newPublic_word8]
                  | _ => rfl
                | _ => rfl
              | _ => rfl
            | _ => rfl
          | _ => rfl
      | _ => rfl
    | _ => rfl
  · unfold words.fromPkcs8Der PrivateKey.fromPkcs8Der
    cases der.decodePrivateKeyInfo b with
    | ok i =>
      simp only [Res.ok_bind]
      unfold words.tryFromInfo PrivateKey.tryFromInfo
      cases verifyAlgorithmId i.algorithm with
      | ok u =>
        simp only [Res.ok_bind]
        cases der.decodeRsaPrivateKey i.privateKey with
        | ok k =>
          simp only [Res.ok_bind]
          by_cases hm : k.multi = true
          · rw [if_pos hm, if_pos hm]; rfl
          · rw [if_neg hm, if_neg hm]
            cases lenBitsChecked k.modulus.length with
            | ok bits =>
              simp only [Res.ok_bind, uintFromSlice_word8]
              cases uintFromSlice k.modulus bits with
              | ok n =>
                simp only [Res.ok_bind]
                rcases OddUint_new_cases n with ⟨h, hn⟩ | ⟨h, hn⟩
                · rw [hn, dif_pos (show n.atWord8.val % 2 = 1 from h)]
                  simp only
                  cases lenBitsChecked k.publicExponent.length with
                  | ok bitsE =>
                    simp only [Res.ok_bind]
                    cases uintFromSlice k.publicExponent bitsE with
                    | ok e =>
                      simp only [Res.ok_bind]
                      cases uintFromSlice k.privateExponent bits with
                      | ok d =>
                        simp only [Res.ok_bind]
                        cases uintFromSlice k.prime1 bits with
                        | ok p =>
                          simp only [Res.ok_bind]
                          cases uintFromSlice k.prime2 bits with
                          | ok q =>
                            simp only [Res.ok_bind]
                            rw [mapErr_bind, mapErr_bind]
                            exact congrArg mapErrMalformed (fromTwo_word8 n h e d p q)
                          | _ => rfl
                        | _ => rfl
                      | _ => rfl
                    | _ => rfl
                  | _ => rfl
                · rw [hn, dif_neg (show ¬ n.atWord8.val % 2 = 1 from h)]; rfl
              | _ => rfl
            | _ => rfl
        | _ => rfl
      | _ => rfl
    | _ => rfl

/-- C105: with words of eight octets encryption is that of the rest of the model. -/
theorem C105_word8_encrypt {σ : Type} (R : RngImpl σ) (fuel : Nat) (rng : σ) (k : PublicKey) (hk : k.Coherent)
    (ho : k.n.val % 2 = 1) (msg : Bytes) :
    words.pkcs1v15Encrypt R fuel rng (k.atWord8 ho) msg = pkcs1v15.encrypt R fuel rng k msg ∧
    ∀ digest mgfDigest label, words.oaepEncrypt R rng (k.atWord8 ho) msg digest mgfDigest label =
      oaep.encrypt R rng k msg digest mgfDigest label := by
  have hc : words.checkPublic (k.atWord8 ho) = checkPublic k := checkPublicWithMaxSize_word8 _ _ _
  have tail : ∀ (em : Bytes) (s : σ),
      (words.Uint.fromBeSlice 8 em (k.atWord8 ho).nBitsPrecision >>= fun int =>
        words.rsaEncrypt (k.atWord8 ho) int >>= fun c => words.uintToBePad c (k.atWord8 ho).size >>= fun c =>
        (.ok (c, s) : Res (Bytes × σ))) =
      (BoxedUint.fromBeSlice em k.nBitsPrecision >>= fun int => rsaEncrypt k int >>= fun c =>
        uintToBePad c k.size >>= fun c => .ok (c, s)) := by
    intro em s
    have e1 : (k.atWord8 ho).nBitsPrecision = k.nBitsPrecision := rfl
    rw [e1, fromBeSlice_word8]
    cases BoxedUint.fromBeSlice em k.nBitsPrecision with
    | ok m =>
      simp only [Res.ok_bind]
      rw [rsaEncrypt_word8 k hk ho]
      cases rsaEncrypt k m with
      | ok c => rfl
      | _ => rfl
    | _ => rfl
  have hs : (k.atWord8 ho).size = k.size := rfl
  constructor
  · unfold words.pkcs1v15Encrypt pkcs1v15.encrypt
    rw [hc]
    cases checkPublic k with
    | ok u =>
      simp only [Res.ok_bind]
      rw [hs]
      cases pkcs1v15EncryptPad R fuel rng msg k.size with
      | ok x => exact tail x.1 x.2
      | _ => rfl
    | _ => rfl
  · intro digest mgfDigest label
    unfold words.oaepEncrypt oaep.encrypt
    rw [hc]
    cases checkPublic k with
    | ok u =>
      simp only [Res.ok_bind]
      rw [hs]
      cases oaepEncrypt R rng msg digest mgfDigest label k.size with
      | ok x => exact tail x.1 x.2
      | _ => rfl
    | _ => rfl

variable {w w' : Nat}

/-! ### Words of any size -/

/-- What a public key must satisfy. -/
theorem words_checkPublic_iff (K : PubKey w) : words.checkPublic K = .ok () ↔
    8 * w * K.n.nlimbs ≤ 4096 ∧ K.e.val < K.n.val ∧ K.e.val % 2 = 1 ∧ 2 ≤ K.e.val ∧ K.e.val ≤ 2 ^ 33 - 1 := by
  unfold words.checkPublic words.checkPublicWithMaxSize
  have hn := K.odd
  have h0 : K.n.val ≠ 0 := by intro h; rw [h] at hn; cases hn
  have hmin : minPubExponent.toNat = 2 := by decide
  have hmax : maxPubExponent.toNat = 2 ^ 33 - 1 := by decide
  have hp : K.n.prec = 8 * w * K.n.nlimbs := rfl
  have hm : maxSize = 4096 := by decide
  rw [hmin, hmax, hp, hm]
  by_cases c1 : 8 * w * K.n.nlimbs > 4096
  · rw [if_pos c1]; simp; omega
  rw [if_neg c1]
  by_cases c2 : K.e.val < K.n.val
  · rw [if_neg (by simp [words.Uint.ge, words.Uint.lt, words.Uint.isZero, c2, hn, h0])]
    by_cases c3 : K.e.val % 2 = 0
    · simp [c3]
    · have c3' : K.e.val % 2 = 1 := by omega
      rw [if_neg (by simp [c3'])]
      by_cases c4 : K.e.val < 2
      · rw [if_pos c4]; simp; omega
      · rw [if_neg c4]
        by_cases c5 : 2 ^ 33 - 1 < K.e.val
        · rw [if_pos c5]; simp; omega
        · rw [if_neg c5]; simp; omega
  · rw [if_pos (by simp [words.Uint.ge, words.Uint.lt]; omega)]
    simp [c2]

/-- C105: exactly which keys `validate` accepts on a machine with words of `w` octets. The product of the factors is taken
modulo the storage of the modulus, and `d * e` modulo twice that of `d`. -/
theorem C105_validate (hw : 0 < w) (K : PrivKey w) (hd : 1 ≤ K.d.nlimbs) :
    words.validate K = .ok () ↔
      (8 * w * K.pub.n.nlimbs ≤ 4096 ∧ K.pub.e.val < K.pub.n.val ∧ K.pub.e.val % 2 = 1 ∧ 2 ≤ K.pub.e.val ∧
        K.pub.e.val ≤ 2 ^ 33 - 1) ∧
      (K.primes.map words.Uint.val).prod % 2 ^ (8 * w * K.pub.n.nlimbs) = K.pub.n.val ∧
      ∀ p ∈ K.primes, p.nlimbs ≤ 2 * K.d.nlimbs ∧ 1 < p.val ∧
        K.d.val * K.pub.e.val % 2 ^ (8 * w * (2 * K.d.nlimbs)) % (p.val - 1) = 1 := by
  rw [words.validate_ok_iff hw K hd, words_checkPublic_iff]

theorem wordsFor_readWidth (hw : 0 < w) (L : Nat) : WordsFor w L (words.readWidth w L) := (wordsFor_iff hw _ _).mpr rfl

/-- Narrower words, dividing the wider, take no more octets. -/
theorem wordsFor_le_of_dvd {L l l' : Nat} (hdvd : w' ∣ w) (hw : 0 < w) (hl : WordsFor w L l) (hl' : WordsFor w' L l') :
    w' * l' ≤ w * l := by
  obtain ⟨c, rfl⟩ := hdvd
  have hc : 0 < c := Nat.pos_of_mul_pos_left hw
  have := hl'.2.2 (c * l) (Nat.mul_pos hc hl.1) (by rw [← Nat.mul_assoc]; exact hl.2.1)
  rw [Nat.mul_assoc]
  exact Nat.mul_le_mul_left _ this

/-- C105: a public key document accepted on one machine is accepted on every other whose words divide the greatest size
allowed, with the same numbers, on each without spare words. -/
theorem C105_public (hw : 0 < w) (hw' : 0 < w') (hd : 8 * w ∣ 4096) (hd' : 8 * w' ∣ 4096) {b : Bytes} {K : PubKey w}
    (h : words.fromPublicKeyDer w b = .ok K) :
    WordsFor w (octetLen K.n.val) K.n.nlimbs ∧
    ∃ K' : PubKey w', words.fromPublicKeyDer w' b = .ok K' ∧ K'.n.val = K.n.val ∧ K'.e.val = K.e.val ∧
      WordsFor w' (octetLen K.n.val) K'.n.nlimbs := by
  unfold words.fromPublicKeyDer at h ⊢
  rw [Res.bind_eq_ok] at h
  obtain ⟨i, hi, h⟩ := h
  rw [hi, Res.ok_bind]
  unfold words.tryFromSpki at h ⊢
  rw [Res.bind_eq_ok] at h
  obtain ⟨_, hv, h⟩ := h
  rw [hv, Res.ok_bind]
  by_cases hu : i.unusedBits ≠ 0
  · rw [if_pos hu] at h; cases h
  rw [if_neg hu] at h ⊢
  rw [Res.bind_eq_ok] at h
  obtain ⟨rk, hk, h⟩ := h
  rw [hk, Res.ok_bind]
  obtain ⟨⟨l1, hm⟩, ⟨l2, -⟩⟩ := words.decodeRsaPublicKey_fields hk
  rw [lenBitsChecked_eq l1, Res.ok_bind, words.uintFromSlice_eq hw, if_pos le_rfl, Res.ok_bind,
    lenBitsChecked_eq l2, Res.ok_bind, words.uintFromSlice_eq hw, if_pos le_rfl, Res.ok_bind] at h
  rw [lenBitsChecked_eq l1, Res.ok_bind, words.uintFromSlice_eq hw', if_pos le_rfl, Res.ok_bind,
    lenBitsChecked_eq l2, Res.ok_bind, words.uintFromSlice_eq hw', if_pos le_rfl, Res.ok_bind]
  have vn : (words.Uint.wrap (w := w) (max 1 (divCeil rk.modulus.length w)) (beVal rk.modulus)).val = beVal rk.modulus :=
    words.slice_val hw le_rfl
  have vn' : (words.Uint.wrap (w := w') (max 1 (divCeil rk.modulus.length w')) (beVal rk.modulus)).val =
    beVal rk.modulus := words.slice_val hw' le_rfl
  have ve : (words.Uint.wrap (w := w) (max 1 (divCeil rk.publicExponent.length w)) (beVal rk.publicExponent)).val =
    beVal rk.publicExponent := words.slice_val hw le_rfl
  have ve' : (words.Uint.wrap (w := w') (max 1 (divCeil rk.publicExponent.length w')) (beVal rk.publicExponent)).val =
    beVal rk.publicExponent := words.slice_val hw' le_rfl
  have hf := wordsFor_readWidth hw rk.modulus.length
  have hf' := wordsFor_readWidth hw' rk.modulus.length
  unfold words.readWidth at hf hf'
  have hcheck : words.newPublic (w := w) (words.Uint.wrap (max 1 (divCeil rk.modulus.length w)) (beVal rk.modulus))
      (words.Uint.wrap (max 1 (divCeil rk.publicExponent.length w)) (beVal rk.publicExponent)) = .ok K := by
    generalize words.newPublic (w := w) (words.Uint.wrap (max 1 (divCeil rk.modulus.length w)) (beVal rk.modulus))
      (words.Uint.wrap (max 1 (divCeil rk.publicExponent.length w)) (beVal rk.publicExponent)) = r at h
    cases r with
    | ok x => exact h
    | _ => cases h
  unfold words.newPublic at hcheck
  rw [Res.bind_eq_ok] at hcheck
  obtain ⟨u, hc, hcheck⟩ := hcheck
  by_cases ho : beVal rk.modulus % 2 = 1
  · have hoct : rk.modulus.length = octetLen (beVal rk.modulus) := by
      conv_lhs => rw [hm]
      exact uintBytes_length (by intro h0; rw [h0] at ho; cases ho)
    rw [dif_pos (by rw [vn]; exact ho)] at hcheck
    obtain rfl := Res.ok.inj hcheck
    have F : WordsFor w (octetLen (words.Uint.wrap (w := w) (max 1 (divCeil rk.modulus.length w)) (beVal rk.modulus)).val)
        (max 1 (divCeil rk.modulus.length w)) := by rw [vn, ← hoct]; exact hf
    refine ⟨F, ?_⟩
    have hK' : (words.Uint.wrap (w := w') (max 1 (divCeil rk.modulus.length w')) (beVal rk.modulus)).val % 2 = 1 := by
      rw [vn']; exact ho
    have hsame := C104_check hw hw' hd hd'
      ⟨words.Uint.wrap (w := w) (max 1 (divCeil rk.modulus.length w)) (beVal rk.modulus),
        words.Uint.wrap (max 1 (divCeil rk.publicExponent.length w)) (beVal rk.publicExponent), by rw [vn]; exact ho⟩
      ⟨words.Uint.wrap (w := w') (max 1 (divCeil rk.modulus.length w')) (beVal rk.modulus),
        words.Uint.wrap (max 1 (divCeil rk.publicExponent.length w')) (beVal rk.publicExponent), hK'⟩
      (by show words.Uint.val _ = words.Uint.val _; rw [vn, vn']) (by show words.Uint.val _ = words.Uint.val _; rw [ve, ve'])
      F (by show WordsFor w' (octetLen (words.Uint.val _)) _; rw [vn', ← hoct]; exact hf')
    unfold words.checkPublic at hsame
    rw [hc] at hsame
    refine ⟨⟨words.Uint.wrap (w := w') (max 1 (divCeil rk.modulus.length w')) (beVal rk.modulus),
        words.Uint.wrap (max 1 (divCeil rk.publicExponent.length w')) (beVal rk.publicExponent), hK'⟩,
      ?_, vn'.trans vn.symm, ve'.trans ve.symm, ?_⟩
    · unfold words.newPublic
      rw [← hsame, Res.ok_bind, dif_pos hK']
      rfl
    · have F' : WordsFor w' (octetLen (words.Uint.wrap (w := w) (max 1 (divCeil rk.modulus.length w)) (beVal rk.modulus)).val)
        (max 1 (divCeil rk.modulus.length w')) := by rw [vn, ← hoct]; exact hf'
      exact F'
  · rw [dif_neg (by rw [vn]; exact ho)] at hcheck; cases hcheck

/-- C105: a private key document accepted on one machine. There it is stored without spare words, everything but `e` in as
many as the modulus. On another machine it is accepted, with the same numbers, exactly if the product of the factors modulo
the storage there is the modulus, and is otherwise malformed. -/
theorem C105_private (hw : 0 < w) (hw' : 0 < w') (hd : 8 * w ∣ 4096) (hd' : 8 * w' ∣ 4096) {b : Bytes} {K : PrivKey w}
    (h : words.fromPkcs8Der w b = .ok K) :
    WordsFor w (octetLen K.pub.n.val) K.pub.n.nlimbs ∧ K.d.nlimbs = K.pub.n.nlimbs ∧ K.primes.length = 2 ∧
    (∀ p ∈ K.primes, p.nlimbs = K.pub.n.nlimbs) ∧
    (K.primes.map words.Uint.val).prod % 2 ^ (8 * w * K.pub.n.nlimbs) = K.pub.n.val ∧
    (RsaNumbers K.pub.n.val K.pub.e.val K.d.val (K.primes.map words.Uint.val) → WordsWellFormed K) ∧
    ∃ l', WordsFor w' (octetLen K.pub.n.val) l' ∧
      ((K.primes.map words.Uint.val).prod % 2 ^ (8 * w' * l') = K.pub.n.val →
        ∃ K' : PrivKey w', words.fromPkcs8Der w' b = .ok K' ∧ K'.pub.n.val = K.pub.n.val ∧ K'.pub.e.val = K.pub.e.val ∧
          K'.d.val = K.d.val ∧ K'.primes.map words.Uint.val = K.primes.map words.Uint.val ∧ K'.pub.n.nlimbs = l') ∧
      ((K.primes.map words.Uint.val).prod % 2 ^ (8 * w' * l') ≠ K.pub.n.val →
        words.fromPkcs8Der w' b = .err .pkcs8) := by
  unfold words.fromPkcs8Der at h ⊢
  rw [Res.bind_eq_ok] at h
  obtain ⟨i, hi, h⟩ := h
  rw [hi, Res.ok_bind]
  obtain ⟨rk, hv, hk, hmu, ho, h1, h2, h3⟩ := words.tryFromInfo_inv hw h
  rw [words.tryFromInfo_eq hw hv hk hmu ho h1 h2 h3] at h
  rw [words.tryFromInfo_eq hw' hv hk hmu ho h1 h2 h3]
  obtain ⟨⟨-, hm⟩, -⟩ := words.decodeRsaPrivateKey_fields hk
  have hoct : rk.modulus.length = octetLen (beVal rk.modulus) := by
    conv_lhs => rw [hm]
    exact uintBytes_length (by intro h0; rw [h0] at ho; cases ho)
  have on : (words.Uint.wrap (w := w) (words.readWidth w rk.modulus.length) (beVal rk.modulus)).val % 2 = 1 := by
    unfold words.readWidth; rw [words.slice_val hw le_rfl]; exact ho
  have on' : (words.Uint.wrap (w := w') (words.readWidth w' rk.modulus.length) (beVal rk.modulus)).val % 2 = 1 := by
    unfold words.readWidth; rw [words.slice_val hw' le_rfl]; exact ho
  obtain ⟨a1, a2, a3, a4⟩ := words.readKey_vals hw on h1 h2 h3
  obtain ⟨b1, b2, b3, b4⟩ := words.readKey_vals hw' on' h1 h2 h3
  have hf := wordsFor_readWidth hw rk.modulus.length
  have hf' := wordsFor_readWidth hw' rk.modulus.length
  rw [hoct] at hf hf'
  have hval : words.validate (words.readKey w rk on) = .ok () := by
    generalize hr : words.validate (words.readKey w rk on) = r at h
    cases r with
    | ok x => rfl
    | _ => cases h
  rw [hval, Res.ok_bind] at h
  obtain ⟨c, hc, hpre⟩ := words.readKey_precompute hw on h1 h2 h3 hval
  rw [hc] at h
  obtain rfl := Res.ok.inj h
  obtain ⟨hpub, hprod, hexp⟩ := (words.readKey_validate hw on h1 h2 h3).mp hval
  have hlim : ∀ p ∈ (words.readKey w rk on).primes, p.nlimbs = words.readWidth w rk.modulus.length := by
    intro p hp
    rcases List.mem_cons.mp hp with rfl | hp
    · rfl
    · obtain rfl : p = _ := by simpa using hp
      rfl
  have hpr : ((words.readKey w rk on).primes.map words.Uint.val).prod = beVal rk.prime1 * beVal rk.prime2 := by
    rw [a4]; simp
  have hsame := C104_check hw hw' hd hd' (words.readKey w rk on).pub (words.readKey w' rk on').pub (by rw [a1, b1])
    (by rw [a2, b2]) (by rw [a1]; exact hoct ▸ hf) (by rw [b1]; exact hoct ▸ hf')
  rw [hpub] at hsame
  refine ⟨?_, rfl, rfl, hlim, ?_, ?_, words.readWidth w' rk.modulus.length, ?_, ?_, ?_⟩
  · show WordsFor w (octetLen (words.readKey w rk on).pub.n.val) _; rw [a1]; exact hoct ▸ hf
  · show ((words.readKey w rk on).primes.map words.Uint.val).prod % _ = (words.readKey w rk on).pub.n.val
    rw [hpr, a1]; exact hprod
  · intro hnum
    have hwf : WordsWellFormed (words.readKey w rk on) := ⟨hnum, le_rfl, by intro pre h; cases h⟩
    refine ⟨hnum, le_rfl, ?_⟩
    intro pre hcp
    obtain ⟨pre', hp', hw'⟩ := C104_precompute hw hwf (fun p hp => (hlim p hp).le)
    rw [hpre pre hcp] at hp'
    obtain rfl := Res.ok.inj hp'
    subst hcp
    exact hw'.cache pre rfl
  · show WordsFor w' (octetLen (words.readKey w rk on).pub.n.val) _; rw [a1]; exact hoct ▸ hf'
  · intro hp
    have hp : ((words.readKey w rk on).primes.map words.Uint.val).prod %
      2 ^ (8 * w' * words.readWidth w' rk.modulus.length) = (words.readKey w rk on).pub.n.val := hp
    rw [hpr, a1] at hp
    have hval' := (words.readKey_validate hw' on' h1 h2 h3).mpr ⟨hsame.symm, hp, hexp⟩
    obtain ⟨c', hc', -⟩ := words.readKey_precompute hw' on' h1 h2 h3 hval'
    refine ⟨{ words.readKey w' rk on' with precomputed := c' }, ?_, ?_, ?_, ?_, ?_, rfl⟩
    · rw [hval', Res.ok_bind, hc']; rfl
    · exact b1.trans a1.symm
    · exact b2.trans a2.symm
    · exact b3.trans a3.symm
    · exact b4.trans a4.symm
  · intro hp
    have hp : ((words.readKey w rk on).primes.map words.Uint.val).prod %
      2 ^ (8 * w' * words.readWidth w' rk.modulus.length) ≠ (words.readKey w rk on).pub.n.val := hp
    rw [hpr, a1] at hp
    have g1 := (hexp _ (List.mem_cons_self ..)).1
    have g2 := (hexp (beVal rk.prime2) (by simp)).1
    obtain ⟨er, her⟩ := words.readKey_refused hw' on' h1 h2 h3 (by omega) (by omega) hp
    rw [her]; rfl

/-- C105: a private key document accepted on one machine, whose modulus is the product of its factors, is accepted on every
other with the same numbers; with words that divide those of the first machine, so is every document it accepts. -/
theorem C105_everywhere (hw : 0 < w) (hw' : 0 < w') (hd : 8 * w ∣ 4096) (hd' : 8 * w' ∣ 4096) {b : Bytes} {K : PrivKey w}
    (h : words.fromPkcs8Der w b = .ok K)
    (hor : (K.primes.map words.Uint.val).prod = K.pub.n.val ∨ w' ∣ w) :
    ∃ K' : PrivKey w', words.fromPkcs8Der w' b = .ok K' ∧ K'.pub.n.val = K.pub.n.val ∧ K'.pub.e.val = K.pub.e.val ∧
      K'.d.val = K.d.val ∧ K'.primes.map words.Uint.val = K.primes.map words.Uint.val := by
  obtain ⟨hf, -, -, -, hprod, -, l', hf', hok, -⟩ := C105_private hw hw' hd hd' h
  have hlt : K.pub.n.val < 2 ^ (8 * w' * l') := by
    have h1 := K.pub.lt_pow
    rw [K.pub.size_eq, pow256] at h1
    refine lt_of_lt_of_le h1 (Nat.pow_le_pow_right (by norm_num) ?_)
    rw [Nat.mul_assoc]
    exact Nat.mul_le_mul_left _ hf'.2.1
  have key : (K.primes.map words.Uint.val).prod % 2 ^ (8 * w' * l') = K.pub.n.val := by
    rcases hor with h | h
    · rw [h, Nat.mod_eq_of_lt hlt]
    · have hle := wordsFor_le_of_dvd h hw hf hf'
      rw [← Nat.mod_mod_of_dvd _ (pow_dvd_pow 2 (show 8 * w' * l' ≤ 8 * w * K.pub.n.nlimbs by
        rw [Nat.mul_assoc, Nat.mul_assoc]; exact Nat.mul_le_mul_left _ hle)), hprod, Nat.mod_eq_of_lt hlt]
  obtain ⟨K', g1, g2, g3, g4, g5, -⟩ := hok key
  exact ⟨K', g1, g2, g3, g4, g5⟩

/-- C105: machines with the same public key make the same ciphertexts from the same random octets. -/
theorem C105_encrypt {σ : Type} (hw : 0 < w) (hw' : 0 < w') (R : RngImpl σ) (rng : σ) (K : PubKey w) (K' : PubKey w')
    (hn : K.n.val = K'.n.val) (he : K.e.val = K'.e.val) (hc : words.checkPublic K = words.checkPublic K') (msg : Bytes) :
    (∀ fuel, words.pkcs1v15Encrypt R fuel rng K msg = words.pkcs1v15Encrypt R fuel rng K' msg) ∧
    (∀ (D MGD : HashFn) label, 0 < MGD.outLen → (label.getD []).length < maxLabelLen → octetLen K.n.val < 2 ^ 32 →
      words.oaepEncrypt R rng K msg (DigestState.new D) (DigestState.new MGD) label =
        words.oaepEncrypt R rng K' msg (DigestState.new D) (DigestState.new MGD) label) := by
  have hs : K.size = K'.size := by rw [K.size_eq, K'.size_eq, hn]
  constructor
  · intro fuel
    unfold words.pkcs1v15Encrypt
    rw [hc, hs, pkcs1v15EncryptPad_eq]
    congr 1
    funext _
    by_cases hl : msg.length + 11 > K'.size
    · rw [if_pos hl]; rfl
    · rw [if_neg hl]
      rcases nonZeroRandomBytes_cases R fuel rng (K'.size - msg.length - 3) with ⟨ps, s', hp, hlen, -⟩ | h
      · rw [hp]
        simp only [Res.ok_bind]
        have hem : ([0x00, 0x02] ++ ps ++ [0x00] ++ msg : Bytes).length ≤ K'.size := by
          simp only [List.length_append, List.length_cons, List.length_nil]; omega
        rw [← hs] at hem ⊢
        rw [words.publicBytes_eq hw K _ hem]
        rw [hs] at hem ⊢
        rw [words.publicBytes_eq hw' K' _ hem, hn, he]
      · rcases h with h | h <;> rw [h] <;> rfl
  · intro D MGD label hpos hlab h32
    unfold words.oaepEncrypt
    rw [hc, hs, oaepEncrypt_eq R rng msg D MGD hpos label hlab _ (by rw [K'.size_eq, ← hn]; exact h32)]
    congr 1
    funext _
    by_cases hl : msg.length + 2 * D.outLen + 2 > K'.size
    · rw [if_pos hl]; rfl
    · rw [if_neg hl]
      cases hf : R.tryFill rng D.outLen with
      | ok x =>
        simp only [Res.ok_bind]
        have hem := (emeOaep_length (D.hash (label.getD [])) MGD.mgf D.outLen K'.size x.1 msg (D.hash_len _)
          (tryFill_ok hf) (MGD.mgf_length hpos) (by omega)).le
        rw [← hs] at hem ⊢
        rw [words.publicBytes_eq hw K _ hem]
        rw [hs] at hem ⊢
        rw [words.publicBytes_eq hw' K' _ hem, hn, he]
      | _ => rfl

/-! ### Examples -/

/-- A PKCS#8 document with a modulus of 24 bits and two primes whose product, of 47 bits, is the modulus only modulo
`2 ^ 32`. -/
def Ex.wrappedDocument : Bytes :=
  privateKeyInfo rsaEncryptionAlg (rsaPrivateKey 8579577 2418929 7122089 8295061 12461269 1 1 1)

/-- C105: a document accepted with words of four octets and refused with words of eight. -/
theorem C105_wrapped :
    (∃ K, words.fromPkcs8Der 4 Ex.wrappedDocument = .ok K ∧ K.pub.n.val = 8579577 ∧
      (K.primes.map words.Uint.val).prod ≠ K.pub.n.val) ∧
    words.fromPkcs8Der 8 Ex.wrappedDocument = .err .pkcs8 ∧
    PrivateKey.fromPkcs8Der Ex.wrappedDocument = .err .pkcs8 := by
  refine ⟨?_, by decide +kernel, by decide +kernel⟩
  have h : (match words.fromPkcs8Der 4 Ex.wrappedDocument with
      | .ok K => decide (K.pub.n.val = 8579577 ∧ (K.primes.map words.Uint.val).prod ≠ K.pub.n.val)
      | _ => false) = true := by decide +kernel
  cases hk : words.fromPkcs8Der 4 Ex.wrappedDocument with
  | ok K =>
    rw [hk] at h
    exact ⟨K, rfl, of_decide_eq_true h⟩
  | _ => rw [hk] at h; cases h

/-- The document of the example key, with CRT fields that are not looked at. -/
def Ex.privateDocument : Bytes :=
  privateKeyInfo rsaEncryptionAlg (rsaPrivateKey ((2 ^ 89 - 1) * (2 ^ 127 - 1)) 65537 Ex.dVal (2 ^ 89 - 1) (2 ^ 127 - 1) 1 1 1)
/-- The document of the example public key. -/
def Ex.publicDocument : Bytes :=
  subjectPublicKeyInfo rsaEncryptionAlg (rsaPublicKey ((2 ^ 89 - 1) * (2 ^ 127 - 1)) 65537)

theorem Ex.privateDocument4 : ∃ K, words.fromPkcs8Der 4 Ex.privateDocument = .ok K ∧
    (K.primes.map words.Uint.val).prod = K.pub.n.val := by
  have h : (match words.fromPkcs8Der 4 Ex.privateDocument with
      | .ok K => decide ((K.primes.map words.Uint.val).prod = K.pub.n.val) | _ => false) = true := by decide +kernel
  cases hk : words.fromPkcs8Der 4 Ex.privateDocument with
  | ok K =>
    rw [hk] at h
    exact ⟨K, rfl, of_decide_eq_true h⟩
  | _ => rw [hk] at h; cases h

example := C105_word8 Ex.privateDocument
example := C105_word8_encrypt Ex.countingRng 3 5 Ex.key.pub rfl (by decide) [1, 2, 3]
example : words.validate Ex.key4 = .ok () ∧ 1 ≤ Ex.key4.d.nlimbs := by decide +kernel
example := (C105_validate (w := 4) (by norm_num) Ex.key4 (by decide +kernel)).mp (by decide +kernel)
example : ∃ K : PubKey 8, words.fromPublicKeyDer 8 Ex.publicDocument = .ok K := by
  have h : (match words.fromPublicKeyDer 4 Ex.publicDocument with | .ok _ => true | _ => false) = true := by decide +kernel
  cases hk : words.fromPublicKeyDer 4 Ex.publicDocument with
  | ok K =>
    obtain ⟨-, K', h', -⟩ := C105_public (w := 4) (w' := 8) (by norm_num) (by norm_num) (by norm_num) (by norm_num) hk
    exact ⟨K', h'⟩
  | _ => rw [hk] at h; cases h
example : ∃ K : PrivKey 8, words.fromPkcs8Der 8 Ex.privateDocument = .ok K := by
  obtain ⟨K, hk, hp⟩ := Ex.privateDocument4
  obtain ⟨K', h', -⟩ := C105_everywhere (w := 4) (w' := 8) (by norm_num) (by norm_num) (by norm_num) (by norm_num) hk (Or.inl hp)
  exact ⟨K', h'⟩
/-- The wrapped document meets the hypothesis of `C105_private` and its last alternative. -/
example : ∃ K l', words.fromPkcs8Der 4 Ex.wrappedDocument = .ok K ∧ WordsFor 8 (octetLen K.pub.n.val) l' ∧
    (K.primes.map words.Uint.val).prod % 2 ^ (8 * 8 * l') ≠ K.pub.n.val := by
  obtain ⟨⟨K, hk, -⟩, h8, -⟩ := C105_wrapped
  obtain ⟨-, -, -, -, -, -, l', hl, hok, -⟩ :=
    C105_private (w := 4) (w' := 8) (by norm_num) (by norm_num) (by norm_num) (by norm_num) hk
  refine ⟨K, l', hk, hl, fun h => ?_⟩
  obtain ⟨K', h', -⟩ := hok h
  rw [h8] at h'
  cases h'
example := C105_encrypt (w := 4) (w' := 8) (by norm_num) (by norm_num) Ex.countingRng 5 Ex.pub4 Ex.pub8 (by decide +kernel)
  (by decide +kernel) (by decide +kernel) [1, 2, 3]
example : (match words.pkcs1v15Encrypt Ex.countingRng 3 5 Ex.pub4 [1, 2, 3] with | .ok _ => true | _ => false) = true := by
  decide +kernel

end RSA
