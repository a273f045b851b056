import Verif.Props.Encoding
import Verif.Props.Oaep
import Verif.Props.Pss
import Verif.Model.Api

/-
C40 - C42, C46, C59, C60: signature objects, algorithm identifiers, serialisation of the wrapper keys, agreement of the
typed API with the padding scheme objects.
-/
namespace RSA
open BoxedUint Spec

/-! ### C40: signature strings -/

theorem limbsFor_bytes (len : Nat) : limbsFor (8 * len) = max 1 ((len + 7) / 8) := by
  unfold limbsFor
  congr 1
  omega

theorem pss.Signature.tryFrom_eq (sig : Bytes) (h : sig.length < 2 ^ 29) :
    pss.Signature.tryFrom sig = .ok ⟨wrap (limbsFor (8 * sig.length)) (beVal sig)⟩ := by
  unfold pss.Signature.tryFrom
  rw [pkcs1v15.lenBitsU32_eq h, Res.ok_bind, fromBeSlice_full]; rfl

theorem toBeBytes_parse (b : Bytes) :
    (wrap (limbsFor (8 * b.length)) (beVal b)).toBeBytes =
      List.replicate (8 * max 1 ((b.length + 7) / 8) - b.length) 0 ++ b := by
  have hle : b.length ≤ 8 * max 1 ((b.length + 7) / 8) := by omega
  unfold toBeBytes
  rw [pkcs1v15.parse_val]
  show beBytes (8 * limbsFor (8 * b.length)) _ = _
  rw [limbsFor_bytes, ← beBytes_pad _ b.length _ hle (beVal_lt b), beBytes_beVal]

theorem pad_eq_self (b : Bytes) :
    List.replicate (8 * max 1 ((b.length + 7) / 8) - b.length) 0 ++ b = b ↔ 8 ∣ b.length ∧ 0 < b.length := by
  constructor
  · intro h
    have := congrArg List.length h
    simp at this
    omega
  · rintro ⟨h8, h0⟩
    rw [show 8 * max 1 ((b.length + 7) / 8) - b.length = 0 by omega]
    rfl

theorem wrap_self (x : BoxedUint) : wrap x.nlimbs x.val = x := by
  cases x with
  | mk l v h =>
    have : v % 2 ^ (64 * l) = v := Nat.mod_eq_of_lt h
    simp [wrap, this]

/-- C40 (full statement: parsing and encoding again gives the same string). Proved: the parsed value is the integer of
the string; encoding it again prepends zeros up to the next positive multiple of eight bytes, so it gives the same string
exactly when the length is a positive multiple of eight; encoding any signature object and parsing it again gives the
same object. Missing: strings of other lengths, for which the claim is false (`C40_string_changes`), and strings of 2^29
bytes or more. -/
theorem C40_signature_round_trip_partial :
    (∀ b : Bytes, b.length < 2 ^ 29 → ∃ sg sg',
      pkcs1v15.Signature.tryFrom b = .ok sg ∧ pss.Signature.tryFrom b = .ok sg' ∧
      sg.inner.val = os2ip b ∧ sg'.inner.val = os2ip b ∧
      sg.toBytes = List.replicate (8 * max 1 ((b.length + 7) / 8) - b.length) 0 ++ b ∧ sg'.toBytes = sg.toBytes ∧
      (sg.toBytes = b ↔ 8 ∣ b.length ∧ 0 < b.length)) ∧
    (∀ sg : pkcs1v15.Signature, 1 ≤ sg.inner.nlimbs → 8 * sg.inner.nlimbs < 2 ^ 29 →
      pkcs1v15.Signature.tryFrom sg.toBytes = .ok sg) ∧
    (∀ sg : pss.Signature, 1 ≤ sg.inner.nlimbs → 8 * sg.inner.nlimbs < 2 ^ 29 →
      pss.Signature.tryFrom sg.toBytes = .ok sg) := by
  have key : ∀ x : BoxedUint, 1 ≤ x.nlimbs →
      wrap (limbsFor (8 * x.toBeBytes.length)) (beVal x.toBeBytes) = x := by
    intro x h1
    have hl : x.toBeBytes.length = 8 * x.nlimbs := by unfold toBeBytes; simp
    rw [beVal_toBeBytes, limbsFor_bytes, hl, show max 1 ((8 * x.nlimbs + 7) / 8) = x.nlimbs by omega, wrap_self]
  refine ⟨fun b hb => ⟨_, _, pkcs1v15.Signature.tryFrom_eq b hb, pss.Signature.tryFrom_eq b hb, ?_, ?_, toBeBytes_parse b,
    rfl, ?_⟩, ?_, ?_⟩
  · show (wrap _ _).val = _
    rw [pkcs1v15.parse_val, beVal_eq_os2ip]
  · show (wrap _ _).val = _
    rw [pkcs1v15.parse_val, beVal_eq_os2ip]
  · show (wrap _ _).toBeBytes = b ↔ _
    rw [toBeBytes_parse, pad_eq_self]
  · intro sg h1 h2
    have hl : sg.toBytes.length = 8 * sg.inner.nlimbs := by
      unfold pkcs1v15.Signature.toBytes toBeBytes; simp
    rw [pkcs1v15.Signature.tryFrom_eq _ (by omega)]
    show Res.ok (pkcs1v15.Signature.mk (wrap (limbsFor (8 * sg.inner.toBeBytes.length)) (beVal sg.inner.toBeBytes))) = _
    rw [key _ h1]
  · intro sg h1 h2
    have hl : sg.toBytes.length = 8 * sg.inner.nlimbs := by
      unfold pss.Signature.toBytes toBeBytes; simp
    rw [pss.Signature.tryFrom_eq _ (by omega)]
    show Res.ok (pss.Signature.mk (wrap (limbsFor (8 * sg.inner.toBeBytes.length)) (beVal sg.inner.toBeBytes))) = _
    rw [key _ h1]

/-- A nine-byte string comes back as sixteen bytes. -/
theorem C40_string_changes : ∃ (b : Bytes) (sg : pkcs1v15.Signature) (sg' : pss.Signature),
    pkcs1v15.Signature.tryFrom b = .ok sg ∧ pss.Signature.tryFrom b = .ok sg' ∧ sg.toBytes ≠ b ∧ sg'.toBytes ≠ b ∧
    b.length = 9 ∧ sg.toBytes.length = 16 :=
  ⟨[1, 2, 3, 4, 5, 6, 7, 8, 9], ⟨wrap 2 18591708106338011145⟩, ⟨wrap 2 18591708106338011145⟩, by decide +kernel,
    by decide +kernel, by decide +kernel, by decide +kernel, rfl, by decide +kernel⟩

/- A 16-byte string keeps its form. -/
example : ([1, 2, 3, 4, 5, 6, 7, 8, 9, 10, 11, 12, 13, 14, 15, 16] : Bytes).length < 2 ^ 29 ∧
    8 ∣ ([1, 2, 3, 4, 5, 6, 7, 8, 9, 10, 11, 12, 13, 14, 15, 16] : Bytes).length ∧
    1 ≤ (pkcs1v15.Signature.mk (wrap 2 77)).inner.nlimbs ∧ 8 * (pkcs1v15.Signature.mk (wrap 2 77)).inner.nlimbs < 2 ^ 29 := by
  decide

/-! ### C60: length of the encoded signature -/

theorem Res.map_ok {α β : Type} {x : Res α} {f : α → Res β} {b : β} (h : (x >>= f) = .ok b) :
    ∃ a, x = .ok a ∧ f a = .ok b := by rwa [Res.bind_eq_ok] at h

theorem pkcs1v15.sign_length {σ : Type} (R : RngImpl σ) (fuel : Nat) (rng : Option σ) (k : PrivateKey)
    (pfx hashed sig : Bytes) (h : pkcs1v15.sign R fuel rng k pfx hashed = .ok sig) : sig.length = k.pub.size := by
  unfold pkcs1v15.sign at h
  obtain ⟨em, -, h⟩ := Res.map_ok h
  obtain ⟨em', -, h⟩ := Res.map_ok h
  obtain ⟨m, -, h⟩ := Res.map_ok h
  exact ((C25_i2osp m.1 k.pub.size).2.2.2.1 sig (show uintToBePad m.1 k.pub.size = .ok sig from h)).2.1

theorem pss.signDigest_length {σ : Type} (R : RngImpl σ) (fuel : Nat) (D : HashFn) (s : σ) (blind : Bool)
    (k : PrivateKey) (hashed : Bytes) (saltLen : Nat) (sig : Bytes)
    (h : pss.signDigest R fuel D s blind k hashed saltLen = .ok sig) : sig.length = k.pub.size := by
  unfold pss.signDigest at h
  obtain ⟨x, -, h⟩ := Res.map_ok h
  unfold pss.signPssWithSaltDigest at h
  obtain ⟨b, -, h⟩ := Res.map_ok h
  obtain ⟨em, -, h⟩ := Res.map_ok h
  obtain ⟨em', -, h⟩ := Res.map_ok h
  obtain ⟨m, -, h⟩ := Res.map_ok h
  exact ((C25_i2osp m.1 k.pub.size).2.2.2.1 sig (show uintToBePad m.1 k.pub.size = .ok sig from h)).2.1

/-- C60 (full statement: the byte encoding of every signature object made by the typed signers has exactly `k` octets,
RFC 8017 8.1.1/8.2.1). Proved: it is the `k`-octet signature of the underlying operation preceded by zeros up to a
multiple of eight octets; it has `k` octets exactly when `8 ∣ k`. Missing: `8 ∤ k`, where it is false (`C60_longer`). -/
theorem C60_signature_length_partial {D : HashFn} (k : PrivateKey) (hn : 0 < k.pub.n.val)
    (h29 : octetLen k.pub.n.val < 2 ^ 29) :
    (∀ pfx msg sg, ((pkcs1v15.SigningKey.mk (D := D) k pfx).trySign msg = .ok sg ∨
        (pkcs1v15.SigningKey.mk (D := D) k pfx).signPrehash msg = .ok sg ∨
        ∃ (σ : Type) (R : RngImpl σ) (fuel : Nat) (s : σ),
          (pkcs1v15.SigningKey.mk (D := D) k pfx).trySignWithRng R fuel s msg = .ok sg) →
      sg.toBytes.length = 8 * ((octetLen k.pub.n.val + 7) / 8) ∧
      (sg.toBytes.length = octetLen k.pub.n.val ↔ 8 ∣ octetLen k.pub.n.val)) ∧
    (∀ {σ : Type} (R : RngImpl σ) (fuel : Nat) (s : σ) saltLen msg sg,
        ((pss.SigningKey.mk (D := D) k saltLen).trySignWithRng R fuel s msg = .ok sg ∨
        (pss.SigningKey.mk (D := D) k saltLen).signPrehashWithRng R fuel s msg = .ok sg ∨
        (pss.BlindedSigningKey.mk (D := D) k saltLen).trySignWithRng R fuel s msg = .ok sg ∨
        (pss.BlindedSigningKey.mk (D := D) k saltLen).signPrehashWithRng R fuel s msg = .ok sg) →
      sg.toBytes.length = 8 * ((octetLen k.pub.n.val + 7) / 8) ∧
      (sg.toBytes.length = octetLen k.pub.n.val ↔ 8 ∣ octetLen k.pub.n.val)) := by
  have h0 : 0 < octetLen k.pub.n.val := by
    unfold octetLen
    have := Nat.size_pos.mpr hn
    omega
  have e : ∀ b : Bytes, b.length = k.pub.size →
      (wrap (limbsFor (8 * b.length)) (beVal b)).toBeBytes.length = 8 * ((octetLen k.pub.n.val + 7) / 8) ∧
      ((wrap (limbsFor (8 * b.length)) (beVal b)).toBeBytes.length = octetLen k.pub.n.val ↔
        8 ∣ octetLen k.pub.n.val) := by
    intro b hb
    rw [size_eq_octetLen] at hb
    have e1 : (wrap (limbsFor (8 * b.length)) (beVal b)).toBeBytes.length = 8 * ((octetLen k.pub.n.val + 7) / 8) := by
      rw [toBeBytes_parse]
      simp
      omega
    rw [e1]
    omega
  refine ⟨?_, ?_⟩
  · have fin : ∀ {σ : Type} (R : RngImpl σ) (fuel : Nat) (rng : Option σ) pfx hashed sg,
        (pkcs1v15.sign R fuel rng k pfx hashed >>= fun s => pkcs1v15.Signature.tryFrom s) = .ok sg →
        sg.toBytes.length = 8 * ((octetLen k.pub.n.val + 7) / 8) ∧
        (sg.toBytes.length = octetLen k.pub.n.val ↔ 8 ∣ octetLen k.pub.n.val) := by
      intro σ R fuel rng pfx hashed sg h
      obtain ⟨b, hb, h⟩ := Res.map_ok h
      have hl := pkcs1v15.sign_length _ _ _ _ _ _ _ hb
      rw [pkcs1v15.Signature.tryFrom_eq b (by rw [hl, size_eq_octetLen]; exact h29)] at h
      cases h
      exact e b hl
    rintro pfx msg sg (h | h | ⟨σ, R, fuel, s, h⟩)
    · exact fin _ _ _ _ _ _ h
    · exact fin _ _ _ _ _ _ h
    · exact fin _ _ _ _ _ _ h
  · have fin : ∀ {σ : Type} (R : RngImpl σ) (fuel : Nat) (s : σ) bl hashed saltLen sg,
        (pss.signDigest R fuel D s bl k hashed saltLen >>= fun s => pss.Signature.tryFrom s) = .ok sg →
        sg.toBytes.length = 8 * ((octetLen k.pub.n.val + 7) / 8) ∧
        (sg.toBytes.length = octetLen k.pub.n.val ↔ 8 ∣ octetLen k.pub.n.val) := by
      intro σ R fuel s bl hashed saltLen sg h
      obtain ⟨b, hb, h⟩ := Res.map_ok h
      have hl := pss.signDigest_length _ _ _ _ _ _ _ _ _ hb
      rw [pss.Signature.tryFrom_eq b (by rw [hl, size_eq_octetLen]; exact h29)] at h
      cases h
      exact e b hl
    rintro σ R fuel s saltLen msg sg (h | h | h | h)
    · exact fin _ _ _ _ _ _ _ h
    · exact fin _ _ _ _ _ _ _ h
    · exact fin _ _ _ _ _ _ _ h
    · exact fin _ _ _ _ _ _ _ h

/-- With a 216-bit (27-octet) modulus the encoding has 32 octets. -/
theorem C60_longer : WellFormed Ex.key ∧ ∃ sg, (pkcs1v15.SigningKey.newUnprefixed (D := Ex.hash4) Ex.key).trySign [1] = .ok sg ∧
    octetLen Ex.key.pub.n.val = 27 ∧ sg.toBytes.length = 32 := by
  refine ⟨Ex.key_wf, ?_⟩
  have h : (match (pkcs1v15.SigningKey.newUnprefixed (D := Ex.hash4) Ex.key).trySign [1] with
      | .ok sg => decide (sg.toBytes.length = 32) | _ => false) = true := by decide +kernel
  cases hk : (pkcs1v15.SigningKey.newUnprefixed (D := Ex.hash4) Ex.key).trySign [1] with
  | ok sg => rw [hk] at h; exact ⟨sg, rfl, by decide +kernel, by simpa using h⟩
  | err _ => rw [hk] at h; exact absurd h (by simp)
  | panic _ => rw [hk] at h; exact absurd h (by simp)
  | loop => rw [hk] at h; exact absurd h (by simp)

/-! ### C41: algorithm identifiers -/

/-- C41 (full statement: the published salt length is the one signed with). Proved: it is the salt length modulo 256,
hence equal exactly for salt lengths below 256, for both key types; the hash and the MGF hash are the key's hash.
Missing: longer salts, for which it is false (`C41_salt_truncated`). -/
theorem C41_algorithm_identifier_partial {D : HashFn} (oid : Bytes) (k : PrivateKey) (saltLen : Nat) :
    ((pss.SigningKey.mk (D := D) k saltLen).signatureAlgorithmIdentifier oid).saltLen.toNat = saltLen % 256 ∧
    (((pss.SigningKey.mk (D := D) k saltLen).signatureAlgorithmIdentifier oid).saltLen.toNat = saltLen ↔
      saltLen < 256) ∧
    (pss.BlindedSigningKey.mk (D := D) k saltLen).signatureAlgorithmIdentifier oid =
      (pss.SigningKey.mk (D := D) k saltLen).signatureAlgorithmIdentifier oid ∧
    ((pss.SigningKey.mk (D := D) k saltLen).signatureAlgorithmIdentifier oid).hashOid = oid ∧
    ((pss.SigningKey.mk (D := D) k saltLen).signatureAlgorithmIdentifier oid).mgfHashOid = oid ∧
    (D.outLen < 256 → (pss.SigningKey.new (D := D) k).signatureAlgorithmIdentifier oid =
      pss.getDefaultPssSignatureAlgoId D oid ∧ (pss.getDefaultPssSignatureAlgoId D oid).saltLen.toNat = D.outLen) := by
  have e : ∀ n : Nat, (UInt8.ofNat n).toNat = n % 256 := fun n => by simp
  refine ⟨e _, ?_, rfl, rfl, rfl, fun h => ⟨rfl, ?_⟩⟩
  · show (UInt8.ofNat saltLen).toNat = saltLen ↔ _
    rw [e]
    omega
  · show (UInt8.ofNat D.outLen).toNat = D.outLen
    rw [e]
    omega

/-- The published salt length is the length of the salt inside every signature the key makes, for salts below 256. -/
theorem C41_published_salt_used_partial {σ : Type} (R : RngImpl σ) (fuel : Nat) (k : PrivateKey) (hk : k.pub.Coherent)
    (hp : k.pub.n.prec < 2 ^ 32) (D : HashFn) (hpos : 0 < D.outLen) (oid : Bytes) (saltLen : Nat) (hs : saltLen < 256)
    (hadd : D.outLen + saltLen + 2 < 2 ^ 64) (msg : Bytes) (s : σ) (sg : pss.Signature)
    (h : pss.SigningKey.trySignWithRng (D := D) R fuel s ⟨k, saltLen⟩ msg = .ok sg ∨
      pss.BlindedSigningKey.trySignWithRng (D := D) R fuel s ⟨k, saltLen⟩ msg = .ok sg) :
    ∃ salt em, salt.length = ((pss.SigningKey.mk (D := D) k saltLen).signatureAlgorithmIdentifier oid).saltLen.toNat ∧
      Spec.emsaPss D.hash (Spec.mgf1 D.hash D.outLen) D.outLen (D.hash msg) salt (k.pub.n.val.size - 1) = some em ∧
      sg.inner.val ^ k.pub.e.val % k.pub.n.val = os2ip em := by
  obtain ⟨salt, em, -, hl, h1, h2⟩ := C22_typed_salt_from_rng R fuel k hk hp D hpos saltLen hadd msg s sg h
  exact ⟨salt, em, hl.trans (((C41_algorithm_identifier_partial (D := D) oid k saltLen).2.1.mpr hs).symm), h1, h2⟩

/-- `n = (2^1279 - 1)(2^2203 - 1)`, 3482 bits, 55 limbs. -/
def Ex.nBig : OddUint := ⟨wrap 55 ((2 ^ 1279 - 1) * (2 ^ 2203 - 1)), by decide +kernel⟩
def Ex.dBig : Nat := 40560570442598993809320919564362375081567922853653088224653989866110503917505151143206178872412906274519276148141546801134841788213635156565229470981273167798925481628091175931433573081077789097077329856395090461149063218237771659378555819426523495830642786526521317952102887475741901267628822209428581625998013356524798068167687311824325612803271981517450140329325866790325681363330533605908212817788707311983422216567137672281545144992026385126382887180871198356603884502006570851600091909431667148927075229478767968769314206539472723513577339475695192438986499480837360883650721008139262873648762122024547692082833783186390617030439271612413285713052523142999965430110748327560696744452343422019119988782461717274060579259046648111123940703002374380464650839171994228795323660460066913594194632052648729855384908413860388527235303538588844996992553918562062753758568647960617189450230835942655746869962360386502964655611911627938070623444656655423699232914689059993081844410088564246076913696762456327038073453183762004625215432501712730742827
set_option exponentiation.threshold 3000 in
def Ex.bigKey : PrivateKey :=
  { pub := { n := Ex.nBig.toBoxedUint, e := wrap 1 65537, nParams := ⟨Ex.nBig⟩ }
    d := wrap 55 Ex.dBig
    primes := [wrap 20 (2 ^ 1279 - 1), wrap 35 (2 ^ 2203 - 1)]
    precomputed := none }

theorem Ex.prime1279 : (2 ^ 1279 - 1 : Nat).Prime := lucas_lehmer_sufficiency 1279 (by norm_num) (by norm_num)
theorem Ex.prime2203 : (2 ^ 2203 - 1 : Nat).Prime := lucas_lehmer_sufficiency 2203 (by norm_num) (by norm_num)

set_option exponentiation.threshold 3000 in
set_option maxRecDepth 100000 in
theorem Ex.bigKey_wf : WellFormed Ex.bigKey where
  coherent := rfl
  numbers :=
    { prime := by
        intro p hp
        rcases List.mem_cons.mp hp with rfl | hp
        · have : (wrap 20 (2 ^ 1279 - 1)).val = 2 ^ 1279 - 1 := by decide +kernel
          rw [this]; exact Ex.prime1279
        · rcases List.mem_cons.mp hp with rfl | hp
          · have : (wrap 35 (2 ^ 2203 - 1)).val = 2 ^ 2203 - 1 := by decide +kernel
            rw [this]; exact Ex.prime2203
          · simp at hp
      nodup := by decide +kernel
      two := by decide +kernel
      prod := by decide +kernel
      exp := by decide +kernel }
  width := by decide +kernel
  cache := by intro pre' h; cases h

/-- A well-formed 3482-bit key set to 256-byte salts signs with a 256-byte salt and publishes the salt length 0. -/
theorem C41_salt_truncated : WellFormed Ex.bigKey ∧ (∃ sg,
    pss.SigningKey.trySignWithRng (D := Ex.hash4) Ex.countingRng 0 7 ⟨Ex.bigKey, 256⟩ [1, 2, 3] = .ok sg) ∧
    ∀ oid, ((pss.SigningKey.mk (D := Ex.hash4) Ex.bigKey 256).signatureAlgorithmIdentifier oid).saltLen.toNat = 0 := by
  refine ⟨Ex.bigKey_wf, ?_, fun oid => rfl⟩
  have h : (match pss.SigningKey.trySignWithRng (D := Ex.hash4) Ex.countingRng 0 7 ⟨Ex.bigKey, 256⟩ [1, 2, 3] with
      | .ok _ => true | _ => false) = true := by decide +kernel
  cases hk : pss.SigningKey.trySignWithRng (D := Ex.hash4) Ex.countingRng 0 7 ⟨Ex.bigKey, 256⟩ [1, 2, 3] with
  | ok sg => exact ⟨sg, rfl⟩
  | err _ => rw [hk] at h; exact absurd h (by simp)
  | panic _ => rw [hk] at h; exact absurd h (by simp)
  | loop => rw [hk] at h; exact absurd h (by simp)

/- Hypotheses of `C41_published_salt_used_partial`: the example key signs with a salt of ten bytes. -/
example : Ex.key.pub.Coherent ∧ Ex.key.pub.n.prec < 2 ^ 32 ∧ 0 < Ex.hash4.outLen ∧
    (match pss.SigningKey.trySignWithRng (D := Ex.hash4) Ex.countingRng 0 7 ⟨Ex.key, 10⟩ [1, 2, 3] with
      | .ok _ => true | _ => false) = true :=
  ⟨rfl, by decide, by decide, by decide +kernel⟩

/-! ### C59: equal keys are interchangeable -/

theorem pub_eq {a b : PublicKey} (h : a.eq b = true) : a.n.val = b.n.val ∧ a.e.val = b.e.val := by
  unfold PublicKey.eq beq at h
  simpa using h

theorem priv_eq {a b : PrivateKey} (h : a.eq b = true) : a.pub.eq b.pub = true ∧ a.d.val = b.d.val := by
  unfold PrivateKey.eq at h
  simp only [Bool.and_eq_true] at h
  exact ⟨h.1.1, by simpa [beq] using h.1.2⟩

theorem size_congr {a b : PublicKey} (h : a.n.val = b.n.val) : a.size = b.size := by
  rw [size_eq_octetLen, size_eq_octetLen, h]

theorem bits_congr {a b : BoxedUint} (h : a.val = b.val) : a.bits = b.bits := by unfold BoxedUint.bits; rw [h]

/-- C59: when typed keys compare equal. Keys are compared by their numbers; in addition the signing and verifying keys of
PKCS#1 v1.5 compare the DigestInfo prefix, those of PSS the salt length, and the OAEP keys the label; the PKCS#1 v1.5
encryption keys compare nothing else. Signatures compare by their number. -/
theorem C59_typed_equality (D MGD : HashFn) (k k' : PublicKey) (s s' : PrivateKey) :
    (k.eq k' = true ↔ k.n.val = k'.n.val ∧ k.e.val = k'.e.val) ∧
    (s.eq s' = true ↔ s.pub.n.val = s'.pub.n.val ∧ s.pub.e.val = s'.pub.e.val ∧ s.d.val = s'.d.val ∧
      s.primes.map BoxedUint.val = s'.primes.map BoxedUint.val) ∧
    (∀ l l', (oaep.EncryptingKey.mk (D := D) (MGD := MGD) k l).eq ⟨k', l'⟩ = true ↔ k.eq k' = true ∧ l = l') ∧
    (∀ l l', (oaep.DecryptingKey.mk (D := D) (MGD := MGD) s l).eq ⟨s', l'⟩ = true ↔ s.eq s' = true ∧ l = l') ∧
    (∀ x x', (pkcs1v15.VerifyingKey.mk (D := D) k x).eq ⟨k', x'⟩ = true ↔ k.eq k' = true ∧ x = x') ∧
    (∀ x x', (pkcs1v15.SigningKey.mk (D := D) s x).eq ⟨s', x'⟩ = true ↔ s.eq s' = true ∧ x = x') ∧
    (∀ x x', (pss.VerifyingKey.mk (D := D) k x).eq ⟨k', x'⟩ = true ↔ k.eq k' = true ∧ x = x') ∧
    (∀ x x', (pss.SigningKey.mk (D := D) s x).eq ⟨s', x'⟩ = true ↔ s.eq s' = true ∧ x = x') ∧
    (∀ x x', (pss.BlindedSigningKey.mk (D := D) s x).eq ⟨s', x'⟩ = true ↔ s.eq s' = true ∧ x = x') ∧
    (∀ a b : pkcs1v15.Signature, a.eq b = true ↔ a.inner.val = b.inner.val) ∧
    (∀ a b : pss.Signature, a.eq b = true ↔ a.inner.val = b.inner.val) := by
  refine ⟨?_, C33_eq_distinguishes s s', ?_, ?_, ?_, ?_, ?_, ?_, ?_, ?_, ?_⟩
  · unfold PublicKey.eq beq
    simp only [Bool.and_eq_true, beq_iff_eq]
  · intro l l'; unfold oaep.EncryptingKey.eq; simp only [Bool.and_eq_true, beq_iff_eq]
  · intro l l'; unfold oaep.DecryptingKey.eq; simp only [Bool.and_eq_true, beq_iff_eq]
  · intro l l'; unfold pkcs1v15.VerifyingKey.eq; simp only [Bool.and_eq_true, beq_iff_eq]
  · intro l l'; unfold pkcs1v15.SigningKey.eq; simp only [Bool.and_eq_true, beq_iff_eq]
  · intro l l'; unfold pss.VerifyingKey.eq; simp only [Bool.and_eq_true, beq_iff_eq]
  · intro l l'; unfold pss.SigningKey.eq; simp only [Bool.and_eq_true, beq_iff_eq]
  · intro l l'; unfold pss.BlindedSigningKey.eq; simp only [Bool.and_eq_true, beq_iff_eq]
  · intro a b; unfold pkcs1v15.Signature.eq beq; simp only [beq_iff_eq]
  · intro a b; unfold pss.Signature.eq beq; simp only [beq_iff_eq]

/- Two OAEP keys with the same modulus and different labels differ, as do two with the same label and different moduli. -/
example : (oaep.EncryptingKey.mk (D := Ex.hash4) (MGD := Ex.hash4) Ex.key.pub (some [1])).eq ⟨Ex.key.pub, none⟩ = false ∧
    (oaep.EncryptingKey.mk (D := Ex.hash4) (MGD := Ex.hash4) Ex.key.pub none).eq
      ⟨{ Ex.key.pub with e := wrap 1 3 }, none⟩ = false ∧
    (oaep.EncryptingKey.mk (D := Ex.hash4) (MGD := Ex.hash4) Ex.key.pub (some [1])).eq ⟨Ex.wideKey.pub, some [1]⟩ = true := by
  decide +kernel

/-- C59: well-formed keys that compare equal (which may differ in limb counts and in having CRT values or not) sign
identically and decrypt identically with every scheme. -/
theorem C59_equal_private_keys {a b : PrivateKey} (ha : WellFormed a) (hb : WellFormed b) (h : a.eq b = true)
    {σ : Type} (R : RngImpl σ) (fuel : Nat) (rng : Option σ) (hbl : BlindingOk R a.pub.n.val fuel rng) :
    (∀ (S : pkcs1v15.Pkcs1v15Sign) hashed, S.sign R fuel rng a hashed = S.sign R fuel rng b hashed) ∧
    (∀ (D : HashFn) hashed salt, 0 < D.outLen → a.pub.n.prec < 2 ^ 32 → b.pub.n.prec < 2 ^ 32 →
      hashed.length = D.outLen → D.outLen + salt.length + 2 < 2 ^ 64 →
      pss.signPssWithSalt R fuel rng a hashed salt (DigestState.new D) =
        pss.signPssWithSalt R fuel rng b hashed salt (DigestState.new D)) ∧
    (∀ ct, checkPublic a.pub = .ok () → checkPublic b.pub = .ok () → ct.length ≤ 8 * a.pub.n.nlimbs →
      ct.length ≤ 8 * b.pub.n.nlimbs → pkcs1v15.decrypt R fuel rng a ct = pkcs1v15.decrypt R fuel rng b ct) ∧
    (∀ ct (P : oaep.Oaep), P.decrypt R fuel rng a ct = P.decrypt R fuel rng b ct) := by
  obtain ⟨hp, hd⟩ := priv_eq h
  obtain ⟨hn, he⟩ := pub_eq hp
  have hsz := size_congr hn
  have hbl' : BlindingOk R b.pub.n.val fuel rng := hn ▸ hbl
  refine ⟨?_, ?_, ?_, ?_⟩
  · intro S hashed
    unfold pkcs1v15.Pkcs1v15Sign.sign
    rw [pkcs1v15.sign_eq R fuel rng ha S.pfx hashed hbl, pkcs1v15.sign_eq R fuel rng hb S.pfx hashed hbl', hsz, hn, hd]
  · intro D hashed salt hpos h1 h2 hh hadd
    rw [pss.signPssWithSalt_eq R fuel rng ha hashed salt D hpos h1 hh hadd hbl,
      pss.signPssWithSalt_eq R fuel rng hb hashed salt D hpos h2 hh hadd hbl', hsz, bits_congr hn, hn, hd]
  · intro ct c1 c2 l1 l2
    by_cases hv : beVal ct < a.pub.n.val
    · rw [pkcs1v15.decrypt_lt R fuel rng ha c1 ct l1 hv hbl,
        pkcs1v15.decrypt_lt R fuel rng hb c2 ct l2 (hn ▸ hv) hbl', hsz, hn, hd]
    · rw [(C08_decrypt_accepts_exactly R fuel rng ha c1 hbl ct l1).2 (by rw [← beVal_eq_os2ip]; omega),
        (C08_decrypt_accepts_exactly R fuel rng hb c2 hbl' ct l2).2 (by rw [← beVal_eq_os2ip]; omega)]
  · intro ct P
    unfold oaep.Oaep.decrypt
    by_cases hl : ct.length = a.pub.size
    · by_cases hv : beVal ct < a.pub.n.val
      · rw [oaep.decrypt_lt R fuel rng ha ct hl hv hbl, oaep.decrypt_lt R fuel rng hb ct (hl.trans hsz) (hn ▸ hv) hbl',
          hsz, hn, hd]
      · rw [oaep.decrypt_ge R fuel rng ha.coherent ct hl (by omega),
          oaep.decrypt_ge R fuel rng hb.coherent ct (hl.trans hsz) (by omega)]
    · unfold oaep.decrypt
      rw [if_pos hl, if_pos (hsz ▸ hl)]

/-- C59: public keys that compare equal encrypt identically, and with the same number of limbs accept the same
signatures. -/
theorem C59_equal_public_keys {a b : PublicKey} (ha : a.Coherent) (hb : b.Coherent) (h : a.eq b = true)
    (ca : checkPublic a = .ok ()) (cb : checkPublic b = .ok ()) :
    (∀ {σ : Type} (R : RngImpl σ) (fuel : Nat) (s : σ) msg,
      pkcs1v15.encrypt R fuel s a msg = pkcs1v15.encrypt R fuel s b msg) ∧
    (∀ {σ : Type} (R : RngImpl σ) (s : σ) msg (D MGD : HashFn) label, 0 < MGD.outLen →
      oaep.encrypt R s a msg (DigestState.new D) (DigestState.new MGD) label =
        oaep.encrypt R s b msg (DigestState.new D) (DigestState.new MGD) label) ∧
    (a.n.nlimbs = b.n.nlimbs →
      (∀ pfx hashed sig, pkcs1v15.verify a pfx hashed sig = pkcs1v15.verify b pfx hashed sig) ∧
      (∀ (D : HashFn) hashed sig saltLen, pss.verifyDigest D a hashed sig saltLen =
        pss.verifyDigest D b hashed sig saltLen)) := by
  obtain ⟨hn, he⟩ := pub_eq h
  have hsz := size_congr hn
  refine ⟨?_, ?_, ?_⟩
  · intro σ R fuel s msg
    rw [pkcs1v15.encrypt_eq R fuel s a ha ca msg, pkcs1v15.encrypt_eq R fuel s b hb cb msg, hsz, hn, he]
  · intro σ R s msg D MGD label hpos
    by_cases hl : (label.getD []).length < maxLabelLen
    · rw [oaep.encrypt_eq R s a ha ca msg D MGD hpos label hl, oaep.encrypt_eq R s b hb cb msg D MGD hpos label hl, hsz,
        hn, he]
    · have hl' : 2 ^ 61 ≤ (label.getD []).length := by unfold maxLabelLen at hl; omega
      rw [C17_oaep_label_limit R s a ca D MGD label hl' msg, C17_oaep_label_limit R s b cb D MGD label hl' msg]
  · intro hlimb
    refine ⟨?_, ?_⟩
    · intro pfx hashed sig
      rw [pkcs1v15.verify_eq a ha, pkcs1v15.verify_eq b hb, hsz, hn, he, hlimb]
    · intro D hashed sig saltLen
      rw [pss.verifyDigest_core a ha, pss.verifyDigest_core b hb, hsz, hn, he, hlimb, bits_congr hn]

/- The example key with and without CRT values: equal, both well-formed, different objects. -/
example : WellFormed Ex.key ∧ WellFormed Ex.keyNoCrt ∧ Ex.key.eq Ex.keyNoCrt = true ∧ Ex.key ≠ Ex.keyNoCrt ∧
    BlindingOk Ex.countingRng Ex.key.pub.n.val 5 none :=
  ⟨Ex.key_wf, Ex.keyNoCrt_wf, by decide, by decide, trivial⟩
example : Ex.wideKey.pub.eq Ex.key.pub = true ∧ Ex.wideKey.pub ≠ Ex.key.pub ∧ checkPublic Ex.wideKey.pub = .ok () ∧
    checkPublic Ex.key.pub = .ok () := by decide +kernel

/-! ### C42: serialisation of the wrapper keys -/

theorem decode_own_encoding (k : PrivateKey) (p q : BoxedUint) (hv : k.validate = .ok ()) (hps : k.primes = [p, q])
    (hpw : p.prec ≤ k.d.prec) (hqw : q.prec ≤ k.d.prec) (hd : k.d.prec < 2 ^ 23) (hco : Nat.Coprime q.val p.val)
    {b : Bytes} (hb : k.toPkcs8Der = .ok b) :
    ∃ i, der.decodePrivateKeyInfo b = .ok i ∧ i.algorithm.oid = der.rsaEncryptionOid := by
  obtain ⟨qi, h1, -, h3⟩ := C55_private_encoding_exact k p q hv hps hpw hqw hd hco
  rw [hb] at h3
  obtain rfl := Res.ok.inj h3
  obtain ⟨hodd, hn, he⟩ := small_of_validate hv
  have sm : ∀ v, v < 2 ^ k.d.prec → Small v := by
    intro v hv
    refine Small.of_lt (len := 8 * k.d.nlimbs) (by unfold prec at hd; omega) ?_
    rw [pow256]; rwa [show 8 * (8 * k.d.nlimbs) = k.d.prec by unfold prec; ring]
  have lp : p.val < 2 ^ k.d.prec := lt_of_lt_of_le p.isLt (Nat.pow_le_pow_right (by norm_num) hpw)
  have lq : q.val < 2 ^ k.d.prec := lt_of_lt_of_le q.isLt (Nat.pow_le_pow_right (by norm_num) hqw)
  exact ⟨_, decodePrivateKeyInfo_eq .rsa (rsaPrivateKey_length (Small.of_lt (by omega) (lt_octetLen _)) he
    (sm _ k.d.isLt) (sm _ lp) (sm _ lq) (sm _ (lt_of_le_of_lt (Nat.mod_le _ _) k.d.isLt))
    (sm _ (lt_of_le_of_lt (Nat.mod_le _ _) k.d.isLt)) (sm _ (by omega))).2, rfl⟩

/-- C42 (full statement: serialising and deserialising any wrapper key gives an equal key). Proved, for every two-prime
well-formed key that its constructor accepts and whose `d` is below `n`: decryption keys of both schemes come back equal,
with the OAEP label; the inner key of every signing key comes back equal and well-formed (so `C59_equal_private_keys`
applies), but the PSS salt length always comes back as the hash length and the PKCS#1 v1.5 prefix as the one of the hash's
identifier. The wrapper therefore comes back equal exactly when it has those defaults. Missing: other salt lengths and
prefixes, where the claim is false (`C42_salt_len_lost`, `C42_prefix_changes`), and keys outside `C36`. -/
theorem C42_private_wrappers_partial (k : PrivateKey) (p q : BoxedUint) (hwf : WellFormed k) (hv : k.validate = .ok ())
    (hps : k.primes = [p, q]) (hpw : p.prec ≤ k.d.prec) (hqw : q.prec ≤ k.d.prec) (hd : k.d.prec < 2 ^ 23)
    (hd' : k.d.val < k.pub.n.val) :
    ∃ b k', k.toPkcs8Der = .ok b ∧ k'.eq k = true ∧ WellFormed k' ∧
      (∃ dk, (pkcs1v15.DecryptingKey.mk k).serialize = .ok b ∧ pkcs1v15.DecryptingKey.deserialize b = .ok dk ∧
        dk.inner = k') ∧
      (∀ (D MGD : HashFn) (label : Option Bytes), ∃ s dk,
        (oaep.DecryptingKey.mk (D := D) (MGD := MGD) k label).serialize = .ok s ∧
        oaep.DecryptingKey.deserialize (D := D) (MGD := MGD) s = .ok dk ∧
        dk.eq (oaep.DecryptingKey.mk k label) = true ∧ dk.inner = k' ∧ dk.label = label) ∧
      (∀ (D : HashFn) (saltLen : Nat), ∃ sk,
        (pss.SigningKey.mk (D := D) k saltLen).serialize = .ok b ∧ pss.SigningKey.deserialize (D := D) b = .ok sk ∧
        sk.inner = k' ∧ sk.saltLen = D.outLen ∧
        (sk.eq ⟨k, saltLen⟩ = true ↔ saltLen = D.outLen)) ∧
      (∀ (D : HashFn) (saltLen : Nat), ∃ sk,
        (pss.BlindedSigningKey.mk (D := D) k saltLen).serialize = .ok b ∧
        pss.BlindedSigningKey.deserialize (D := D) b = .ok sk ∧ sk.inner = k' ∧ sk.saltLen = D.outLen ∧
        (sk.eq ⟨k, saltLen⟩ = true ↔ saltLen = D.outLen)) ∧
      (∀ (D : HashFn) (oid digest pfx : Bytes), digest.length = D.outLen → oid.length + D.outLen + 8 < 128 → ∃ sk,
        (pkcs1v15.SigningKey.mk (D := D) k pfx).serialize = .ok b ∧
        pkcs1v15.SigningKey.deserialize (D := D) oid b = .ok sk ∧ sk.inner = k' ∧
        sk.pfx ++ digest = Spec.digestInfo oid digest ∧
        (sk.eq ⟨k, pfx⟩ = true ↔ pfx ++ digest = Spec.digestInfo oid digest)) := by
  obtain ⟨b, k', hb, hk', hE, hwf', -⟩ := C36_well_formed_round_trip k p q hwf hv hps hpw hqw hd hd'
  have hN := hwf.numbers
  rw [hps] at hN
  have hco : Nat.Coprime q.val p.val := by
    refine (Nat.coprime_primes (hN.prime q.val (by simp)) (hN.prime p.val (by simp))).mpr ?_
    have := hN.nodup
    simp only [List.map_cons, List.map_nil, List.nodup_cons, List.mem_singleton] at this
    exact fun h => this.1 h.symm
  obtain ⟨i, hi, ho⟩ := decode_own_encoding k p q hv hps hpw hqw hd hco hb
  have hi' : PrivateKey.tryFromInfo i = .ok k' := by
    unfold PrivateKey.fromPkcs8Der at hk'
    rwa [hi] at hk'
  have dec := fun (D : HashFn) oid => (C39_key_decoders (D := D) oid i ⟨der.algorithmId, 0, []⟩).2.2.2.2.1 k' hi'
  refine ⟨b, k', hb, hE, hwf', ⟨⟨k'⟩, hb, ?_, rfl⟩, ?_, ?_, ?_, ?_⟩
  · unfold pkcs1v15.DecryptingKey.deserialize
    rw [hk']; rfl
  · intro D MGD label
    refine ⟨(b, label), ⟨k', label⟩, ?_, ?_, ?_, rfl, rfl⟩
    · unfold oaep.DecryptingKey.serialize
      rw [hb]; rfl
    · unfold oaep.DecryptingKey.deserialize
      rw [hk']; rfl
    · unfold oaep.DecryptingKey.eq
      simp [hE]
  · intro D saltLen
    refine ⟨⟨k', D.outLen⟩, hb, ?_, rfl, rfl, ?_⟩
    · unfold pss.SigningKey.deserialize
      rw [hi, Res.ok_bind, (dec D []).1]
    · unfold pss.SigningKey.eq
      simp only [hE, Bool.true_and, beq_iff_eq]
      exact eq_comm
  · intro D saltLen
    refine ⟨⟨k', D.outLen⟩, hb, ?_, rfl, rfl, ?_⟩
    · unfold pss.BlindedSigningKey.deserialize
      rw [hi, Res.ok_bind, (dec D []).2.1]
    · unfold pss.BlindedSigningKey.eq
      simp only [hE, Bool.true_and, beq_iff_eq]
      exact eq_comm
  · intro D oid digest pfx hdl hsm
    obtain ⟨x, hx, hx'⟩ := C13_digest_info oid digest (by omega)
    refine ⟨⟨k', x⟩, hb, ?_, rfl, hx', ?_⟩
    · unfold pkcs1v15.SigningKey.deserialize
      rw [hi, Res.ok_bind, (dec D oid).2.2 (ho.trans rsaEncryptionOid_eq)]
      unfold pkcs1v15.SigningKey.new
      rw [← hdl, hx, Res.ok_bind]
    · unfold pkcs1v15.SigningKey.eq
      simp only [hE, Bool.true_and, beq_iff_eq]
      rw [← hx', List.append_left_inj]
      exact eq_comm

/-- C42, public side: encryption keys come back equal, with the OAEP label; verifying keys come back with an equal inner
key, the hash length as salt length and the prefix of the hash's identifier. -/
theorem C42_public_wrappers_partial (k : PublicKey) (hc : k.Coherent) (hv : checkPublic k = .ok ()) :
    ∃ b k', k.toPublicKeyDer = .ok b ∧ k'.eq k = true ∧ k'.Coherent ∧ checkPublic k' = .ok () ∧
      (∃ ek, (pkcs1v15.EncryptingKey.mk k).serialize = .ok b ∧ pkcs1v15.EncryptingKey.deserialize b = .ok ek ∧
        ek.inner = k') ∧
      (∀ (D MGD : HashFn) (label : Option Bytes), ∃ s ek,
        (oaep.EncryptingKey.mk (D := D) (MGD := MGD) k label).serialize = .ok s ∧
        oaep.EncryptingKey.deserialize (D := D) (MGD := MGD) s = .ok ek ∧
        ek.eq (oaep.EncryptingKey.mk k label) = true ∧ ek.inner = k' ∧ ek.label = label) ∧
      (∀ (D : HashFn) (saltLen : Nat), ∃ vk,
        (pss.VerifyingKey.mk (D := D) k saltLen).serialize = .ok b ∧ pss.VerifyingKey.deserialize (D := D) b = .ok vk ∧
        vk.inner = k' ∧ vk.saltLen = D.outLen ∧
        (vk.eq ⟨k, saltLen⟩ = true ↔ saltLen = D.outLen)) ∧
      (∀ (D : HashFn) (oid digest pfx : Bytes), digest.length = D.outLen → oid.length + D.outLen + 8 < 128 → ∃ vk,
        (pkcs1v15.VerifyingKey.mk (D := D) k pfx).serialize = .ok b ∧
        pkcs1v15.VerifyingKey.deserialize (D := D) oid b = .ok vk ∧ vk.inner = k' ∧
        vk.pfx ++ digest = Spec.digestInfo oid digest ∧
        (vk.eq ⟨k, pfx⟩ = true ↔ pfx ++ digest = Spec.digestInfo oid digest)) := by
  obtain ⟨hb, k', hk', hE, hc', hv', -⟩ := C37_public_round_trip k hc hv
  obtain ⟨hn, he⟩ := public_small hv
  have hi := decodeSpki_eq .rsa (rsaPublicKey_length hn he)
  have hi' : PublicKey.tryFromSpki ⟨der.algorithmId, 0, rsaPublicKey k.n.val k.e.val⟩ = .ok k' := by
    unfold PublicKey.fromPublicKeyDer at hk'
    rwa [hi] at hk'
  have dec := fun (D : HashFn) oid => (C39_key_decoders (D := D) oid ⟨der.algorithmId, []⟩ _).2.2.2.2.2 k' hi'
  refine ⟨_, k', hb, hE, hc', hv', ⟨⟨k'⟩, hb, ?_, rfl⟩, ?_, ?_, ?_⟩
  · unfold pkcs1v15.EncryptingKey.deserialize
    rw [hk']; rfl
  · intro D MGD label
    refine ⟨(subjectPublicKeyInfo rsaEncryptionAlg (rsaPublicKey k.n.val k.e.val), label), ⟨k', label⟩, ?_, ?_, ?_, rfl, rfl⟩
    · unfold oaep.EncryptingKey.serialize
      rw [hb]; rfl
    · unfold oaep.EncryptingKey.deserialize
      rw [hk']; rfl
    · unfold oaep.EncryptingKey.eq
      simp [hE]
  · intro D saltLen
    refine ⟨⟨k', D.outLen⟩, hb, ?_, rfl, rfl, ?_⟩
    · unfold pss.VerifyingKey.deserialize
      rw [hi, Res.ok_bind, (dec D []).1]
    · unfold pss.VerifyingKey.eq
      simp only [hE, Bool.true_and, beq_iff_eq]
      exact eq_comm
  · intro D oid digest pfx hdl hsm
    obtain ⟨x, hx, hx'⟩ := C13_digest_info oid digest (by omega)
    refine ⟨⟨k', x⟩, hb, ?_, rfl, hx', ?_⟩
    · unfold pkcs1v15.VerifyingKey.deserialize
      rw [hi, Res.ok_bind, (dec D oid).2 rsaEncryptionOid_eq]
      unfold pkcs1v15.VerifyingKey.new
      rw [← hdl, hx, Res.ok_bind]
    · unfold pkcs1v15.VerifyingKey.eq
      simp only [hE, Bool.true_and, beq_iff_eq]
      rw [← hx', List.append_left_inj]
      exact eq_comm

/-- A PSS signing key set to 10-byte salts comes back set to 4-byte salts (the hash length), and a signature it makes
afterwards is refused by the original verifying key. -/
theorem C42_salt_len_lost : ∃ b sk sg, (pss.SigningKey.mk (D := Ex.hash4) Ex.key 10).serialize = .ok b ∧
    pss.SigningKey.deserialize (D := Ex.hash4) b = .ok sk ∧ sk.saltLen = 4 ∧
    sk.eq ⟨Ex.key, 10⟩ = false ∧
    sk.trySignWithRng Ex.countingRng 0 7 [1, 2, 3] = .ok sg ∧
    (pss.SigningKey.mk (D := Ex.hash4) Ex.key 10).verifyingKey.verify [1, 2, 3] sg = .err .verification := by
  have h : (match (pss.SigningKey.mk (D := Ex.hash4) Ex.key 10).serialize with
      | .ok b => (match pss.SigningKey.deserialize (D := Ex.hash4) b with
        | .ok sk => sk.saltLen == 4 && !sk.eq ⟨Ex.key, 10⟩ &&
          (match sk.trySignWithRng Ex.countingRng 0 7 [1, 2, 3] with
          | .ok sg => decide ((pss.SigningKey.mk (D := Ex.hash4) Ex.key 10).verifyingKey.verify [1, 2, 3] sg =
              .err .verification)
          | _ => false)
        | _ => false)
      | _ => false) = true := by decide +kernel
  split at h
  · next b hb =>
    split at h
    · next sk hsk =>
      simp only [Bool.and_eq_true] at h
      obtain ⟨⟨h1, h2⟩, h3⟩ := h
      split at h3
      · next sg hsg =>
        exact ⟨b, sk, sg, hb, hsk, by simpa using h1, by simpa using h2, hsg, by simpa using h3⟩
      · cases h3
    · cases h
  · cases h

/-- An unprefixed PKCS#1 v1.5 signing key comes back with a prefix, so its signatures change. -/
theorem C42_prefix_changes : ∃ b sk, (pkcs1v15.SigningKey.newUnprefixed (D := Ex.hash4) Ex.key).serialize = .ok b ∧
    pkcs1v15.SigningKey.deserialize (D := Ex.hash4) [0x2a] b = .ok sk ∧
    sk.eq (pkcs1v15.SigningKey.newUnprefixed Ex.key) = false := by
  have h : (match (pkcs1v15.SigningKey.newUnprefixed (D := Ex.hash4) Ex.key).serialize with
      | .ok b => (match pkcs1v15.SigningKey.deserialize (D := Ex.hash4) [0x2a] b with
        | .ok sk => !sk.eq (pkcs1v15.SigningKey.newUnprefixed Ex.key)
        | _ => false)
      | _ => false) = true := by decide +kernel
  split at h
  · next b hb =>
    split at h
    · next sk hsk => exact ⟨b, sk, hb, hsk, by simpa using h⟩
    · cases h
  · cases h

/- The example key meets the hypotheses. -/
example : WellFormed Ex.key ∧ Ex.key.validate = .ok () ∧ (wrap 2 (2 ^ 127 - 1)).prec ≤ Ex.key.d.prec ∧
    Ex.key.d.prec < 2 ^ 23 ∧ Ex.key.d.val < Ex.key.pub.n.val ∧ Ex.key.pub.Coherent ∧ checkPublic Ex.key.pub = .ok () ∧
    ([0x2a] : Bytes).length + Ex.hash4.outLen + 8 < 128 :=
  ⟨Ex.key_wf, by decide +kernel, by decide, by decide, by decide +kernel, rfl, by decide +kernel, by decide⟩

/-! ### C46: the typed keys and the scheme objects -/

/-- C46, PKCS#1 v1.5: `SigningKey`/`VerifyingKey` and `EncryptingKey`/`DecryptingKey` do what the padding scheme objects
do. For pre-hashed input of a length other than the digest's the scheme object made by `Pkcs1v15Sign::new` returns
InputNotHashed where the typed key goes on. -/
theorem C46_pkcs1v15_agree {D : HashFn} (k : PrivateKey) (pub : PublicKey) (pfx : Bytes) :
    (∀ msg, (pkcs1v15.SigningKey.mk (D := D) k pfx).trySign msg =
      k.sign (.pkcs1v15Sign ⟨some D.outLen, pfx⟩) (D.hash msg) >>= fun b => pkcs1v15.Signature.tryFrom b) ∧
    (∀ hashed, hashed.length = D.outLen → (pkcs1v15.SigningKey.mk (D := D) k pfx).signPrehash hashed =
      k.sign (.pkcs1v15Sign ⟨some D.outLen, pfx⟩) hashed >>= fun b => pkcs1v15.Signature.tryFrom b) ∧
    (∀ hashed, (pkcs1v15.SigningKey.mk (D := D) k pfx).signPrehash hashed =
      k.sign (.pkcs1v15Sign ⟨none, pfx⟩) hashed >>= fun b => pkcs1v15.Signature.tryFrom b) ∧
    (∀ {σ : Type} (R : RngImpl σ) (fuel : Nat) (s : σ) msg,
      (pkcs1v15.SigningKey.mk (D := D) k pfx).trySignWithRng R fuel s msg =
      k.signWithRng R fuel s (.pkcs1v15Sign ⟨some D.outLen, pfx⟩) (D.hash msg) >>= fun b =>
        pkcs1v15.Signature.tryFrom b) ∧
    (∀ msg sig, pub.verify (.pkcs1v15Sign ⟨some D.outLen, pfx⟩) (D.hash msg) sig =
      pkcs1v15.Signature.tryFrom sig >>= fun sg => (pkcs1v15.VerifyingKey.mk (D := D) pub pfx).verify msg sg) ∧
    (∀ hashed sig, hashed.length = D.outLen → pub.verify (.pkcs1v15Sign ⟨some D.outLen, pfx⟩) hashed sig =
      pkcs1v15.Signature.tryFrom sig >>= fun sg => (pkcs1v15.VerifyingKey.mk (D := D) pub pfx).verifyPrehash hashed sg) ∧
    (∀ ct, (pkcs1v15.DecryptingKey.mk k).decrypt ct = k.decrypt .pkcs1v15Encrypt ct) ∧
    (∀ {σ : Type} (R : RngImpl σ) (fuel : Nat) (s : σ) ct,
      (pkcs1v15.DecryptingKey.mk k).decryptWithRng R fuel s ct = k.decryptBlinded R fuel s .pkcs1v15Encrypt ct) ∧
    (∀ {σ : Type} (R : RngImpl σ) (fuel : Nat) (s : σ) msg,
      (pkcs1v15.EncryptingKey.mk pub).encryptWithRng R fuel s msg = pub.encrypt R fuel s .pkcs1v15Encrypt msg) ∧
    (∀ oid, (pkcs1v15.SigningKey.new (D := D) oid k >>= fun sk => Res.ok sk.pfx) =
      (pkcs1v15.Pkcs1v15Sign.new D oid >>= fun S => Res.ok S.pfx)) := by
  have chk : ∀ hashed : Bytes, hashed.length = D.outLen →
      (pkcs1v15.Pkcs1v15Sign.mk (some D.outLen) pfx).checkHashLen hashed = .ok () := by
    intro hashed h
    show (if hashed.length ≠ D.outLen then _ else _) = _
    rw [if_neg (by simpa using h)]
  have sgn : ∀ {σ : Type} (R : RngImpl σ) (fuel : Nat) (rng : Option σ) (hashed : Bytes), hashed.length = D.outLen →
      (pkcs1v15.Pkcs1v15Sign.mk (some D.outLen) pfx).sign R fuel rng k hashed =
        pkcs1v15.sign R fuel rng k pfx hashed := by
    intro σ R fuel rng hashed h
    unfold pkcs1v15.Pkcs1v15Sign.sign
    rw [chk hashed h, Res.ok_bind]
  have ver : ∀ (hashed sig : Bytes), hashed.length = D.outLen →
      (pkcs1v15.Pkcs1v15Sign.mk (some D.outLen) pfx).verify pub hashed sig =
        pkcs1v15.Signature.tryFrom sig >>= fun sg => pkcs1v15.verify pub pfx hashed sg.inner := by
    intro hashed sig h
    unfold pkcs1v15.Pkcs1v15Sign.verify pkcs1v15.Signature.tryFrom
    rw [chk hashed h, Res.ok_bind]
    cases lenBitsU32 sig.length with
    | ok bits =>
      simp only [Res.ok_bind]
      cases fromBeSlice sig bits <;> rfl
    | err _ => rfl
    | panic _ => rfl
    | loop => rfl
  refine ⟨?_, ?_, ?_, ?_, ?_, ?_, fun _ => rfl, fun _ _ _ _ => rfl, fun _ _ _ _ => rfl, ?_⟩
  · intro msg
    unfold PrivateKey.sign SignatureScheme.sign pkcs1v15.SigningKey.trySign
    simp only [sgn _ _ _ _ (D.hash_len msg)]
  · intro hashed h
    unfold PrivateKey.sign SignatureScheme.sign pkcs1v15.SigningKey.signPrehash
    simp only [sgn _ _ _ _ h]
  · intro hashed; rfl
  · intro σ R fuel s msg
    unfold PrivateKey.signWithRng SignatureScheme.sign pkcs1v15.SigningKey.trySignWithRng
    simp only [sgn _ _ _ _ (D.hash_len msg)]
  · intro msg sig
    exact ver _ sig (D.hash_len msg)
  · intro hashed sig h
    exact ver _ sig h
  · intro oid
    unfold pkcs1v15.SigningKey.new pkcs1v15.Pkcs1v15Sign.new
    cases pkcs1v15GeneratePrefix oid D.outLen <;> rfl

/-- C46, PSS signing. -/
theorem C46_pss_sign_agree {D : HashFn} (k : PrivateKey) (saltLen : Nat) {σ : Type} (R : RngImpl σ) (fuel : Nat)
    (s : σ) :
    (∀ msg, (pss.SigningKey.mk (D := D) k saltLen).trySignWithRng R fuel s msg =
      k.signWithRng R fuel s (.pss (pss.Pss.newWithSalt D saltLen)) (D.hash msg) >>= fun b => pss.Signature.tryFrom b) ∧
    (∀ hashed, (pss.SigningKey.mk (D := D) k saltLen).signPrehashWithRng R fuel s hashed =
      k.signWithRng R fuel s (.pss (pss.Pss.newWithSalt D saltLen)) hashed >>= fun b => pss.Signature.tryFrom b) ∧
    (∀ msg, (pss.BlindedSigningKey.mk (D := D) k saltLen).trySignWithRng R fuel s msg =
      k.signWithRng R fuel s (.pss (pss.Pss.newBlindedWithSalt D saltLen)) (D.hash msg) >>= fun b =>
        pss.Signature.tryFrom b) ∧
    (∀ hashed, (pss.BlindedSigningKey.mk (D := D) k saltLen).signPrehashWithRng R fuel s hashed =
      k.signWithRng R fuel s (.pss (pss.Pss.newBlindedWithSalt D saltLen)) hashed >>= fun b =>
        pss.Signature.tryFrom b) := by
  have e : ∀ bl hashed, pss.signDigest R fuel D s bl k hashed saltLen =
      pss.Pss.sign ⟨bl, DigestState.new D, saltLen⟩ R fuel (some s) k hashed :=
    fun bl hashed => pss.signDigest_agree R fuel D s bl k hashed saltLen
  refine ⟨?_, ?_, ?_, ?_⟩
  · intro msg
    unfold pss.SigningKey.trySignWithRng pss.SigningKey.trySignDigestWithRng
    simp only [e]; rfl
  · intro hashed
    unfold pss.SigningKey.signPrehashWithRng
    simp only [e]; rfl
  · intro msg
    unfold pss.BlindedSigningKey.trySignWithRng
    simp only [e]; rfl
  · intro hashed
    unfold pss.BlindedSigningKey.signPrehashWithRng
    simp only [e]; rfl

/-- C46, PSS verification (full statement: both APIs accept the same signature strings). Proved: they give the same
result for strings of `k` octets below `n` when the modulus has no spare limbs. Missing: other strings, where the two
disagree: `C46_pss_verify_differs`. -/
theorem C46_pss_verify_agree_partial {D : HashFn} (k : PublicKey) (hk : k.Coherent) (hp : k.n.prec < 2 ^ 32)
    (hs : NoSpareLimbs k) (saltLen : Nat) (hashed sig : Bytes) (hl : sig.length = octetLen k.n.val)
    (hv : os2ip sig < k.n.val) :
    k.verify (.pss (pss.Pss.newWithSalt D saltLen)) hashed sig =
      (pss.Signature.tryFrom sig >>= fun sg => (pss.VerifyingKey.mk (D := D) k saltLen).verifyPrehash hashed sg) := by
  have hl' : sig.length = k.size := by rw [size_eq_octetLen]; exact hl
  have h29 : sig.length < 2 ^ 29 := by
    have := size_le_bytes k
    unfold prec at hp; omega
  have hval : (wrap (limbsFor (8 * sig.length)) (beVal sig)).val = beVal sig := pkcs1v15.parse_val sig
  have hv' : beVal sig < k.n.val := by rw [beVal_eq_os2ip]; exact hv
  rw [pss.Signature.tryFrom_eq sig h29, Res.ok_bind]
  show pss.Pss.verify ⟨false, DigestState.new D, saltLen⟩ k hashed sig = pss.verifyDigest D k hashed _ saltLen
  unfold pss.Pss.verify
  rw [pkcs1v15.lenBitsU32_eq h29, Res.ok_bind, fromBeSlice_full, Res.ok_bind, hl']
  rw [hl'] at hval
  show pss.verify k hashed (wrap (limbsFor (8 * k.size)) (beVal sig)) k.size (DigestState.new D) saltLen = _
  have hlimb : (wrap (limbsFor (8 * k.size)) (beVal sig)).nlimbs = k.n.nlimbs := by
    show limbsFor (8 * k.size) = k.n.nlimbs
    have := size_pos k (coherent_pos hk)
    unfold NoSpareLimbs at hs
    rw [← size_eq_octetLen] at hs
    rw [limbsFor_bytes]
    omega
  rw [pss.verify_core k hk hashed _ D saltLen (by rw [hval]; exact lt_trans hv' k.n.isLt),
    pss.verifyDigest_core k hk, if_pos ⟨by rw [hval]; exact hv', hlimb⟩]

/-- The scheme object accepts a string above `n` that the typed key refuses, and refuses a string with an extra leading
zero byte that the typed key accepts. -/
theorem C46_pss_verify_differs : WellFormed Ex.key25 ∧
    (∃ hashed sig, Ex.key25.pub.verify (.pss (pss.Pss.newWithSalt Ex.hash1 0)) hashed sig = .ok () ∧
      (pss.Signature.tryFrom sig >>= fun sg =>
        (pss.VerifyingKey.mk (D := Ex.hash1) Ex.key25.pub 0).verifyPrehash hashed sg) = .err .verification) ∧
    (∃ hashed sig, Ex.key25.pub.verify (.pss (pss.Pss.newWithSalt Ex.hash1 0)) hashed sig = .err .verification ∧
      (pss.Signature.tryFrom sig >>= fun sg =>
        (pss.VerifyingKey.mk (D := Ex.hash1) Ex.key25.pub 0).verifyPrehash hashed sg) = .ok ()) :=
  ⟨Ex.key25_wf, ⟨[1], [1, 248, 120, 18], by decide +kernel, by decide +kernel⟩,
    ⟨[1], [0, 0, 86, 105, 122], by decide +kernel, by decide +kernel⟩⟩

/-- C46, OAEP: the typed keys do what the scheme object does (decryption: for labels within the hash input limit and keys
that pass the public key checks, which only the typed key performs). -/
theorem C46_oaep_agree {D MGD : HashFn} (k : PrivateKey) (pub : PublicKey) (label : Option Bytes) :
    (∀ {σ : Type} (R : RngImpl σ) (fuel : Nat) (s : σ) msg,
      (oaep.EncryptingKey.mk (D := D) (MGD := MGD) pub label).encryptWithRng R s msg =
        pub.encrypt R fuel s (.oaep ⟨DigestState.new D, DigestState.new MGD, label⟩) msg) ∧
    ((label.getD []).length < 2 ^ 61 → checkPublic k.pub = .ok () →
      (∀ ct, (oaep.DecryptingKey.mk (D := D) (MGD := MGD) k label).decrypt ct =
        k.decrypt (.oaep ⟨DigestState.new D, DigestState.new MGD, label⟩) ct) ∧
      (∀ {σ : Type} (R : RngImpl σ) (fuel : Nat) (s : σ) ct,
        (oaep.DecryptingKey.mk (D := D) (MGD := MGD) k label).decryptWithRng R fuel s ct =
          k.decryptBlinded R fuel s (.oaep ⟨DigestState.new D, DigestState.new MGD, label⟩) ct)) := by
  refine ⟨fun R fuel s msg => oaep.encryptDigest_agree R D MGD s pub msg label, fun hl hc => ⟨fun ct => ?_,
    fun R fuel s ct => ?_⟩⟩
  · exact oaep.decryptDigest_agree dummyRng 0 D MGD none k hc ct label hl
  · exact oaep.decryptDigest_agree R fuel D MGD (some s) k hc ct label hl

example : Ex.key.pub.Coherent ∧ Ex.key.pub.n.prec < 2 ^ 32 ∧ NoSpareLimbs Ex.key.pub ∧
    (List.replicate 27 (5 : UInt8)).length = octetLen Ex.key.pub.n.val ∧
    os2ip (List.replicate 27 (5 : UInt8)) < Ex.key.pub.n.val ∧ checkPublic Ex.key.pub = .ok () ∧
    (Ex.hash4.hash [1]).length = Ex.hash4.outLen :=
  ⟨rfl, by decide, by decide +kernel, by decide +kernel, by decide +kernel, by decide +kernel, by decide⟩

/-! ### C61: the placeholder generator is never used -/

theorem rsaDecrypt_no_rng {σ τ : Type} (R : RngImpl σ) (R' : RngImpl τ) (fuel fuel' : Nat) (k : PrivateKey)
    (c : BoxedUint) :
    (∃ m, rsaDecrypt R fuel none k c = .ok (m, none) ∧ rsaDecrypt R' fuel' none k c = .ok (m, none)) ∨
    (∃ e, rsaDecrypt R fuel none k c = .err e ∧ rsaDecrypt R' fuel' none k c = .err e) ∨
    (∃ p, rsaDecrypt R fuel none k c = .panic p ∧ rsaDecrypt R' fuel' none k c = .panic p) ∨
    (rsaDecrypt R fuel none k c = .loop ∧ rsaDecrypt R' fuel' none k c = .loop) := by
  unfold rsaDecrypt
  by_cases hc : c.ge k.pub.n = true
  · simp only [hc, if_true]
    exact Or.inr (Or.inl ⟨_, rfl, rfl⟩)
  · simp only [hc]
    cases c.widen k.d.prec with
    | ok c =>
      simp only [Res.ok_bind]
      cases rsaPrivateExp k c with
      | ok m =>
        simp only [Res.ok_bind]
        cases m.shorten k.pub.nParams.prec with
        | ok m => exact Or.inl ⟨m, rfl, rfl⟩
        | err e => exact Or.inr (Or.inl ⟨e, rfl, rfl⟩)
        | panic p => exact Or.inr (Or.inr (Or.inl ⟨p, rfl, rfl⟩))
        | loop => exact Or.inr (Or.inr (Or.inr ⟨rfl, rfl⟩))
      | err e => exact Or.inr (Or.inl ⟨e, rfl, rfl⟩)
      | panic p => exact Or.inr (Or.inr (Or.inl ⟨p, rfl, rfl⟩))
      | loop => exact Or.inr (Or.inr (Or.inr ⟨rfl, rfl⟩))
    | err e => exact Or.inr (Or.inl ⟨e, rfl, rfl⟩)
    | panic p => exact Or.inr (Or.inr (Or.inl ⟨p, rfl, rfl⟩))
    | loop => exact Or.inr (Or.inr (Or.inr ⟨rfl, rfl⟩))

theorem rsaDecryptAndCheck_no_rng {σ τ : Type} (R : RngImpl σ) (R' : RngImpl τ) (fuel fuel' : Nat) (k : PrivateKey)
    (c : BoxedUint) {β : Type} (f : BoxedUint → Res β) :
    (rsaDecryptAndCheck R fuel k none c >>= fun x => f x.1) =
      (rsaDecryptAndCheck R' fuel' k none c >>= fun x => f x.1) := by
  unfold rsaDecryptAndCheck
  rcases rsaDecrypt_no_rng R R' fuel fuel' k c with ⟨m, h, h'⟩ | ⟨e, h, h'⟩ | ⟨p, h, h'⟩ | ⟨h, h'⟩
  · rw [h, h']
    simp only [Res.ok_bind]
    cases rsaEncrypt k.pub m with
    | ok chk =>
      simp only [Res.ok_bind]
      by_cases hb : (!c.beq chk) = true
      · rw [if_pos hb, if_pos hb]; rfl
      · rw [if_neg hb, if_neg hb]; rfl
    | err _ => rfl
    | panic _ => rfl
    | loop => rfl
  · rw [h, h']; rfl
  · rw [h, h']; rfl
  · rw [h, h']; rfl

/-- C61: `RsaPrivateKey::sign`, `::decrypt` and the deterministic typed operations pass a placeholder generator whose
methods all abort. Their results are the same for every generator and draw bound put in its place, for every key and
input: it is never consulted. -/
theorem C61_placeholder_unused {τ : Type} (R : RngImpl τ) (fuel : Nat) (k : PrivateKey) :
    (∀ (S : SignatureScheme) hashed, k.sign S hashed = S.sign R fuel none k hashed) ∧
    (∀ (P : PaddingScheme) ct, k.decrypt P ct = P.decrypt R fuel none k ct) ∧
    (∀ (D : HashFn) pfx msg, (pkcs1v15.SigningKey.mk (D := D) k pfx).trySign msg =
      (pkcs1v15.sign R fuel none k pfx (D.hash msg) >>= fun s => pkcs1v15.Signature.tryFrom s)) ∧
    (∀ ct, (pkcs1v15.DecryptingKey.mk k).decrypt ct = pkcs1v15.decrypt R fuel none k ct) ∧
    (∀ (D MGD : HashFn) label ct, (oaep.DecryptingKey.mk (D := D) (MGD := MGD) k label).decrypt ct =
      oaep.decryptDigest R fuel D MGD none k ct label) := by
  have sgn : ∀ pfx hashed, pkcs1v15.sign dummyRng 0 none k pfx hashed = pkcs1v15.sign R fuel none k pfx hashed := by
    intro pfx hashed
    unfold pkcs1v15.sign
    congr 1; funext em
    congr 1; funext em
    exact rsaDecryptAndCheck_no_rng dummyRng R 0 fuel k em (fun m => uintToZeroizingBePad m k.pub.size)
  have dec : ∀ ct, pkcs1v15.decrypt dummyRng 0 none k ct = pkcs1v15.decrypt R fuel none k ct := by
    intro ct
    unfold pkcs1v15.decrypt
    congr 1; funext _
    congr 1; funext c
    exact rsaDecryptAndCheck_no_rng dummyRng R 0 fuel k c
      (fun m => uintToZeroizingBePad m k.pub.size >>= fun em => pkcs1v15EncryptUnpad em k.pub.size)
  refine ⟨?_, ?_, ?_, dec, ?_⟩
  · intro S hashed
    cases S with
    | pkcs1v15Sign S =>
      show S.sign dummyRng 0 none k hashed = S.sign R fuel none k hashed
      unfold pkcs1v15.Pkcs1v15Sign.sign
      rw [sgn]
    | pss S => rfl
  · intro P ct
    cases P with
    | pkcs1v15Encrypt => exact dec ct
    | oaep P =>
      show oaep.decrypt dummyRng 0 none k ct _ _ _ = oaep.decrypt R fuel none k ct _ _ _
      unfold oaep.decrypt
      by_cases hl : ct.length ≠ k.pub.size
      · rw [if_pos hl, if_pos hl]
      · rw [if_neg hl, if_neg hl]
        congr 1; funext c
        exact rsaDecryptAndCheck_no_rng dummyRng R 0 fuel k c
          (fun m => uintToZeroizingBePad m k.pub.size >>= fun em =>
            oaepDecrypt em P.digest P.mgfDigest P.label k.pub.size)
  · intro D pfx msg
    unfold pkcs1v15.SigningKey.trySign
    rw [sgn]
  · intro D MGD label ct
    show oaep.decryptDigest dummyRng 0 D MGD none k ct label = _
    unfold oaep.decryptDigest
    congr 1; funext _
    by_cases hl : ct.length ≠ k.pub.size
    · rw [if_pos hl, if_pos hl]
    · rw [if_neg hl, if_neg hl]
      congr 1; funext c
      exact rsaDecryptAndCheck_no_rng dummyRng R 0 fuel k c
        (fun m => uintToZeroizingBePad m k.pub.size >>= fun em => oaepDecryptDigest em D MGD label k.pub.size)

/- Signing with the example key succeeds without a generator. -/
example : (match Ex.key.sign (.pkcs1v15Sign pkcs1v15.Pkcs1v15Sign.newUnprefixed) [1, 2, 3] with
    | .ok s => decide (s.length = 27) | _ => false) = true := by decide +kernel

example := C41_published_salt_used_partial Ex.countingRng 3 Ex.key Ex.key_wf.coherent (by decide) Ex.hash4 (by decide) [42] 3
  (by decide) (by decide) [1, 2, 3] 5
example := C46_pss_verify_agree_partial (D := Ex.hash4) Ex.key.pub Ex.key_wf.coherent (by decide) (by decide +kernel) 3
  [1, 2, 3, 4] (List.replicate 27 7) (by decide +kernel) (by decide +kernel)
example := C60_signature_length_partial (D := Ex.hash4) Ex.key (by decide +kernel) (by decide +kernel)
example := C42_public_wrappers_partial Ex.key.pub Ex.key_wf.coherent (by decide +kernel)
example := C42_private_wrappers_partial Ex.key (wrap 2 (2 ^ 89 - 1)) (wrap 2 (2 ^ 127 - 1)) Ex.key_wf (by decide +kernel) rfl
  (by decide) (by decide) (by decide) (by decide +kernel)

end RSA
