import Verif.Proof.WordsPrivate
import Verif.Model.WordsKey
import Verif.Spec.Words
import Verif.Proof.Encoding
import Verif.Proof.Oaep
import Verif.Proof.Pkcs1v15Pad

/-! Key validation, reading of documents and encryption with words of any size. -/
namespace RSA.words
open BoxedUint (beBytes beVal beVal_lt pow256)
open Uint

variable {w : Nat}

theorem validateProduct_eq : ∀ (ps : List (Uint w)) (m : Uint w),
    validateProduct ps m =
      if ∀ p ∈ ps, 1 ≤ p.val then .ok (wrap m.nlimbs (m.val * (ps.map Uint.val).prod)) else .err .invalidPrime := by
  intro ps
  induction ps with
  | nil =>
    intro m
    have : wrap m.nlimbs m.val = m := ext_val rfl (wrap_val_of_lt m.isLt)
    simp [validateProduct, this]
  | cons p ps ih =>
    intro m
    unfold validateProduct
    by_cases h : p.val < 1
    · rw [if_pos h, if_neg]
      intro hall
      have := hall p (List.mem_cons_self ..)
      omega
    · rw [if_neg h, ih]
      have hp : 1 ≤ p.val := by omega
      have hw : wrap (w := w) (m.wrappingMul p).nlimbs ((m.wrappingMul p).val * (ps.map Uint.val).prod)
          = wrap m.nlimbs (m.val * ((p :: ps).map Uint.val).prod) := by
        refine ext_val (show m.nlimbs = m.nlimbs from rfl) ?_
        show (m.val * p.val % 2 ^ (8 * w * m.nlimbs)) * (ps.map Uint.val).prod % 2 ^ (8 * w * m.nlimbs) = _
        rw [Nat.mod_mul_mod, List.map_cons, List.prod_cons, ← mul_assoc]
        rfl
      rw [hw]
      by_cases hall : ∀ q ∈ ps, 1 ≤ q.val
      · rw [if_pos hall, if_pos]
        intro q hq
        rcases List.mem_cons.mp hq with rfl | hq
        · exact hp
        · exact hall q hq
      · rw [if_neg hall, if_neg]
        intro h'
        exact hall (fun q hq => h' q (List.mem_cons_of_mem _ hq))

theorem widen_val' (hw : 0 < w) {x : Uint w} {l : Nat} (hl : 1 ≤ l) (h : x.nlimbs ≤ l) :
    x.widen (8 * w * l) = .ok (wrap l x.val) ∧ (wrap (w := w) l x.val).val = x.val := by
  refine ⟨?_, ?_⟩
  · rw [Uint.widen_of_le (show x.prec ≤ 8 * w * l from Nat.mul_le_mul_left _ h), limbsFor_mul hw hl]
  · exact wrap_val_of_lt (lt_of_lt_of_le x.isLt (Nat.pow_le_pow_right (by norm_num) (Nat.mul_le_mul_left _ h)))

theorem validateExponents_eq (hw : 0 < w) (de : Uint w) (l : Nat) (hl : 1 ≤ l) : ∀ (ps : List (Uint w)),
    (∀ p ∈ ps, 1 < p.val ∧ p.nlimbs ≤ l) →
    validateExponents de (8 * w * l) ps =
      if ∀ p ∈ ps, de.val % (p.val - 1) = 1 then .ok () else .err .invalidExponent := by
  intro ps
  induction ps with
  | nil => intro _; simp [validateExponents]
  | cons p ps ih =>
    intro hall
    obtain ⟨hp, hpl⟩ := hall p (List.mem_cons_self ..)
    have ih := ih (fun q hq => hall q (List.mem_cons_of_mem _ hq))
    unfold validateExponents
    obtain ⟨h1, h2⟩ := widen_val' hw hl hpl
    rw [h1, Res.ok_bind]
    have h3 : (wrap (w := w) l p.val).wrappingDec.val = p.val - 1 := by
      rw [wrappingDec_val hw (by rw [h2]; omega), h2]
    unfold expectNonZero
    rw [if_neg (by rw [h3]; omega), Res.ok_bind]
    have h4 := rem_val de (wrap (w := w) l p.val).wrappingDec (by rw [h3]; omega)
    rw [h3] at h4
    simp only [h4, List.forall_mem_cons]
    by_cases hc : de.val % (p.val - 1) = 1
    · simp only [hc, bne_self_eq_false, Bool.false_eq_true, if_false, true_and]
      exact ih
    · have : (de.val % (p.val - 1) != 1) = true := by simpa using hc
      rw [if_pos this, if_neg (fun h => hc h.1)]

/-- A factor that is 1 or too wide stops the loop before it accepts. -/
theorem validateExponents_ok (hw : 0 < w) (de : Uint w) (l : Nat) (hl : 1 ≤ l) : ∀ (ps : List (Uint w)),
    (∀ p ∈ ps, 1 ≤ p.val) →
    (validateExponents de (8 * w * l) ps = .ok () ↔
      ∀ p ∈ ps, p.nlimbs ≤ l ∧ 1 < p.val ∧ de.val % (p.val - 1) = 1) := by
  intro ps
  induction ps with
  | nil => intro _; simp [validateExponents]
  | cons p ps ih =>
    intro hall
    have hp := hall p (List.mem_cons_self ..)
    have ih := ih (fun q hq => hall q (List.mem_cons_of_mem _ hq))
    unfold validateExponents
    simp only [List.forall_mem_cons]
    by_cases hpl : p.nlimbs ≤ l
    · obtain ⟨h1, h2⟩ := widen_val' hw hl hpl
      rw [h1, Res.ok_bind]
      have h3 : (wrap (w := w) l p.val).wrappingDec.val = p.val - 1 := by
        rw [wrappingDec_val hw (by rw [h2]; omega), h2]
      unfold expectNonZero
      by_cases h11 : p.val = 1
      · rw [if_pos (by rw [h3, h11])]
        exact ⟨fun h => (by cases h), fun h => by omega⟩
      · rw [if_neg (by rw [h3]; omega), Res.ok_bind]
        have h4 := rem_val de (wrap (w := w) l p.val).wrappingDec (by rw [h3]; omega)
        rw [h3] at h4
        simp only [h4]
        by_cases hc : de.val % (p.val - 1) = 1
        · simp only [hc, bne_self_eq_false, Bool.false_eq_true, if_false]
          rw [ih]
          exact ⟨fun h => ⟨⟨hpl, by omega, trivial⟩, h⟩, fun h => h.2⟩
        · have : (de.val % (p.val - 1) != 1) = true := by simpa using hc
          rw [if_pos this]
          exact ⟨fun h => (by cases h), fun h => absurd h.1.2.2 hc⟩
    · have : p.widen (8 * w * l) = .panic .precision := by
        unfold widen
        rw [if_neg]
        intro h
        exact hpl (Nat.le_of_mul_le_mul_left (show 8 * w * p.nlimbs ≤ 8 * w * l from h) (by omega))
      rw [this]
      exact ⟨fun h => (by cases h), fun h => absurd h.1.1 hpl⟩

theorem oneWithPrecision_eq (hw : 0 < w) {n : Uint w} (hl : 1 ≤ n.nlimbs) :
    (oneWithPrecision (w := w) n.prec).nlimbs = n.nlimbs ∧ (oneWithPrecision (w := w) n.prec).val = 1 := by
  have hlf : limbsFor w n.prec = n.nlimbs := limbsFor_mul hw hl
  unfold oneWithPrecision
  rw [hlf]
  refine ⟨rfl, wrap_val_of_lt (Nat.one_lt_two_pow ?_)⟩
  have : 0 < 8 * w * n.nlimbs := Nat.mul_pos (by omega) hl
  omega

/-- What `validate` computes with, after the public part. -/
theorem validate_tail (hw : 0 < w) (k : PrivKey w) (hd : 1 ≤ k.d.nlimbs) :
    validate k = (checkPublic k.pub >>= fun _ =>
      if ∀ p ∈ k.primes, 1 ≤ p.val then
        if (k.primes.map Uint.val).prod % 2 ^ k.pub.n.prec = k.pub.n.val then
          validateExponents (wrap (2 * k.d.nlimbs) (k.d.val * k.pub.e.val)) (8 * w * (2 * k.d.nlimbs)) k.primes
        else .err .invalidModulus
      else .err .invalidPrime) := by
  unfold validate
  congr 1
  funext _
  rw [validateProduct_eq]
  obtain ⟨h1, h2⟩ := oneWithPrecision_eq hw (nlimbs_pos _ k.pub.pos)
  by_cases hall : ∀ p ∈ k.primes, 1 ≤ p.val
  · rw [if_pos hall, if_pos hall, Res.ok_bind, h1, h2, one_mul]
    have hbeq : (wrap (w := w) k.pub.n.nlimbs (k.primes.map Uint.val).prod).beq k.pub.n =
        decide ((k.primes.map Uint.val).prod % 2 ^ k.pub.n.prec = k.pub.n.val) := rfl
    rw [hbeq]
    by_cases hm : (k.primes.map Uint.val).prod % 2 ^ k.pub.n.prec = k.pub.n.val
    · rw [decide_eq_true hm, if_pos hm]
      simp only [Bool.not_true, Bool.false_eq_true, if_false]
      have h3 : 2 * k.d.prec = 8 * w * (2 * k.d.nlimbs) := by unfold prec; ring
      obtain ⟨h4, h5⟩ := widen_val' hw (x := k.d) (l := 2 * k.d.nlimbs) (by omega) (by omega)
      rw [h3, h4, Res.ok_bind]
      unfold wrappingMul
      rw [h5]
      rfl
    · rw [decide_eq_false hm, if_neg hm]
      rfl
  · rw [if_neg hall, if_neg hall]
    rfl

theorem checkPublic_cases (k : PubKey w) : checkPublic k = .ok () ∨ ∃ er, checkPublic k = .err er := by
  unfold checkPublic checkPublicWithMaxSize
  repeat' split
  all_goals first | exact Or.inl rfl | exact Or.inr ⟨_, rfl⟩

theorem checkPublic_lt {k : PubKey w} (h : checkPublic k = .ok ()) : k.e.val < k.n.val := by
  unfold checkPublic checkPublicWithMaxSize at h
  by_contra hc
  have hge : k.e.ge k.n = true := by simp [Uint.ge, Uint.lt]; omega
  rw [hge] at h
  by_cases h0 : k.n.prec > RSA.maxSize
  · rw [if_pos h0] at h; cases h
  · rw [if_neg h0] at h
    simp at h

/-- Exactly what `validate` accepts. -/
theorem validate_ok_iff (hw : 0 < w) (k : PrivKey w) (hd : 1 ≤ k.d.nlimbs) :
    validate k = .ok () ↔ checkPublic k.pub = .ok () ∧
      (k.primes.map Uint.val).prod % 2 ^ (8 * w * k.pub.n.nlimbs) = k.pub.n.val ∧
      ∀ p ∈ k.primes, p.nlimbs ≤ 2 * k.d.nlimbs ∧ 1 < p.val ∧
        k.d.val * k.pub.e.val % 2 ^ (8 * w * (2 * k.d.nlimbs)) % (p.val - 1) = 1 := by
  rw [validate_tail hw k hd]
  rcases checkPublic_cases k.pub with hc | ⟨er, hc⟩
  · rw [hc, Res.ok_bind]
    by_cases hall : ∀ p ∈ k.primes, 1 ≤ p.val
    · rw [if_pos hall]
      by_cases hm : (k.primes.map Uint.val).prod % 2 ^ k.pub.n.prec = k.pub.n.val
      · rw [if_pos hm, validateExponents_ok hw _ _ (by omega) _ hall]
        exact ⟨fun h => ⟨rfl, hm, h⟩, fun h => h.2.2⟩
      · rw [if_neg hm]
        exact ⟨fun h => (by cases h), fun h => absurd h.2.1 hm⟩
    · rw [if_neg hall]
      refine ⟨fun h => (by cases h), fun h => absurd ?_ hall⟩
      intro p hp
      have := (h.2.2 p hp).2.1
      omega
  · rw [hc]
    exact ⟨fun h => (by cases h), fun h => (by cases h.1)⟩

/-! ### Documents -/

/-- A number read at the width of `len` octets. -/
theorem uintFromSlice_eq (hw : 0 < w) (x : Bytes) (len : Nat) :
    uintFromSlice w x (len * 8) =
      if x.length ≤ len then .ok (wrap (max 1 (divCeil len w)) (beVal x)) else .err .pkcs8 := by
  unfold uintFromSlice fromBeSlice
  have hdc : divCeil (len * 8) 8 = len := by unfold divCeil; omega
  rw [hdc, Nat.mul_comm len 8, Uint.limbsFor_octets hw]
  by_cases h : x.length ≤ len
  · rw [if_pos h, if_neg (by omega)]
    simp only
    have h1 := beVal_lt x
    rw [pow256] at h1
    have h2 : beVal x < 2 ^ (8 * len) := lt_of_lt_of_le h1 (Nat.pow_le_pow_right (by norm_num) (by omega))
    have h3 : (wrap (w := w) (max 1 (divCeil len w)) (beVal x)).val ≤ beVal x := Nat.mod_le _ _
    rw [if_neg]
    rw [Nat.not_lt, bits_le_iff]
    omega
  · rw [if_neg h, if_pos (by omega)]

theorem slice_val (hw : 0 < w) {x : Bytes} {len : Nat} (h : x.length ≤ len) :
    (wrap (w := w) (max 1 (divCeil len w)) (beVal x)).val = beVal x := by
  apply wrap_val_of_lt
  have h1 := beVal_lt x
  rw [pow256] at h1
  refine lt_of_lt_of_le h1 (Nat.pow_le_pow_right (by norm_num) ?_)
  have h2 := le_divCeil hw len
  have h3 : w * divCeil len w ≤ w * max 1 (divCeil len w) := Nat.mul_le_mul_left _ (le_max_right _ _)
  rw [Nat.mul_assoc]
  omega

/-- The public part of a document: numbers without leading zeros, of moderate length. -/
theorem decodeRsaPublicKey_fields {b : Bytes} {k : der.RsaPublicKey} (h : der.decodeRsaPublicKey b = .ok k) :
    (k.modulus.length < der.maxLen ∧ k.modulus = uintBytes (beVal k.modulus)) ∧
    (k.publicExponent.length < der.maxLen ∧ k.publicExponent = uintBytes (beVal k.publicExponent)) := by
  unfold der.decodeRsaPublicKey at h
  rw [Res.bind_eq_ok] at h
  obtain ⟨⟨bs, x⟩, h4, hpk⟩ := h
  simp only at hpk
  rw [Res.bind_eq_ok] at hpk
  obtain ⟨_, hf, hpk⟩ := hpk
  rw [Res.bind_eq_ok] at hpk
  obtain ⟨⟨nb, d1⟩, h5, hpk⟩ := hpk
  simp only at hpk
  rw [Res.bind_eq_ok] at hpk
  obtain ⟨⟨eb, d2⟩, h6, hpk⟩ := hpk
  simp only at hpk
  rw [Res.bind_eq_ok] at hpk
  obtain ⟨_, hf2, hpk⟩ := hpk
  obtain rfl := Res.ok.inj hpk
  obtain ⟨hl1, hn1, -⟩ := readUint_ok h5
  obtain ⟨hl2, hn2, -⟩ := readUint_ok h6
  have l1 := uintBytes_length_le_intOctets (beVal nb)
  have l2 := uintBytes_length_le_intOctets (beVal eb)
  rw [← hn1] at l1
  rw [← hn2] at l2
  exact ⟨⟨by simp only; omega, hn1⟩, ⟨by simp only; omega, hn2⟩⟩

theorem decodeRsaPrivateKey_fields {b : Bytes} {k : der.RsaPrivateKey} (h : der.decodeRsaPrivateKey b = .ok k) :
    (k.modulus.length < der.maxLen ∧ k.modulus = uintBytes (beVal k.modulus)) ∧
    (k.publicExponent.length < der.maxLen ∧ k.publicExponent = uintBytes (beVal k.publicExponent)) := by
  unfold der.decodeRsaPrivateKey at h
  rw [Res.bind_eq_ok] at h
  obtain ⟨⟨c, r⟩, h1, hpk⟩ := h
  simp only at hpk
  rw [Res.bind_eq_ok] at hpk
  obtain ⟨_, hf, hpk⟩ := hpk
  rw [Res.bind_eq_ok] at hpk
  obtain ⟨⟨vb, c0⟩, g0, hpk⟩ := hpk
  simp only at hpk
  rw [Res.bind_eq_ok] at hpk
  obtain ⟨⟨nb, c1⟩, g1, hpk⟩ := hpk
  simp only at hpk
  rw [Res.bind_eq_ok] at hpk
  obtain ⟨⟨eb, c2⟩, g2, hpk⟩ := hpk
  simp only at hpk
  rw [Res.bind_eq_ok] at hpk
  obtain ⟨⟨db, c3⟩, g3, hpk⟩ := hpk
  simp only at hpk
  rw [Res.bind_eq_ok] at hpk
  obtain ⟨⟨pb, c4⟩, g4, hpk⟩ := hpk
  simp only at hpk
  rw [Res.bind_eq_ok] at hpk
  obtain ⟨⟨qb, c5⟩, g5, hpk⟩ := hpk
  simp only at hpk
  rw [Res.bind_eq_ok] at hpk
  obtain ⟨⟨dpb, c6⟩, g6, hpk⟩ := hpk
  simp only at hpk
  rw [Res.bind_eq_ok] at hpk
  obtain ⟨⟨dqb, c7⟩, g7, hpk⟩ := hpk
  simp only at hpk
  rw [Res.bind_eq_ok] at hpk
  obtain ⟨⟨qib, c8⟩, g8, hpk⟩ := hpk
  simp only at hpk
  obtain ⟨hl1, hn1, -⟩ := readUint_ok g1
  obtain ⟨hl2, hn2, -⟩ := readUint_ok g2
  have l1 := uintBytes_length_le_intOctets (beVal nb)
  have l2 := uintBytes_length_le_intOctets (beVal eb)
  rw [← hn1] at l1
  rw [← hn2] at l2
  have hcase : k.modulus = nb ∧ k.publicExponent = eb := by
    by_cases h0 : vb = [0]
    · rw [if_pos h0, Res.bind_eq_ok] at hpk
      obtain ⟨_, _, hpk⟩ := hpk
      obtain rfl := Res.ok.inj hpk
      exact ⟨rfl, rfl⟩
    · rw [if_neg h0] at hpk
      by_cases h1 : vb = [1]
      · rw [if_pos h1, Res.bind_eq_ok] at hpk
        obtain ⟨_, _, hpk⟩ := hpk
        rw [Res.bind_eq_ok] at hpk
        obtain ⟨_, _, hpk⟩ := hpk
        obtain rfl := Res.ok.inj hpk
        exact ⟨rfl, rfl⟩
      · rw [if_neg h1] at hpk; cases hpk
  rw [hcase.1, hcase.2]
  exact ⟨⟨by omega, hn1⟩, ⟨by omega, hn2⟩⟩

/-- The width of a number read with the precision of `len` octets. -/
def readWidth (w len : Nat) : Nat := max 1 (divCeil len w)

/-- The key a document leads to, before CRT values. -/
def readKey (w : Nat) (rk : der.RsaPrivateKey)
    (hn : (wrap (w := w) (readWidth w rk.modulus.length) (beVal rk.modulus)).val % 2 = 1) : PrivKey w :=
  { pub := ⟨wrap (readWidth w rk.modulus.length) (beVal rk.modulus),
      wrap (readWidth w rk.publicExponent.length) (beVal rk.publicExponent), hn⟩
    d := wrap (readWidth w rk.modulus.length) (beVal rk.privateExponent)
    primes := [wrap (readWidth w rk.modulus.length) (beVal rk.prime1),
      wrap (readWidth w rk.modulus.length) (beVal rk.prime2)]
    precomputed := none }

/-- What the reader of a document does once it is parsed. -/
theorem tryFromInfo_eq (hw : 0 < w) {i : der.PrivateKeyInfo} {rk : der.RsaPrivateKey}
    (hv : verifyAlgorithmId i.algorithm = .ok ()) (hd : der.decodeRsaPrivateKey i.privateKey = .ok rk)
    (hm : rk.multi = false) (hn : beVal rk.modulus % 2 = 1)
    (h1 : rk.privateExponent.length ≤ rk.modulus.length) (h2 : rk.prime1.length ≤ rk.modulus.length)
    (h3 : rk.prime2.length ≤ rk.modulus.length) :
    tryFromInfo w i = mapErrMalformed (do
      validate (readKey w rk (by unfold readWidth; rw [slice_val hw le_rfl]; exact hn))
      tryPrecompute (readKey w rk (by unfold readWidth; rw [slice_val hw le_rfl]; exact hn))) := by
  obtain ⟨⟨l1, -⟩, ⟨l2, -⟩⟩ := decodeRsaPrivateKey_fields hd
  unfold tryFromInfo
  rw [hv, Res.ok_bind, hd, Res.ok_bind, hm, if_neg (by decide), lenBitsChecked_eq l1, Res.ok_bind,
    uintFromSlice_eq hw, if_pos le_rfl, Res.ok_bind]
  rw [dif_pos (by rw [slice_val hw le_rfl]; exact hn), lenBitsChecked_eq l2, Res.ok_bind, uintFromSlice_eq hw,
    if_pos le_rfl, Res.ok_bind, uintFromSlice_eq hw, if_pos h1, Res.ok_bind, uintFromSlice_eq hw, if_pos h2, Res.ok_bind,
    uintFromSlice_eq hw, if_pos h3, Res.ok_bind]
  rfl

theorem tryFromInfo_inv (hw : 0 < w) {i : der.PrivateKeyInfo} {K : PrivKey w} (h : tryFromInfo w i = .ok K) :
    ∃ rk, verifyAlgorithmId i.algorithm = .ok () ∧ der.decodeRsaPrivateKey i.privateKey = .ok rk ∧ rk.multi = false ∧
      beVal rk.modulus % 2 = 1 ∧ rk.privateExponent.length ≤ rk.modulus.length ∧
      rk.prime1.length ≤ rk.modulus.length ∧ rk.prime2.length ≤ rk.modulus.length := by
  unfold tryFromInfo at h
  rw [Res.bind_eq_ok] at h
  obtain ⟨_, hv, h⟩ := h
  rw [Res.bind_eq_ok] at h
  obtain ⟨rk, hd, h⟩ := h
  obtain ⟨⟨l1, -⟩, ⟨l2, -⟩⟩ := decodeRsaPrivateKey_fields hd
  by_cases hm : rk.multi = true
  · rw [if_pos hm] at h; cases h
  rw [if_neg hm, lenBitsChecked_eq l1, Res.ok_bind, uintFromSlice_eq hw, if_pos le_rfl, Res.ok_bind] at h
  by_cases hn : beVal rk.modulus % 2 = 1
  · rw [dif_pos (by rw [slice_val hw le_rfl]; exact hn), lenBitsChecked_eq l2, Res.ok_bind, uintFromSlice_eq hw,
      if_pos le_rfl, Res.ok_bind, uintFromSlice_eq hw] at h
    by_cases h1 : rk.privateExponent.length ≤ rk.modulus.length
    · rw [if_pos h1, Res.ok_bind, uintFromSlice_eq hw] at h
      by_cases h2 : rk.prime1.length ≤ rk.modulus.length
      · rw [if_pos h2, Res.ok_bind, uintFromSlice_eq hw] at h
        by_cases h3 : rk.prime2.length ≤ rk.modulus.length
        · exact ⟨rk, hv, hd, by simpa using hm, hn, h1, h2, h3⟩
        · rw [if_neg h3] at h; cases h
      · rw [if_neg h2] at h; cases h
    · rw [if_neg h1] at h; cases h
  · rw [dif_neg (by rw [slice_val hw le_rfl]; exact hn)] at h; cases h

/-- With odd factors at the width of `d`, `precompute` finishes or reports an error. -/
theorem precomputeValues_returns (hw : 0 < w) {d p q : Uint w} {rest : List (Uint w)} (hd : 1 ≤ d.nlimbs)
    (hpl : p.nlimbs ≤ d.nlimbs) (hql : q.nlimbs ≤ d.nlimbs) (hpo : p.val % 2 = 1) (hqo : q.val % 2 = 1)
    (hp1 : 1 < p.val) (hq1 : 1 < q.val) :
    (∃ pre, precomputeValues d (p :: q :: rest) = .ok pre) ∨ ∃ er, precomputeValues d (p :: q :: rest) = .err er := by
  by_cases hco : Nat.Coprime q.val p.val
  · obtain ⟨pre, h, -⟩ := precomputeValues_exists hw (rest := rest) hd hpl hql hpo hqo hp1 hq1 hco
    exact Or.inl ⟨pre, h⟩
  · right
    obtain ⟨p', h1, h2, h3⟩ := Uint.widen_to hw hd hpl
    obtain ⟨q', h4, h5, h6⟩ := Uint.widen_to hw hd hql
    unfold precomputeValues
    simp only [primeAt, List.getElem?_cons_zero, List.getElem?_cons_succ, Res.ok_bind, h1, h4]
    have o1 : oddOrInvalid p' = .ok ⟨p', by rw [h2]; exact hpo⟩ := by
      unfold oddOrInvalid; rw [dif_pos]
    have o2 : oddOrInvalid q' = .ok ⟨q', by rw [h5]; exact hqo⟩ := by
      unfold oddOrInvalid; rw [dif_pos]
    have z1 : nonZeroOrInvalid p'.wrappingDec = .ok p'.wrappingDec := by
      unfold nonZeroOrInvalid; rw [if_neg]; rw [wrappingDec_val hw (by omega)]; omega
    have z2 : nonZeroOrInvalid q'.wrappingDec = .ok q'.wrappingDec := by
      unfold nonZeroOrInvalid; rw [if_neg]; rw [wrappingDec_val hw (by omega)]; omega
    rw [o1, Res.ok_bind, o2, Res.ok_bind, z1, Res.ok_bind, z2, Res.ok_bind]
    have hm : Monty.new q' ⟨p', by rw [h2]; exact hpo⟩ = .ok ⟨⟨p', by rw [h2]; exact hpo⟩, q'.val % p'.val⟩ := by
      unfold Monty.new
      rw [if_pos]
      unfold Params.prec prec
      rw [h3, h6]
    rw [hm, Res.ok_bind]
    have hi : Monty.invert ⟨⟨p', by rw [h2]; exact hpo⟩, q'.val % p'.val⟩ = none := by
      unfold Monty.invert
      have : BoxedUint.natInvMod (q'.val % p'.val) p'.val = none := by
        unfold BoxedUint.natInvMod
        have hz : p'.val ≠ 0 := by omega
        have hg : ¬ Nat.gcd (q'.val % p'.val) p'.val = 1 := by
          rw [h2, h5, ← Nat.gcd_rec]
          intro h
          exact hco (by rw [Nat.Coprime, Nat.gcd_comm]; exact h)
        rw [if_neg hz, if_neg hg]
      rw [this]; rfl
    rw [hi]
    exact ⟨_, rfl⟩

/-- After validation, the CRT values are stored or left out. -/
theorem tryPrecompute_cases (hw : 0 < w) {k : PrivKey w} {p q : Uint w} (hk : k.primes = [p, q])
    (hc : k.precomputed = none) (hd : 1 ≤ k.d.nlimbs)
    (hpl : p.nlimbs ≤ k.d.nlimbs) (hql : q.nlimbs ≤ k.d.nlimbs) (hpo : p.val % 2 = 1) (hqo : q.val % 2 = 1)
    (hp1 : 1 < p.val) (hq1 : 1 < q.val) :
    tryPrecompute k = .ok k ∨ ∃ pre, precomputeValues k.d k.primes = .ok pre ∧
      tryPrecompute k = .ok { k with precomputed := some pre } := by
  unfold tryPrecompute
  rw [hc, if_neg (by simp), hk]
  rcases precomputeValues_returns hw (rest := []) hd hpl hql hpo hqo hp1 hq1 with ⟨pre, h⟩ | ⟨er, h⟩
  · exact Or.inr ⟨pre, h, by rw [h]⟩
  · exact Or.inl (by rw [h])

theorem readWidth_pos (w len : Nat) : 1 ≤ readWidth w len := le_max_left _ _

section
variable (hw : 0 < w) {rk : der.RsaPrivateKey}
  (hn : (wrap (w := w) (readWidth w rk.modulus.length) (beVal rk.modulus)).val % 2 = 1)
  (h1 : rk.privateExponent.length ≤ rk.modulus.length) (h2 : rk.prime1.length ≤ rk.modulus.length)
  (h3 : rk.prime2.length ≤ rk.modulus.length)
include hw h1 h2 h3

theorem readKey_vals : (readKey w rk hn).pub.n.val = beVal rk.modulus ∧
    (readKey w rk hn).pub.e.val = beVal rk.publicExponent ∧ (readKey w rk hn).d.val = beVal rk.privateExponent ∧
    (readKey w rk hn).primes.map Uint.val = [beVal rk.prime1, beVal rk.prime2] :=
  ⟨slice_val hw le_rfl, slice_val hw le_rfl, slice_val hw h1, by
    show [(wrap (w := w) _ (beVal rk.prime1)).val, (wrap (w := w) _ (beVal rk.prime2)).val] = _
    unfold readWidth
    rw [slice_val hw h2, slice_val hw h3]⟩

/-- What is accepted of the numbers of a document. -/
theorem readKey_validate : validate (readKey w rk hn) = .ok () ↔ checkPublic (readKey w rk hn).pub = .ok () ∧
    beVal rk.prime1 * beVal rk.prime2 % 2 ^ (8 * w * readWidth w rk.modulus.length) = beVal rk.modulus ∧
    ∀ x ∈ [beVal rk.prime1, beVal rk.prime2], 1 < x ∧ beVal rk.privateExponent * beVal rk.publicExponent % (x - 1) = 1 := by
  obtain ⟨e1, e2, e3, e4⟩ := readKey_vals hw hn h1 h2 h3
  rw [validate_ok_iff hw _ (readWidth_pos _ _), e4, e1, e2, e3]
  have hlim : ∀ p ∈ (readKey w rk hn).primes, p.nlimbs = readWidth w rk.modulus.length := by
    intro p hp
    rcases List.mem_cons.mp hp with rfl | hp
    · rfl
    · obtain rfl : p = _ := by simpa using hp
      rfl
  refine and_congr_right fun hc => ?_
  have hprod : [beVal rk.prime1, beVal rk.prime2].prod = beVal rk.prime1 * beVal rk.prime2 := by simp
  rw [hprod]
  refine and_congr_right fun _ => ?_
  have hfit : beVal rk.privateExponent * beVal rk.publicExponent %
      2 ^ (8 * w * (2 * (readKey w rk hn).d.nlimbs)) = beVal rk.privateExponent * beVal rk.publicExponent := by
    apply Nat.mod_eq_of_lt
    have hen : beVal rk.publicExponent < beVal rk.modulus := by
      have := checkPublic_lt hc
      rwa [e1, e2] at this
    have a := (readKey w rk hn).d.isLt
    have b := (readKey w rk hn).pub.n.isLt
    rw [e3] at a
    rw [e1] at b
    rw [show 8 * w * (2 * (readKey w rk hn).d.nlimbs) = 8 * w * (readKey w rk hn).d.nlimbs +
      8 * w * (readKey w rk hn).pub.n.nlimbs from by
        show 8 * w * (2 * readWidth w rk.modulus.length) = 8 * w * readWidth w rk.modulus.length +
          8 * w * readWidth w rk.modulus.length
        ring, pow_add]
    exact Nat.mul_lt_mul'' a (hen.trans b)
  rw [hfit, ← e4]
  constructor
  · intro h x hx
    obtain ⟨p, hp, rfl⟩ := List.mem_map.mp hx
    exact (h p hp).2
  · intro h p hp
    refine ⟨?_, h _ (List.mem_map_of_mem hp)⟩
    rw [hlim p hp]
    show readWidth w rk.modulus.length ≤ 2 * readWidth w rk.modulus.length
    omega

/-- After validation the key is kept, with CRT values or without. -/
theorem readKey_precompute (hv : validate (readKey w rk hn) = .ok ()) :
    ∃ c, tryPrecompute (readKey w rk hn) = .ok { readKey w rk hn with precomputed := c } ∧
      ∀ pre, c = some pre → precomputeValues (readKey w rk hn).d (readKey w rk hn).primes = .ok pre := by
  obtain ⟨e1, e2, e3, e4⟩ := readKey_vals hw hn h1 h2 h3
  obtain ⟨-, hp, hx⟩ := (readKey_validate hw hn h1 h2 h3).mp hv
  have hodd : beVal rk.prime1 * beVal rk.prime2 % 2 = 1 := by
    have hn' : beVal rk.modulus % 2 = 1 := by rw [← e1]; exact hn
    rw [← hp, Nat.mod_mod_of_dvd _ (dvd_pow_self 2 (by
      have := Nat.mul_pos (show 0 < 8 * w by omega) (readWidth_pos w rk.modulus.length)
      omega))] at hn'
    exact hn'
  have ho1 : beVal rk.prime1 % 2 = 1 := (Nat.odd_iff.mp (Nat.odd_mul.mp (Nat.odd_iff.mpr hodd)).1)
  have ho2 : beVal rk.prime2 % 2 = 1 := (Nat.odd_iff.mp (Nat.odd_mul.mp (Nat.odd_iff.mpr hodd)).2)
  have v1 : (wrap (w := w) (readWidth w rk.modulus.length) (beVal rk.prime1)).val = beVal rk.prime1 := slice_val hw h2
  have v2 : (wrap (w := w) (readWidth w rk.modulus.length) (beVal rk.prime2)).val = beVal rk.prime2 := slice_val hw h3
  rcases tryPrecompute_cases hw (k := readKey w rk hn) (p := wrap (readWidth w rk.modulus.length) (beVal rk.prime1))
    (q := wrap (readWidth w rk.modulus.length) (beVal rk.prime2)) rfl rfl (readWidth_pos _ _) le_rfl le_rfl
    (by rw [v1]; exact ho1) (by rw [v2]; exact ho2) (by rw [v1]; exact (hx _ (by simp)).1)
    (by rw [v2]; exact (hx _ (by simp)).1) with h | ⟨pre, h, h'⟩
  · exact ⟨none, h, by simp⟩
  · refine ⟨some pre, h', ?_⟩
    intro pre' hpre
    obtain rfl : pre = pre' := Option.some.inj hpre
    exact h

/-- A product that differs from the modulus is refused. -/
theorem readKey_refused (hp : 1 ≤ beVal rk.prime1) (hq : 1 ≤ beVal rk.prime2)
    (hne : beVal rk.prime1 * beVal rk.prime2 % 2 ^ (8 * w * readWidth w rk.modulus.length) ≠ beVal rk.modulus) :
    ∃ er, validate (readKey w rk hn) = .err er := by
  obtain ⟨e1, e2, e3, e4⟩ := readKey_vals hw hn h1 h2 h3
  rw [validate_tail hw _ (readWidth_pos _ _), e4]
  rcases checkPublic_cases (readKey w rk hn).pub with hc | ⟨er, hc⟩
  · rw [hc, Res.ok_bind, if_pos, if_neg]
    · exact ⟨_, rfl⟩
    · rw [e1, show [beVal rk.prime1, beVal rk.prime2].prod = beVal rk.prime1 * beVal rk.prime2 by simp]
      exact hne
    · intro p hpm
      have : p.val ∈ (readKey w rk hn).primes.map Uint.val := List.mem_map_of_mem hpm
      rw [e4] at this
      simp only [List.mem_cons, List.not_mem_nil, or_false] at this
      rcases this with h | h <;> rw [h] <;> assumption
  · rw [hc]; exact ⟨er, rfl⟩

end

/-! ### Encryption -/

theorem publicBytes_eq {α : Type} (hw : 0 < w) (k : PubKey w) (em : Bytes) (h : em.length ≤ k.size) (f : Bytes → Res α) :
    (do let int ← fromBeSlice w em k.nBitsPrecision
        let c ← uintToBePad (← rsaEncrypt k int) k.size
        f c) = f (beBytes k.size (beVal em ^ k.e.val % k.n.val)) := by
  have hl : em.length ≤ w * k.n.nlimbs := h.trans k.size_le
  have hv := beVal_lt_words (k := k) hl
  rw [fromBeSlice_prec hw, if_pos hl, Res.ok_bind]
  have := em_eq hw k (wrap k.n.nlimbs (beVal em)) (wrap (w := w) k.n.nlimbs (beVal em)).isLt f
  rw [hv] at this
  exact this

end RSA.words
