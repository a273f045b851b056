import Verif.Props.Raw
import Verif.Props.Pkcs1v15
import Verif.Props.Oaep

/-
C04 at the level of the schemes: whatever happened to the secret part of a key object (a wrong exponent, wrong primes, wrong
CRT values), no signature and no plaintext leaves the library unless it is consistent with the public key. (For PSS the
same is part of `C22_salt_from_rng`, which also assumes nothing about the secret part.)
-/
namespace RSA
open BoxedUint

/-- C04, PKCS#1 v1.5 signatures: a returned signature has the modulus' length and its public operation gives exactly the
EMSA-PKCS1-v1_5 block of the digest; blinded, it is also reduced. -/
theorem C04_signature {σ : Type} (R : RngImpl σ) (fuel : Nat) (k : PrivateKey) (hk : k.pub.Coherent) (rng : Option σ)
    (S : pkcs1v15.Pkcs1v15Sign) (hashed sig : Bytes) (h : S.sign R fuel rng k hashed = .ok sig) :
    sig.length = Spec.octetLen k.pub.n.val ∧ (rng.isSome → Spec.os2ip sig < k.pub.n.val) ∧
    ∃ em, Spec.emsaPkcs1v15 (S.pfx ++ hashed) (Spec.octetLen k.pub.n.val) = some em ∧
      Spec.os2ip sig ^ k.pub.e.val % k.pub.n.val = Spec.os2ip em := by
  unfold pkcs1v15.Pkcs1v15Sign.sign at h
  rw [Res.bind_eq_ok] at h
  obtain ⟨_, _, h⟩ := h
  unfold pkcs1v15.sign at h
  rw [pkcs1v15SignPad_eq, size_eq_octetLen] at h
  cases hem : Spec.emsaPkcs1v15 (S.pfx ++ hashed) (Spec.octetLen k.pub.n.val) with
  | none => rw [hem] at h; cases h
  | some em =>
    rw [hem, Res.ok_bind] at h
    have hl : em.length = Spec.octetLen k.pub.n.val := by
      unfold Spec.emsaPkcs1v15 at hem
      split at hem
      · next hle =>
        obtain rfl := Option.some.inj hem
        simp only [List.length_append, List.length_cons, List.length_nil, List.length_replicate] at hle ⊢
        omega
      · cases hem
    have hle : em.length ≤ 8 * k.pub.n.nlimbs := by rw [hl, ← size_eq_octetLen]; exact size_le_bytes _
    rw [fromBeSlice_nprec _ hk, if_pos hle, Res.ok_bind, Res.bind_eq_ok] at h
    obtain ⟨⟨m, r⟩, hm, h⟩ := h
    obtain ⟨_, hre, hbl⟩ := C04_fault_safety R fuel k hk _ _ _ _ hm
    dsimp only at h
    rw [uintToZeroizingBePad_eq] at h
    split at h
    · next hlt =>
      obtain rfl := Res.ok.inj h
      refine ⟨beBytes_length _ _, fun hb => ?_, em, rfl, ?_⟩
      · rw [← beVal_eq_os2ip, beVal_beBytes, Nat.mod_eq_of_lt hlt]; exact hbl hb
      · rw [← beVal_eq_os2ip, ← beVal_eq_os2ip, beVal_beBytes, Nat.mod_eq_of_lt hlt, hre,
          wrap_val_of_lt (beVal_lt_limbs hle)]
    · cases h

/-- C04, typed PKCS#1 v1.5 signers, every signing method. -/
theorem C04_typed_signature {D : HashFn} (sk : pkcs1v15.SigningKey D) (hk : sk.inner.pub.Coherent)
    (hp : sk.inner.pub.n.prec < 2 ^ 32) {σ : Type} (R : RngImpl σ) (fuel : Nat) (s : σ) (msg prehash : Bytes)
    (sg : pkcs1v15.Signature) :
    (sk.trySign msg = .ok sg ∨ sk.trySignDigest msg = .ok sg ∨ sk.trySignWithRng R fuel s msg = .ok sg ∨
        sk.trySignDigestWithRng R fuel s msg = .ok sg →
      ∃ em, Spec.emsaPkcs1v15 (sk.pfx ++ D.hash msg) (Spec.octetLen sk.inner.pub.n.val) = some em ∧
        sg.inner.val ^ sk.inner.pub.e.val % sk.inner.pub.n.val = Spec.os2ip em) ∧
    (sk.signPrehash prehash = .ok sg →
      ∃ em, Spec.emsaPkcs1v15 (sk.pfx ++ prehash) (Spec.octetLen sk.inner.pub.n.val) = some em ∧
        sg.inner.val ^ sk.inner.pub.e.val % sk.inner.pub.n.val = Spec.os2ip em) := by
  have key : ∀ {τ : Type} (R' : RngImpl τ) (f : Nat) (rng : Option τ) (hashed : Bytes),
      (do let b ← pkcs1v15.sign R' f rng sk.inner sk.pfx hashed; pkcs1v15.Signature.tryFrom b) = .ok sg →
      ∃ em, Spec.emsaPkcs1v15 (sk.pfx ++ hashed) (Spec.octetLen sk.inner.pub.n.val) = some em ∧
        sg.inner.val ^ sk.inner.pub.e.val % sk.inner.pub.n.val = Spec.os2ip em := by
    intro τ R' f rng hashed h
    rw [Res.bind_eq_ok] at h
    obtain ⟨b, hb, h⟩ := h
    obtain ⟨hl, _, em, hem, hre⟩ := C04_signature R' f sk.inner hk rng ⟨none, sk.pfx⟩ hashed b hb
    have h29 : b.length < 2 ^ 29 := by
      have := size_le_bytes sk.inner.pub
      rw [size_eq_octetLen] at this
      unfold prec at hp
      omega
    rw [pkcs1v15.Signature.tryFrom_eq b h29] at h
    obtain rfl := Res.ok.inj h
    refine ⟨em, hem, ?_⟩
    rw [pkcs1v15.parse_val, beVal_eq_os2ip]; exact hre
  constructor
  · rintro (h | h | h | h)
    · exact key _ _ _ _ h
    · exact key _ _ _ _ h
    · exact key _ _ _ _ h
    · exact key _ _ _ _ h
  · intro h; exact key _ _ _ _ h

/-- C04, PKCS#1 v1.5 decryption: a returned plaintext is the message of a correct block whose public operation is the
ciphertext; in particular the ciphertext, as a number, is below the modulus. -/
theorem C04_pkcs1v15_plaintext {σ : Type} (R : RngImpl σ) (fuel : Nat) (k : PrivateKey) (hk : k.pub.Coherent)
    (hp : k.pub.n.prec < 2 ^ 32) (rng : Option σ) (ct msg : Bytes) (h : pkcs1v15.decrypt R fuel rng k ct = .ok msg) :
    Spec.os2ip ct < k.pub.n.val ∧ ∃ em, Spec.IsEmePkcs1v15 (Spec.octetLen k.pub.n.val) msg em ∧
      Spec.os2ip em ^ k.pub.e.val % k.pub.n.val = Spec.os2ip ct := by
  unfold pkcs1v15.decrypt at h
  rw [Res.bind_eq_ok] at h
  obtain ⟨_, _, h⟩ := h
  rw [fromBeSlice_nprec _ hk] at h
  by_cases hle : ct.length ≤ 8 * k.pub.n.nlimbs
  · rw [if_pos hle, Res.ok_bind, Res.bind_eq_ok] at h
    obtain ⟨⟨m, r⟩, hm, h⟩ := h
    obtain ⟨hlt, hre, _⟩ := C04_fault_safety R fuel k hk _ _ _ _ hm
    dsimp only at h
    rw [wrap_val_of_lt (beVal_lt_limbs hle)] at hlt hre
    rw [uintToZeroizingBePad_eq] at h
    by_cases hml : m.val < 256 ^ k.pub.size
    · rw [if_pos hml, Res.ok_bind] at h
      refine ⟨by rw [← beVal_eq_os2ip]; exact hlt, beBytes k.pub.size m.val, ?_, ?_⟩
      · have hsz := size_le_bytes k.pub
        unfold prec at hp
        obtain ⟨h1, h2⟩ := pkcs1v15EncryptUnpad_spec (beBytes k.pub.size m.val) k.pub.size (beBytes_length _ _) (by omega)
        by_cases hex : ∃ m', Spec.IsEmePkcs1v15 k.pub.size m' (beBytes k.pub.size m.val)
        · obtain ⟨m', hm'⟩ := hex
          rw [h1 m' hm'] at h
          obtain rfl := Res.ok.inj h
          rw [← size_eq_octetLen]; exact hm'
        · rw [h2 hex] at h; cases h
      · rw [← beVal_eq_os2ip, ← beVal_eq_os2ip, beVal_beBytes, Nat.mod_eq_of_lt hml, hre]
    · rw [if_neg hml] at h; cases h
  · rw [if_neg hle] at h; cases h

/-- C04, OAEP decryption, through the padding-scheme object and through the typed keys: a returned plaintext is the message
of a correct block for that label whose public operation is the ciphertext. -/
theorem C04_oaep_plaintext {σ : Type} (R : RngImpl σ) (fuel : Nat) (k : PrivateKey) (hk : k.pub.Coherent)
    (hp : k.pub.n.prec < 2 ^ 32) (D MGD : HashFn) (hpos : 0 < MGD.outLen) (label : Option Bytes)
    (hl : (label.getD []).length < 2 ^ 61) (rng : Option σ) (ct msg : Bytes)
    (h : oaep.decrypt R fuel rng k ct (DigestState.new D) (DigestState.new MGD) label = .ok msg ∨
      oaep.decryptDigest R fuel D MGD rng k ct label = .ok msg) :
    Spec.os2ip ct < k.pub.n.val ∧ ct.length = Spec.octetLen k.pub.n.val ∧
    ∃ seed, seed.length = D.outLen ∧ msg.length + 2 * D.outLen + 2 ≤ ct.length ∧
      Spec.os2ip (Spec.emeOaep (D.hash (label.getD [])) (Spec.mgf1 MGD.hash MGD.outLen) D.outLen ct.length seed msg)
        ^ k.pub.e.val % k.pub.n.val = Spec.os2ip ct := by
  have h : oaep.decrypt R fuel rng k ct (DigestState.new D) (DigestState.new MGD) label = .ok msg := by
    rcases h with h | h
    · exact h
    · by_cases hc : checkPublic k.pub = .ok ()
      · rwa [oaep.decryptDigest_agree R fuel D MGD rng k hc ct label hl] at h
      · unfold oaep.decryptDigest at h
        rw [Res.bind_eq_ok] at h
        obtain ⟨_, hc', _⟩ := h
        exact absurd hc' hc
  unfold oaep.decrypt at h
  by_cases hlen : ct.length = k.pub.size
  · rw [if_neg (by simp [hlen])] at h
    have hle : ct.length ≤ 8 * k.pub.n.nlimbs := by rw [hlen]; exact size_le_bytes _
    rw [fromBeSlice_nprec _ hk, if_pos hle, Res.ok_bind, Res.bind_eq_ok] at h
    obtain ⟨⟨m, r⟩, hm, h⟩ := h
    obtain ⟨hlt, hre, _⟩ := C04_fault_safety R fuel k hk _ _ _ _ hm
    dsimp only at h
    rw [wrap_val_of_lt (beVal_lt_limbs hle)] at hlt hre
    rw [uintToZeroizingBePad_eq] at h
    by_cases hml : m.val < 256 ^ k.pub.size
    · rw [if_pos hml, Res.ok_bind] at h
      have hsz := size_le_bytes k.pub
      unfold prec at hp
      have hbl : (beBytes k.pub.size m.val).length = k.pub.size := beBytes_length _ _
      have hspec := ((oaepDecrypt_spec (beBytes k.pub.size m.val) D MGD hpos label hl (by omega)).1 msg).mp
        (by rw [hbl]; exact h)
      obtain ⟨_, seed, hs, hfit, hem⟩ := hspec
      rw [hbl] at hfit hem
      refine ⟨by rw [← beVal_eq_os2ip]; exact hlt, by rw [hlen, size_eq_octetLen], seed, hs, by omega, ?_⟩
      have : Spec.emeOaep (D.hash (label.getD [])) (Spec.mgf1 MGD.hash MGD.outLen) D.outLen ct.length seed msg =
          beBytes k.pub.size m.val := by rw [hlen]; exact hem.symm
      rw [this, ← beVal_eq_os2ip, ← beVal_eq_os2ip, beVal_beBytes, Nat.mod_eq_of_lt hml, hre]
    · rw [if_neg hml] at h; cases h
  · rw [if_pos hlen] at h; cases h

/-- The key of C04's example whose `dp` was hit by a bit flip meets the hypotheses, and the fault is caught: the signer returns the internal error. -/
example : Ex.faultyKey.pub.Coherent ∧ Ex.faultyKey.pub.n.prec < 2 ^ 32 ∧
    (⟨none, []⟩ : pkcs1v15.Pkcs1v15Sign).sign Ex.countingRng 0 none Ex.faultyKey [1, 2, 3] = .err .internal :=
  ⟨rfl, by decide, by decide +kernel⟩

/-- The hypothesis "signing succeeds" is met by the intact key, and by a faulty key whose fault does not matter: with the
CRT values dropped, a corrupted list of primes is not even looked at. -/
example : (match (⟨none, []⟩ : pkcs1v15.Pkcs1v15Sign).sign Ex.countingRng 0 none
      { Ex.keyNoCrt with primes := [wrap 1 15, wrap 1 21] } [1, 2, 3] with
    | .ok sig => sig.length == 27 | _ => false) = true ∧
    (match (⟨Ex.key, []⟩ : pkcs1v15.SigningKey ⟨2, fun _ => [1, 2], fun _ => rfl⟩).trySign [5] with
    | .ok _ => true | _ => false) = true := by
  constructor <;> decide +kernel

/-- Decryption succeeds for some ciphertext under the intact key (the hypotheses of the two plaintext theorems). -/
example : (match pkcs1v15.encrypt Ex.countingRng 5 1 Ex.pub [7, 8, 9] with
    | .ok (ct, _) => pkcs1v15.decrypt Ex.countingRng 5 none Ex.key ct == .ok [7, 8, 9]
    | _ => false) = true ∧
    (match oaep.encryptDigest Ex.countingRng ⟨5, fun _ => [1, 2, 3, 4, 5], fun _ => rfl⟩
      ⟨5, fun _ => [1, 2, 3, 4, 5], fun _ => rfl⟩ 1 Ex.pub [7, 8, 9] none with
    | .ok (ct, _) => oaep.decryptDigest Ex.countingRng 5 ⟨5, fun _ => [1, 2, 3, 4, 5], fun _ => rfl⟩
        ⟨5, fun _ => [1, 2, 3, 4, 5], fun _ => rfl⟩ none Ex.key ct none == .ok [7, 8, 9]
    | _ => false) = true := by
  constructor <;> decide +kernel

example := C04_signature Ex.countingRng 0 Ex.key Ex.key_wf.coherent none ⟨none, []⟩ [1, 2, 3]
  [209, 168, 54, 190, 224, 67, 39, 138, 167, 205, 225, 75, 195, 246, 62, 183, 107, 240, 150, 31, 31, 92, 73, 125, 246, 61, 244]
  (by decide +kernel)
example := (C04_typed_signature (pkcs1v15.SigningKey.newUnprefixed (D := Ex.hash4) Ex.key) Ex.key_wf.coherent (by decide)
  Ex.countingRng 3 5 [1] [] ⟨wrap 4 66356789741009027635096244674307421722367276526876466001216232960⟩).1
  (Or.inl (by decide +kernel))
example := C04_pkcs1v15_plaintext Ex.countingRng 0 Ex.key Ex.key_wf.coherent (by decide) none
  [224, 56, 52, 73, 141, 57, 228, 72, 27, 241, 1, 6, 215, 119, 211, 126, 208, 90, 227, 45, 236, 238, 143, 230, 243, 188, 176]
  [1, 2, 3] (by decide +kernel)

end RSA
