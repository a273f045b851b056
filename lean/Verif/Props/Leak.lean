import Verif.Proof.Leak
import Verif.Proof.Encoding
import Verif.Props.Oaep
import Verif.Props.Raw

/-
C70: what the control flow and the memory accesses of decryption reveal about the plaintext. Observations are those of
`Verif/Model/Leak.lean`.
-/
namespace RSA
open BoxedUint

/-- C70: the observed programs are the modelled ones: forgetting the observations gives the decryption functions all other
properties are about. -/
theorem C70_same_program :
    (∀ em k, (leak.pkcs1v15EncryptUnpad em k).res = pkcs1v15EncryptUnpad em k) ∧
    (∀ em dg mg label k, (leak.oaepDecrypt em dg mg label k).res = oaepDecrypt em dg mg label k) ∧
    (∀ em D MGD label k, (leak.oaepDecryptDigest em D MGD label k).res = oaepDecryptDigest em D MGD label k) ∧
    (∀ x len, (leak.uintToZeroizingBePad x len).res = uintToZeroizingBePad x len) ∧
    (∀ {σ : Type} (R : RngImpl σ) fuel rng key ct,
      (leak.pkcs1v15Decrypt R fuel rng key ct).res = pkcs1v15.decrypt R fuel rng key ct) ∧
    (∀ {σ : Type} (R : RngImpl σ) fuel rng key ct dg mg label,
      (leak.oaepSchemeDecrypt R fuel rng key ct dg mg label).res = oaep.decrypt R fuel rng key ct dg mg label) ∧
    (∀ {σ : Type} (R : RngImpl σ) fuel D MGD rng key ct label,
      (leak.oaepSchemeDecryptDigest R fuel D MGD rng key ct label).res =
        oaep.decryptDigest R fuel D MGD rng key ct label) :=
  ⟨leak.pkcs1v15EncryptUnpad_res, leak.oaepDecrypt_res, leak.oaepDecryptDigest_res, leak.uintToZeroizingBePad_res,
    leak.pkcs1v15Decrypt_res, leak.oaepSchemeDecrypt_res, leak.oaepSchemeDecryptDigest_res⟩

/-- C70: removing PKCS#1 v1.5 padding from two blocks of equal length makes the same observations exactly when the outcomes
agree in kind (and, for successes, in message length): where the padding is wrong, and what the message is, stays hidden. -/
theorem C70_pkcs1v15_padding (em em' : Bytes) (h : em.length = em'.length) (k : Nat) :
    (leak.pkcs1v15EncryptUnpad em k).ev = (leak.pkcs1v15EncryptUnpad em' k).ev ↔
      Spec.outcome (pkcs1v15EncryptUnpad em k) = Spec.outcome (pkcs1v15EncryptUnpad em' k) :=
  leak.pkcs1v15EncryptUnpad_iff h k

/-- C70: removing OAEP padding likewise, in both implementations and for all hash functions: first octet, seed, label hash,
separator and message stay hidden, up to success and message length. -/
theorem C70_oaep_padding (em em' : Bytes) (h : em.length = em'.length) (label : Option Bytes) (k : Nat) :
    (∀ dg mg : DigestState, (leak.oaepDecrypt em dg mg label k).ev = (leak.oaepDecrypt em' dg mg label k).ev ↔
      Spec.outcome (oaepDecrypt em dg mg label k) = Spec.outcome (oaepDecrypt em' dg mg label k)) ∧
    (∀ D MGD : HashFn, (leak.oaepDecryptDigest em D MGD label k).ev = (leak.oaepDecryptDigest em' D MGD label k).ev ↔
      Spec.outcome (oaepDecryptDigest em D MGD label k) = Spec.outcome (oaepDecryptDigest em' D MGD label k)) :=
  ⟨fun dg mg => leak.oaepDecrypt_iff h dg mg label k, fun D MGD => leak.oaepDecryptDigest_iff h D MGD label k⟩

/-- Wrong first octet, wrong second octet, short padding, missing separator: one and the same trace. -/
example :
    let tr := fun em : Bytes => (leak.pkcs1v15EncryptUnpad em 12).ev
    tr [1, 2, 9, 9, 9, 9, 9, 9, 9, 9, 0, 5] = tr [0, 1, 9, 9, 9, 9, 9, 9, 9, 9, 0, 5] ∧
    tr [1, 2, 9, 9, 9, 9, 9, 9, 9, 9, 0, 5] = tr [0, 2, 9, 9, 9, 9, 9, 9, 9, 0, 0, 5] ∧
    tr [1, 2, 9, 9, 9, 9, 9, 9, 9, 9, 0, 5] = tr [0, 2, 9, 9, 9, 9, 9, 9, 9, 9, 9, 5] ∧
    tr [1, 2, 9, 9, 9, 9, 9, 9, 9, 9, 0, 5] ≠ tr [0, 2, 9, 9, 9, 9, 9, 9, 9, 9, 0, 5] ∧
    (tr [0, 2, 9, 9, 9, 9, 9, 9, 9, 9, 0, 5]).length = 15 := by decide +kernel

/-! ### Whole decryptions -/

/-- The plaintext integer of a ciphertext. -/
private theorem decrypted_nlimbs (k : PrivateKey) (a b : Nat) :
    (wrap k.pub.n.nlimbs a).nlimbs = (wrap k.pub.n.nlimbs b).nlimbs := rfl

/-- C70, PKCS#1 v1.5: for a well-formed key and two ciphertexts below the modulus, with or without blinding, the
observations of the two decryptions agree exactly when the decrypted integers have equally many octets and the outcomes
agree. Missing for the full claim ("only the outcome"): the number of octets of the decrypted integer, which
`uint_to_zeroizing_be_pad` uses as a slice bound. -/
theorem C70_pkcs1v15_decrypt_partial {σ : Type} (R : RngImpl σ) (fuel : Nat) (rng : Option σ) {k : PrivateKey}
    (hk : Spec.WellFormed k) (hc : checkPublic k.pub = .ok ()) (hb : Spec.BlindingOk R k.pub.n.val fuel rng)
    (ct ct' : Bytes) (hl : ct.length ≤ 8 * k.pub.n.nlimbs) (hl' : ct'.length ≤ 8 * k.pub.n.nlimbs)
    (hv : Spec.os2ip ct < k.pub.n.val) (hv' : Spec.os2ip ct' < k.pub.n.val) :
    (leak.pkcs1v15Decrypt R fuel rng k ct).ev = (leak.pkcs1v15Decrypt R fuel rng k ct').ev ↔
      Spec.octetLen (Spec.os2ip ct ^ k.d.val % k.pub.n.val) = Spec.octetLen (Spec.os2ip ct' ^ k.d.val % k.pub.n.val) ∧
      Spec.outcome (pkcs1v15.decrypt R fuel rng k ct) = Spec.outcome (pkcs1v15.decrypt R fuel rng k ct') := by
  have hn := coherent_pos hk.coherent
  rw [← beVal_eq_os2ip] at hv hv' ⊢
  rw [← beVal_eq_os2ip]
  rw [pkcs1v15.decrypt_lt R fuel rng hk hc ct hl hv hb, pkcs1v15.decrypt_lt R fuel rng hk hc ct' hl' hv' hb]
  unfold leak.pkcs1v15Decrypt
  rw [hc, Leak.ofRes_ok_bind, Leak.ofRes_ok_bind]
  obtain ⟨E, hE⟩ := leak.rsaDecryptAndCheck_run R fuel rng hk hb
  have e1 := hE ct hl hv (fun m =>
    leak.uintToZeroizingBePad m k.pub.size >>= fun em => leak.pkcs1v15EncryptUnpad em k.pub.size)
  have e2 := hE ct' hl' hv' (fun m =>
    leak.uintToZeroizingBePad m k.pub.size >>= fun em => leak.pkcs1v15EncryptUnpad em k.pub.size)
  rw [show _ = _ from e1, show _ = _ from e2]
  simp only [List.append_cancel_left_eq]
  have := leak.core_iff (decrypted_nlimbs k (beVal ct ^ k.d.val % k.pub.n.val) (beVal ct' ^ k.d.val % k.pub.n.val))
    (n := k.pub.size) (by rw [wrap_mod_val _ hn]; exact mod_lt_pow_size _ hn _)
    (by rw [wrap_mod_val _ hn]; exact mod_lt_pow_size _ hn _)
    (fun em => leak.pkcs1v15EncryptUnpad em k.pub.size) _ (leak.pkcs1v15EncryptUnpad_iff (by simp [leak.SL]) _)
  simp only [wrap_mod_val _ hn] at this
  exact this

/-- C70, OAEP: the same for both OAEP decryptions, every pair of hash functions and every label. -/
theorem C70_oaep_decrypt_partial {σ : Type} (R : RngImpl σ) (fuel : Nat) (rng : Option σ) {k : PrivateKey}
    (hk : Spec.WellFormed k) (hb : Spec.BlindingOk R k.pub.n.val fuel rng) (label : Option Bytes)
    (ct ct' : Bytes) (hl : ct.length = Spec.octetLen k.pub.n.val) (hl' : ct'.length = Spec.octetLen k.pub.n.val)
    (hv : Spec.os2ip ct < k.pub.n.val) (hv' : Spec.os2ip ct' < k.pub.n.val) :
    (∀ dg mg : DigestState,
      (leak.oaepSchemeDecrypt R fuel rng k ct dg mg label).ev = (leak.oaepSchemeDecrypt R fuel rng k ct' dg mg label).ev ↔
      Spec.octetLen (Spec.os2ip ct ^ k.d.val % k.pub.n.val) = Spec.octetLen (Spec.os2ip ct' ^ k.d.val % k.pub.n.val) ∧
      Spec.outcome (oaep.decrypt R fuel rng k ct dg mg label) =
        Spec.outcome (oaep.decrypt R fuel rng k ct' dg mg label)) ∧
    (checkPublic k.pub = .ok () → ∀ D MGD : HashFn,
      (leak.oaepSchemeDecryptDigest R fuel D MGD rng k ct label).ev =
        (leak.oaepSchemeDecryptDigest R fuel D MGD rng k ct' label).ev ↔
      Spec.octetLen (Spec.os2ip ct ^ k.d.val % k.pub.n.val) = Spec.octetLen (Spec.os2ip ct' ^ k.d.val % k.pub.n.val) ∧
      Spec.outcome (oaep.decryptDigest R fuel D MGD rng k ct label) =
        Spec.outcome (oaep.decryptDigest R fuel D MGD rng k ct' label)) := by
  have hn := coherent_pos hk.coherent
  rw [← size_eq_octetLen] at hl hl'
  have hle : ct.length ≤ 8 * k.pub.n.nlimbs := by rw [hl]; exact size_le_bytes _
  have hle' : ct'.length ≤ 8 * k.pub.n.nlimbs := by rw [hl']; exact size_le_bytes _
  rw [← beVal_eq_os2ip] at hv hv' ⊢
  rw [← beVal_eq_os2ip]
  have key : ∀ (f : Bytes → Leak Bytes) (g : Bytes → Res Bytes), (∀ em, (f em).res = g em) →
      (∀ em em' : Bytes, em.length = em'.length → ((f em).ev = (f em').ev ↔ Spec.outcome (g em) = Spec.outcome (g em'))) →
      (((Leak.ofRes (fromBeSlice ct k.pub.nBitsPrecision) >>= fun c => leak.rsaDecryptAndCheck R fuel k rng c >>= fun p =>
          leak.uintToZeroizingBePad p.1 k.pub.size >>= f) : Leak Bytes).ev =
        ((Leak.ofRes (fromBeSlice ct' k.pub.nBitsPrecision) >>= fun c => leak.rsaDecryptAndCheck R fuel k rng c >>= fun p =>
          leak.uintToZeroizingBePad p.1 k.pub.size >>= f) : Leak Bytes).ev ↔
        Spec.octetLen (beVal ct ^ k.d.val % k.pub.n.val) = Spec.octetLen (beVal ct' ^ k.d.val % k.pub.n.val) ∧
        Spec.outcome (((Leak.ofRes (fromBeSlice ct k.pub.nBitsPrecision) >>= fun c =>
          leak.rsaDecryptAndCheck R fuel k rng c >>= fun p =>
          leak.uintToZeroizingBePad p.1 k.pub.size >>= f) : Leak Bytes).res) =
        Spec.outcome (((Leak.ofRes (fromBeSlice ct' k.pub.nBitsPrecision) >>= fun c =>
          leak.rsaDecryptAndCheck R fuel k rng c >>= fun p =>
          leak.uintToZeroizingBePad p.1 k.pub.size >>= f) : Leak Bytes).res)) := by
    intro f g hfg hf
    obtain ⟨E, hE⟩ := leak.rsaDecryptAndCheck_run R fuel rng hk hb
    have e1 := hE ct hle hv (fun m =>
      leak.uintToZeroizingBePad m k.pub.size >>= f)
    have e2 := hE ct' hle' hv' (fun m =>
      leak.uintToZeroizingBePad m k.pub.size >>= f)
    rw [e1, e2]
    simp only [List.append_cancel_left_eq, Leak.res_bind, leak.uintToZeroizingBePad_res, uintToZeroizingBePad_eq,
      wrap_mod_val _ hn, if_pos (mod_lt_pow_size _ hn _), Res.ok_bind, hfg]
    have := leak.core_iff (decrypted_nlimbs k (beVal ct ^ k.d.val % k.pub.n.val) (beVal ct' ^ k.d.val % k.pub.n.val))
      (n := k.pub.size) (by rw [wrap_mod_val _ hn]; exact mod_lt_pow_size _ hn _)
      (by rw [wrap_mod_val _ hn]; exact mod_lt_pow_size _ hn _) f _ (hf _ _ (by simp))
    simp only [wrap_mod_val _ hn] at this
    exact this
  constructor
  · intro dg mg
    rw [← leak.oaepSchemeDecrypt_res, ← leak.oaepSchemeDecrypt_res]
    unfold leak.oaepSchemeDecrypt
    rw [if_neg (by simp [hl]), if_neg (by simp [hl'])]
    exact key (fun em => leak.oaepDecrypt em dg mg label k.pub.size) _ (fun em => leak.oaepDecrypt_res _ _ _ _ _)
      (fun em em' h => leak.oaepDecrypt_iff h _ _ _ _)
  · intro hc D MGD
    rw [← leak.oaepSchemeDecryptDigest_res, ← leak.oaepSchemeDecryptDigest_res]
    unfold leak.oaepSchemeDecryptDigest
    rw [hc, Leak.ofRes_ok_bind, Leak.ofRes_ok_bind, if_neg (by simp [hl]), if_neg (by simp [hl'])]
    exact key (fun em => leak.oaepDecryptDigest em D MGD label k.pub.size) _ (fun em => leak.oaepDecryptDigest_res _ _ _ _ _)
      (fun em em' h => leak.oaepDecryptDigest_iff h _ _ _ _)

/-- C70: two PKCS#1 v1.5 ciphertexts which both decrypt make the same observations exactly when their messages are equally
long: on success only the length is revealed. -/
theorem C70_pkcs1v15_success {σ : Type} (R : RngImpl σ) (fuel : Nat) (rng : Option σ) {k : PrivateKey}
    (hk : Spec.WellFormed k) (hc : checkPublic k.pub = .ok ()) (hb : Spec.BlindingOk R k.pub.n.val fuel rng)
    (ct ct' m m' : Bytes) (hl : ct.length ≤ 8 * k.pub.n.nlimbs) (hl' : ct'.length ≤ 8 * k.pub.n.nlimbs)
    (h : pkcs1v15.decrypt R fuel rng k ct = .ok m) (h' : pkcs1v15.decrypt R fuel rng k ct' = .ok m') :
    (leak.pkcs1v15Decrypt R fuel rng k ct).ev = (leak.pkcs1v15Decrypt R fuel rng k ct').ev ↔ m.length = m'.length := by
  have hn := coherent_pos hk.coherent
  have h31 : k.pub.size < 2 ^ 31 := by
    have := ((checkPublic_ok _).mp hc).1
    have := size_le_bytes k.pub
    unfold prec at *; omega
  have aux : ∀ (ct m : Bytes), ct.length ≤ 8 * k.pub.n.nlimbs → pkcs1v15.decrypt R fuel rng k ct = .ok m →
      beVal ct < k.pub.n.val ∧ Spec.octetLen (beVal ct ^ k.d.val % k.pub.n.val) = k.pub.size - 1 := by
    intro ct m hl h
    have hv : beVal ct < k.pub.n.val := by
      by_contra hv
      unfold pkcs1v15.decrypt at h
      rw [hc, Res.ok_bind, fromBeSlice_nprec _ hk.coherent, if_pos hl, Res.ok_bind,
        rsaDecryptAndCheck_ge R fuel rng k _ (by rw [wrap_val_of_lt (beVal_lt_limbs hl)]; omega)] at h
      cases h
    refine ⟨hv, ?_⟩
    rw [pkcs1v15.decrypt_lt R fuel rng hk hc ct hl hv hb] at h
    have hsp := pkcs1v15EncryptUnpad_spec (beBytes k.pub.size (beVal ct ^ k.d.val % k.pub.n.val)) k.pub.size
      (by simp) h31
    by_cases hx : ∃ m, Spec.IsEmePkcs1v15 k.pub.size m (beBytes k.pub.size (beVal ct ^ k.d.val % k.pub.n.val))
    · obtain ⟨m2, ps, he, h8, _, hlen⟩ := hx
      have hval := congrArg beVal he
      rw [beVal_beBytes, Nat.mod_eq_of_lt (mod_lt_pow_size _ hn _)] at hval
      rw [hval]
      rw [he] at hlen
      simp only [List.length_append, List.length_cons, List.length_nil] at hlen
      have e : [(0x00 : UInt8), 0x02] ++ ps ++ [0x00] ++ m2 = 0 :: 2 :: (ps ++ 0 :: m2) := by simp
      have hb2 := beVal_lt (ps ++ 0 :: m2)
      have hl2 : (ps ++ 0 :: m2).length = k.pub.size - 2 := by simp; omega
      have hv2 : beVal (0 :: 2 :: (ps ++ 0 :: m2)) = 2 * 256 ^ (k.pub.size - 2) + beVal (ps ++ 0 :: m2) := by
        rw [beVal_eq_os2ip, beVal_eq_os2ip]
        simp only [Spec.os2ip, hl2]
        simp
      rw [hl2] at hb2
      rw [e, hv2]
      have hk2 : k.pub.size - 1 = (k.pub.size - 2) + 1 := by omega
      rw [hk2]
      apply octetLen_bounds
      · omega
      · rw [pow_succ]; omega
    · rw [hsp.2 hx] at h; cases h
  obtain ⟨hv, e⟩ := aux ct m hl h
  obtain ⟨hv', e'⟩ := aux ct' m' hl' h'
  rw [C70_pkcs1v15_decrypt_partial R fuel rng hk hc hb ct ct' hl hl' (by rw [← beVal_eq_os2ip]; exact hv)
    (by rw [← beVal_eq_os2ip]; exact hv'), ← beVal_eq_os2ip, ← beVal_eq_os2ip, e, e', h, h']
  simp [Spec.outcome]

/-- C70 fails as stated: under every well-formed key with a modulus of at least two octets there are two ciphertexts that
PKCS#1 v1.5 decryption rejects with the same error but with different observations. -/
theorem C70_rejections_distinguishable {σ : Type} (R : RngImpl σ) (fuel : Nat) (rng : Option σ) {k : PrivateKey}
    (hk : Spec.WellFormed k) (hc : checkPublic k.pub = .ok ()) (hb : Spec.BlindingOk R k.pub.n.val fuel rng)
    (h2 : 256 ≤ k.pub.n.val) :
    ∃ ct ct' : Bytes, ct.length = Spec.octetLen k.pub.n.val ∧ ct'.length = Spec.octetLen k.pub.n.val ∧
      pkcs1v15.decrypt R fuel rng k ct = .err .decryption ∧ pkcs1v15.decrypt R fuel rng k ct' = .err .decryption ∧
      (leak.pkcs1v15Decrypt R fuel rng k ct).ev ≠ (leak.pkcs1v15Decrypt R fuel rng k ct').ev := by
  have hn := coherent_pos hk.coherent
  have hodd := ((checkPublic_ok _).mp hc).2.2.1
  have h31 : k.pub.size < 2 ^ 31 := by
    have := ((checkPublic_ok _).mp hc).1
    have := size_le_bytes k.pub
    unfold prec at *; omega
  -- the ciphertext of an integer below `n`
  have hct : ∀ v, v < k.pub.n.val → ∃ ct : Bytes, ct.length = k.pub.size ∧ beVal ct < k.pub.n.val ∧
      beVal ct ^ k.d.val % k.pub.n.val = v := by
    intro v hv
    refine ⟨beBytes k.pub.size (v ^ k.pub.e.val % k.pub.n.val), by simp, ?_, ?_⟩
    · rw [beVal_beBytes, Nat.mod_eq_of_lt (mod_lt_pow_size _ hn _)]; exact Nat.mod_lt _ hn
    · rw [beVal_beBytes, Nat.mod_eq_of_lt (mod_lt_pow_size _ hn _), ← Nat.pow_mod, ← pow_mul,
        mul_comm, wf_rsa hk, Nat.mod_eq_of_lt hv]
  obtain ⟨ct, hl, hv, e⟩ := hct 1 (by omega)
  obtain ⟨ct', hl', hv', e'⟩ := hct (k.pub.n.val - 1) (by omega)
  have hle : ct.length ≤ 8 * k.pub.n.nlimbs := by rw [hl]; exact size_le_bytes _
  have hle' : ct'.length ≤ 8 * k.pub.n.nlimbs := by rw [hl']; exact size_le_bytes _
  -- an encoded message has a leading 00 02, so its integer lies in a range containing neither 1 nor n - 1
  have hrej : ∀ v, v < 256 ^ k.pub.size →
      (v < 2 * 256 ^ (k.pub.size - 2) ∨ 256 ^ (k.pub.size - 1) ≤ v) → 2 ≤ k.pub.size →
      pkcs1v15EncryptUnpad (beBytes k.pub.size v) k.pub.size = .err .decryption := by
    intro v hv hor hs
    refine (pkcs1v15EncryptUnpad_spec _ _ (by simp) h31).2 ?_
    rintro ⟨m, ps, he, h8, _, hlen⟩
    have hval := congrArg beVal he
    rw [beVal_beBytes, Nat.mod_eq_of_lt hv] at hval
    rw [he] at hlen
    simp only [List.length_append, List.length_cons, List.length_nil] at hlen
    have e : [(0x00 : UInt8), 0x02] ++ ps ++ [0x00] ++ m = 0 :: 2 :: (ps ++ 0 :: m) := by simp
    have hb2 := beVal_lt (ps ++ 0 :: m)
    have hl2 : (ps ++ 0 :: m).length = k.pub.size - 2 := by simp; omega
    have hv2 : beVal (0 :: 2 :: (ps ++ 0 :: m)) = 2 * 256 ^ (k.pub.size - 2) + beVal (ps ++ 0 :: m) := by
      rw [beVal_eq_os2ip, beVal_eq_os2ip]
      simp only [Spec.os2ip, hl2]
      simp
    rw [hl2] at hb2
    rw [e, hv2] at hval
    have hk2 : k.pub.size - 1 = (k.pub.size - 2) + 1 := by omega
    rw [hk2, pow_succ] at hor
    omega
  have hs2 : 2 ≤ k.pub.size := by
    by_contra hs
    have := lt_pow_size k.pub
    have : 256 ^ k.pub.size ≤ 256 ^ 1 := Nat.pow_le_pow_right (by norm_num) (by omega)
    omega
  have hlow : 256 ^ (k.pub.size - 1) ≤ k.pub.n.val := by
    by_contra hx
    have := octetLen_le (not_le.mp hx)
    rw [← size_eq_octetLen] at this
    omega
  have hne : 256 ^ (k.pub.size - 1) ≠ k.pub.n.val := by
    intro hx
    obtain ⟨j, hj⟩ : ∃ j, k.pub.size - 1 = j + 1 := ⟨k.pub.size - 2, by omega⟩
    rw [hj, pow_succ] at hx
    omega
  have r1 : pkcs1v15.decrypt R fuel rng k ct = .err .decryption := by
    rw [pkcs1v15.decrypt_lt R fuel rng hk hc ct hle hv hb, e]
    have : 0 < 256 ^ (k.pub.size - 2) := by positivity
    exact hrej 1 (by have := lt_pow_size k.pub; omega) (Or.inl (by omega)) hs2
  have r2 : pkcs1v15.decrypt R fuel rng k ct' = .err .decryption := by
    rw [pkcs1v15.decrypt_lt R fuel rng hk hc ct' hle' hv' hb, e']
    exact hrej _ (by have := lt_pow_size k.pub; omega) (Or.inr (by omega)) hs2
  refine ⟨ct, ct', by rw [hl, size_eq_octetLen], by rw [hl', size_eq_octetLen], r1, r2, ?_⟩
  intro htr
  rw [C70_pkcs1v15_decrypt_partial R fuel rng hk hc hb ct ct' hle hle' (by rw [← beVal_eq_os2ip]; exact hv)
    (by rw [← beVal_eq_os2ip]; exact hv'), ← beVal_eq_os2ip, ← beVal_eq_os2ip, e, e'] at htr
  have h3 : k.pub.n.val - 1 < 256 ^ 1 := by
    have := lt_octetLen (k.pub.n.val - 1)
    rw [← htr.1] at this
    simpa [Spec.octetLen] using this
  have hne2 : k.pub.n.val ≠ 256 := by omega
  omega

/-- C70 fails as stated for OAEP: whatever the outcomes, the observations tell whether the decrypted integer is below
`256^(k-1)`, the first octet of the block being zero, which is the oracle of Manger's attack. -/
theorem C70_oaep_first_octet {σ : Type} (R : RngImpl σ) (fuel : Nat) (rng : Option σ) {k : PrivateKey}
    (hk : Spec.WellFormed k) (hb : Spec.BlindingOk R k.pub.n.val fuel rng) (label : Option Bytes)
    (ct ct' : Bytes) (hl : ct.length = Spec.octetLen k.pub.n.val) (hl' : ct'.length = Spec.octetLen k.pub.n.val)
    (hv : Spec.os2ip ct < k.pub.n.val) (hv' : Spec.os2ip ct' < k.pub.n.val)
    (h : Spec.os2ip ct ^ k.d.val % k.pub.n.val < 256 ^ (Spec.octetLen k.pub.n.val - 1))
    (h' : 256 ^ (Spec.octetLen k.pub.n.val - 1) ≤ Spec.os2ip ct' ^ k.d.val % k.pub.n.val) :
    (∀ dg mg : DigestState,
      (leak.oaepSchemeDecrypt R fuel rng k ct dg mg label).ev ≠ (leak.oaepSchemeDecrypt R fuel rng k ct' dg mg label).ev) ∧
    (checkPublic k.pub = .ok () → ∀ D MGD : HashFn,
      (leak.oaepSchemeDecryptDigest R fuel D MGD rng k ct label).ev ≠
        (leak.oaepSchemeDecryptDigest R fuel D MGD rng k ct' label).ev) := by
  obtain ⟨p1, p2⟩ := C70_oaep_decrypt_partial R fuel rng hk hb label ct ct' hl hl' hv hv'
  have hne : Spec.octetLen (Spec.os2ip ct ^ k.d.val % k.pub.n.val) ≠
      Spec.octetLen (Spec.os2ip ct' ^ k.d.val % k.pub.n.val) := by
    intro he
    have h1 := octetLen_le h
    have h2 := lt_octetLen (Spec.os2ip ct' ^ k.d.val % k.pub.n.val)
    rw [← he] at h2
    have h3 : 256 ^ Spec.octetLen (Spec.os2ip ct ^ k.d.val % k.pub.n.val) ≤ 256 ^ (Spec.octetLen k.pub.n.val - 1) :=
      Nat.pow_le_pow_right (by norm_num) h1
    omega
  exact ⟨fun dg mg he => hne ((p1 dg mg).mp he).1, fun hc D MGD he => hne ((p2 hc D MGD).mp he).1⟩

/-- The hypotheses hold for the example key, and two OAEP ciphertexts are rejected alike but observed differently. -/
example : Spec.WellFormed Ex.key ∧ checkPublic Ex.key.pub = .ok () ∧ 256 ≤ Ex.key.pub.n.val ∧
    (let dec := fun v => leak.oaepSchemeDecrypt Ex.countingRng 0 none Ex.key
      (beBytes 27 (v ^ 65537 % Ex.key.pub.n.val)) (DigestState.new Ex.hash4) (DigestState.new Ex.tailHash) none
     (dec (2 ^ 200)).res = .err .decryption ∧ (dec (2 ^ 210)).res = .err .decryption ∧
     (dec (2 ^ 200)).ev ≠ (dec (2 ^ 210)).ev ∧ (dec (2 ^ 210)).ev = (dec (2 ^ 211)).ev) :=
  ⟨Ex.key_wf, by decide +kernel, by decide +kernel, by decide +kernel⟩

/-- Two PKCS#1 v1.5 ciphertexts decrypting to messages of the same length: equal observations. -/
example :
    let enc := fun m : Bytes => match pkcs1v15.encrypt Ex.countingRng 5 7 Ex.key.pub m with | .ok (c, _) => c | _ => []
    let dec := fun m : Bytes => leak.pkcs1v15Decrypt Ex.countingRng 0 none Ex.key (enc m)
    (dec [1, 2, 3]).res = .ok [1, 2, 3] ∧ (dec [9, 0, 7]).res = .ok [9, 0, 7] ∧
    (dec [1, 2, 3]).ev = (dec [9, 0, 7]).ev ∧ (dec [1, 2]).res = .ok [1, 2] ∧ (dec [1, 2]).ev ≠ (dec [9, 0, 7]).ev := by
  decide +kernel

/-- Two ciphertexts of messages of three octets: nobody can tell them apart. -/
example := (C70_pkcs1v15_success Ex.countingRng 0 none Ex.key_wf (by decide +kernel) trivial
  [224, 56, 52, 73, 141, 57, 228, 72, 27, 241, 1, 6, 215, 119, 211, 126, 208, 90, 227, 45, 236, 238, 143, 230, 243, 188, 176]
  [59, 31, 200, 35, 134, 181, 160, 199, 201, 192, 252, 169, 69, 186, 78, 9, 72, 130, 41, 125, 182, 85, 36, 124, 56, 117, 49]
  [1, 2, 3] [9, 0, 7] (by decide +kernel) (by decide +kernel) (by decide +kernel) (by decide +kernel)).mpr rfl
example := C70_oaep_decrypt_partial Ex.countingRng 0 none Ex.key_wf trivial (some [8]) (List.replicate 27 7)
  (List.replicate 27 8) (by decide +kernel) (by decide +kernel) (by decide +kernel) (by decide +kernel)
example := C70_rejections_distinguishable Ex.countingRng 0 none Ex.key_wf (by decide +kernel) trivial (by decide +kernel)

end RSA
