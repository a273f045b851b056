import Verif.Model.Pkcs1v15
import Verif.Proof.PublicKey
import Verif.Proof.Pkcs1v15Pad

namespace RSA
open BoxedUint

/-- `rsa_encrypt` on a value stored at the width of the modulus, then `uint_to_be_pad`: always `k` bytes. -/
theorem encryptPad_eq (k : PublicKey) (hk : k.Coherent) (v : Nat) (hv : v < 2 ^ (64 * k.n.nlimbs)) :
    (rsaEncrypt k (wrap k.n.nlimbs v) >>= fun c => uintToBePad c k.size) =
      .ok (beBytes k.size (v ^ k.e.val % k.n.val)) := by
  have hn := coherent_pos hk
  rw [rsaEncrypt_lt k hk _ (by rw [wrap_val_of_lt hv]; exact hv), Res.ok_bind, uintToBePad_eq, wrap_mod_val _ hn,
    if_pos (mod_lt_pow_size k hn _), wrap_val_of_lt hv]

theorem head_eme {k : Nat} {m em : Bytes} (h : Spec.IsEmePkcs1v15 k m em) : em.head? = some 0 ∧ em.length = k := by
  obtain ⟨ps, rfl, _, _, hl⟩ := h
  exact ⟨rfl, hl⟩

namespace pkcs1v15

/-- `encrypt` of a public key passing `check_public`. -/
theorem encrypt_eq {σ : Type} (R : RngImpl σ) (fuel : Nat) (s : σ) (k : PublicKey) (hk : k.Coherent)
    (hc : checkPublic k = .ok ()) (msg : Bytes) :
    encrypt R fuel s k msg =
      if msg.length + 11 > k.size then .err .messageTooLong
      else nonZeroRandomBytes R fuel s (k.size - msg.length - 3) >>= fun x =>
        .ok (beBytes k.size (beVal ([0x00, 0x02] ++ x.1 ++ [0x00] ++ msg) ^ k.e.val % k.n.val), x.2) := by
  unfold encrypt
  rw [hc, Res.ok_bind, pkcs1v15EncryptPad_eq]
  split
  · rfl
  · next hl =>
    rcases nonZeroRandomBytes_cases R fuel s (k.size - msg.length - 3) with ⟨ps, s', h, hpl, _⟩ | h | h
    · rw [h]
      simp only [Res.ok_bind]
      have hlen : ([0x00, 0x02] ++ ps ++ [0x00] ++ msg : Bytes).length = k.size := by simp; omega
      have hle : ([0x00, 0x02] ++ ps ++ [0x00] ++ msg : Bytes).length ≤ 8 * k.n.nlimbs := by
        rw [hlen]; exact size_le_bytes k
      rw [fromBeSlice_nprec k hk, if_pos hle, Res.ok_bind]
      have := encryptPad_eq k hk (beVal ([0x00, 0x02] ++ ps ++ [0x00] ++ msg)) (beVal_lt_limbs hle)
      rw [Res.bind_eq_ok] at this
      obtain ⟨c, h1, h2⟩ := this
      rw [h1, Res.ok_bind, h2, Res.ok_bind]
    · rw [h]; rfl
    · rw [h]; rfl

/-- `decrypt` by a well-formed key of a string whose value is below `n`, when blinding succeeds. -/
theorem decrypt_lt {σ : Type} (R : RngImpl σ) (fuel : Nat) (rng : Option σ) {k : PrivateKey} (hk : Spec.WellFormed k)
    (hc : checkPublic k.pub = .ok ()) (ct : Bytes) (hl : ct.length ≤ 8 * k.pub.n.nlimbs) (hv : beVal ct < k.pub.n.val)
    (hb : Spec.BlindingOk R k.pub.n.val fuel rng) :
    decrypt R fuel rng k ct =
      pkcs1v15EncryptUnpad (beBytes k.pub.size (beVal ct ^ k.d.val % k.pub.n.val)) k.pub.size := by
  have hco : k.pub.Coherent := hk.coherent
  have hn := coherent_pos hco
  unfold decrypt
  rw [hc, Res.ok_bind, fromBeSlice_nprec _ hco, if_pos hl, Res.ok_bind]
  have hwv : (wrap k.pub.n.nlimbs (beVal ct)).val = beVal ct := wrap_lt_val hv
  obtain ⟨r, hr⟩ := rsaDecryptAndCheck_ok R fuel rng hk (wrap k.pub.n.nlimbs (beVal ct)) rfl (by rw [hwv]; exact hv) hb
  rw [hr, hwv]
  simp only [Res.ok_bind]
  rw [uintToZeroizingBePad_eq, wrap_mod_val _ hn, if_pos (mod_lt_pow_size _ hn _), Res.ok_bind]

/-- `sign` by a well-formed key, when blinding succeeds. -/
theorem sign_eq {σ : Type} (R : RngImpl σ) (fuel : Nat) (rng : Option σ) {k : PrivateKey} (hk : Spec.WellFormed k)
    (pfx hashed : Bytes) (hb : Spec.BlindingOk R k.pub.n.val fuel rng) :
    sign R fuel rng k pfx hashed =
      match Spec.emsaPkcs1v15 (pfx ++ hashed) k.pub.size with
      | some em => .ok (beBytes k.pub.size (beVal em ^ k.d.val % k.pub.n.val))
      | none => .err .messageTooLong := by
  have hco : k.pub.Coherent := hk.coherent
  have hn := coherent_pos hco
  unfold sign
  rw [pkcs1v15SignPad_eq]
  cases hem : Spec.emsaPkcs1v15 (pfx ++ hashed) k.pub.size with
  | none => rfl
  | some em =>
    simp only [Res.ok_bind]
    have hshape : em.length = k.pub.size ∧ em.head? = some 0 := by
      unfold Spec.emsaPkcs1v15 at hem
      split at hem
      · obtain rfl := Option.some.inj hem
        refine ⟨?_, rfl⟩
        simp at *; omega
      · cases hem
    have hlt := block_lt k.pub hn hshape.1 hshape.2
    have hle : em.length ≤ 8 * k.pub.n.nlimbs := by rw [hshape.1]; exact size_le_bytes _
    rw [fromBeSlice_nprec _ hco, if_pos hle, Res.ok_bind]
    have hwv : (wrap k.pub.n.nlimbs (beVal em)).val = beVal em := wrap_lt_val hlt
    obtain ⟨r, hr⟩ := rsaDecryptAndCheck_ok R fuel rng hk (wrap k.pub.n.nlimbs (beVal em)) rfl (by rw [hwv]; exact hlt) hb
    rw [hr, hwv]
    simp only [Res.ok_bind]
    rw [uintToZeroizingBePad_eq, wrap_mod_val _ hn, if_pos (mod_lt_pow_size _ hn _)]

/-- Verification of an integer signature, completely. -/
theorem verify_eq (k : PublicKey) (hk : k.Coherent) (pfx hashed : Bytes) (sig : BoxedUint) :
    verify k pfx hashed sig =
      if sig.val < k.n.val ∧ sig.nlimbs = k.n.nlimbs ∧
          Spec.emsaPkcs1v15 (pfx ++ hashed) k.size = some (beBytes k.size (sig.val ^ k.e.val % k.n.val))
      then .ok () else .err .verification := by
  have hn := coherent_pos hk
  unfold verify
  by_cases hs : sig.val < k.n.val
  · by_cases hw : sig.nlimbs = k.n.nlimbs
    · have h1 : (sig.ge k.n || sig.prec != k.nBitsPrecision) = false := by
        simp [ge, lt, hs, prec, PublicKey.nBitsPrecision, hw]
      simp only [h1, Bool.false_eq_true, if_false]
      have hsig : wrap k.n.nlimbs sig.val = sig := by rw [← hw]; exact wrap_self sig
      have := encryptPad_eq k hk sig.val (by rw [← hw]; exact sig.isLt)
      rw [hsig] at this
      rw [Res.bind_eq_ok] at this
      obtain ⟨c, h2, h3⟩ := this
      rw [h2, Res.ok_bind, h3, Res.ok_bind, pkcs1v15SignUnpad_eq _ _ _ _ (beBytes_length _ _)]
      simp only [hs, hw, true_and]
    · have h1 : (sig.ge k.n || sig.prec != k.nBitsPrecision) = true := by
        simp only [Bool.or_eq_true, bne_iff_ne, prec, PublicKey.nBitsPrecision]
        right; omega
      simp only [h1, if_true]
      rw [if_neg (fun h => hw h.2.1)]
  · have h1 : (sig.ge k.n || sig.prec != k.nBitsPrecision) = true := by
      simp [ge, lt]; left; omega
    simp only [h1, if_true]
    rw [if_neg (fun h => hs h.1)]

theorem lenBitsU32_eq {len : Nat} (h : len < 2 ^ 29) : lenBitsU32 len = .ok (8 * len) := by
  unfold lenBitsU32
  rw [Nat.mod_eq_of_lt (by omega), if_pos (by omega), mul_comm]

/-- A signature string parsed as the crate does. -/
theorem parse_eq (sig : Bytes) (h : sig.length < 2 ^ 29) :
    (lenBitsU32 sig.length >>= fun bits => fromBeSlice sig bits) =
      .ok (wrap (limbsFor (8 * sig.length)) (beVal sig)) := by
  rw [lenBitsU32_eq h, Res.ok_bind, fromBeSlice_full]

theorem parse_val (sig : Bytes) : (wrap (limbsFor (8 * sig.length)) (beVal sig)).val = beVal sig := by
  apply wrap_val_of_lt
  apply beVal_lt_limbs
  unfold limbsFor; omega

theorem Signature.tryFrom_eq (sig : Bytes) (h : sig.length < 2 ^ 29) :
    Signature.tryFrom sig = .ok ⟨wrap (limbsFor (8 * sig.length)) (beVal sig)⟩ := by
  unfold Signature.tryFrom
  rw [lenBitsU32_eq h, Res.ok_bind, fromBeSlice_full]; rfl

end pkcs1v15

end RSA
