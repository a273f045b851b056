import Verif.Model.Pss
import Verif.Proof.PssPad
import Verif.Proof.Pkcs1v15

namespace RSA
open BoxedUint

/-- An EMSA-PSS block is below `2^emBits`. -/
theorem emsaPss_lt {H : HashFn} (hpos : 0 < H.outLen) {mHash salt em : Bytes} {emBits : Nat}
    (h : Spec.emsaPss H.hash H.mgf H.outLen mHash salt emBits = some em) : beVal em < 2 ^ emBits := by
  obtain ⟨hl, hfit⟩ := emsaPss_length hpos h
  unfold Spec.emsaPss at h
  dsimp only at h
  rw [if_neg (by omega)] at h
  obtain rfl := Option.some.inj h
  set emLen := (emBits + 7) / 8 with hemLen
  set z := 8 * emLen - emBits with hz
  have hz8 : z < 8 := by omega
  match hX : Spec.xorBytes (List.replicate (emLen - salt.length - H.outLen - 2) 0 ++ [1] ++ salt)
      (H.mgf (H.hash (List.replicate 8 0 ++ mHash ++ salt)) (emLen - H.outLen - 1)) with
  | [] =>
    have := congrArg List.length hX
    rw [xorBytes_length, H.mgf_length hpos] at this
    simp at this; omega
  | x :: xs =>
    rw [hX] at hl
    rw [Spec.clearLeftBits] at hl ⊢
    rw [List.cons_append, List.cons_append, beVal_cons]
    rw [List.cons_append, List.cons_append, List.length_cons] at hl
    set rest := xs ++ H.hash (List.replicate 8 0 ++ mHash ++ salt) ++ [0xbc] with hrest
    have h1 := beVal_lt rest
    have h2 : (UInt8.ofNat (x.toNat % 2 ^ (8 - z))).toNat < 2 ^ (8 - z) := by
      rw [UInt8.toNat_ofNat']
      exact lt_of_le_of_lt (Nat.mod_le _ _) (Nat.mod_lt _ (by positivity))
    calc (UInt8.ofNat (x.toNat % 2 ^ (8 - z))).toNat * 256 ^ rest.length + beVal rest
        < (UInt8.ofNat (x.toNat % 2 ^ (8 - z))).toNat * 256 ^ rest.length + 256 ^ rest.length := by omega
      _ = ((UInt8.ofNat (x.toNat % 2 ^ (8 - z))).toNat + 1) * 256 ^ rest.length := by ring
      _ ≤ 2 ^ (8 - z) * 256 ^ rest.length := Nat.mul_le_mul_right _ h2
      _ = 2 ^ emBits := by
        rw [pow256, ← pow_add]
        congr 1
        omega

theorem bits_pos {k : PublicKey} (hn : 0 < k.n.val) : 0 < k.n.bits :=
  (lt_bits_iff _ _).mpr (by rw [pow_zero]; exact hn)

theorem pow_bits_le {k : PublicKey} (hn : 0 < k.n.val) : 2 ^ (k.n.bits - 1) ≤ k.n.val := by
  have := bits_pos hn
  exact (lt_bits_iff _ _).mp (by omega)

namespace pss

/-- Signing with a given salt by a well-formed key, when blinding succeeds. -/
theorem signPssWithSalt_eq {σ : Type} (R : RngImpl σ) (fuel : Nat) (rng : Option σ) {k : PrivateKey}
    (hk : Spec.WellFormed k) (hashed salt : Bytes) (D : HashFn) (hpos : 0 < D.outLen) (hp : k.pub.n.prec < 2 ^ 32)
    (hh : hashed.length = D.outLen) (hadd : D.outLen + salt.length + 2 < 2 ^ 64)
    (hb : Spec.BlindingOk R k.pub.n.val fuel rng) :
    signPssWithSalt R fuel rng k hashed salt (DigestState.new D) =
      match Spec.emsaPss D.hash D.mgf D.outLen hashed salt (k.pub.n.bits - 1) with
      | some em => .ok (beBytes k.pub.size (beVal em ^ k.d.val % k.pub.n.val))
      | none => .err .internal := by
  have hco : k.pub.Coherent := hk.coherent
  have hn := coherent_pos hco
  have hbp := bits_pos hn
  have hbl := bits_le_prec k.pub.n
  unfold signPssWithSalt
  rw [subU_of_le (by omega), Res.ok_bind, emsaPssEncode_eq hashed _ salt D hpos hh hadd (by omega)]
  cases hem : Spec.emsaPss D.hash D.mgf D.outLen hashed salt (k.pub.n.bits - 1) with
  | none => rfl
  | some em =>
    simp only [Res.ok_bind]
    have hlt : beVal em < k.pub.n.val := lt_of_lt_of_le (emsaPss_lt hpos hem) (pow_bits_le hn)
    have hle : em.length ≤ 8 * k.pub.n.nlimbs := by
      rw [(emsaPss_length hpos hem).1]; unfold prec at hbl; omega
    rw [fromBeSlice_nprec _ hco, if_pos hle, Res.ok_bind]
    have hwv : (wrap k.pub.n.nlimbs (beVal em)).val = beVal em := wrap_lt_val hlt
    obtain ⟨r, hr⟩ := rsaDecryptAndCheck_ok R fuel rng hk (wrap k.pub.n.nlimbs (beVal em)) rfl (by rw [hwv]; exact hlt) hb
    rw [hr, hwv]
    simp only [Res.ok_bind]
    rw [uintToZeroizingBePad_eq, wrap_mod_val _ hn, if_pos (mod_lt_pow_size _ hn _)]

theorem signPssWithSaltDigest_agree {σ : Type} (R : RngImpl σ) (fuel : Nat) (rng : Option σ) (k : PrivateKey)
    (hashed salt : Bytes) (D : HashFn) :
    signPssWithSaltDigest R fuel D rng k hashed salt = signPssWithSalt R fuel rng k hashed salt (DigestState.new D) := by
  unfold signPssWithSaltDigest signPssWithSalt
  simp only [emsaPssEncodeDigest_agree]

theorem signDigest_agree {σ : Type} (R : RngImpl σ) (fuel : Nat) (D : HashFn) (s : σ) (blind : Bool) (k : PrivateKey)
    (hashed : Bytes) (saltLen : Nat) :
    signDigest R fuel D s blind k hashed saltLen = sign R fuel s blind k hashed saltLen (DigestState.new D) := by
  unfold signDigest sign
  simp only [signPssWithSaltDigest_agree]

/-- The number of leading bytes of a `k`-byte string that PSS verification skips: 1 when `n` has `8j+1` bits. -/
theorem surplus (k : PublicKey) (hn : 0 < k.n.val) :
    (k.n.bits + 7) / 8 - (k.n.bits - 1 + 7) / 8 = if k.n.bits % 8 = 1 then 1 else 0 := by
  have := bits_pos hn
  split <;> omega

/-- `verify` on an integer that fits the modulus width. -/
theorem verify_core (k : PublicKey) (hk : k.Coherent) (hashed : Bytes) (sig : BoxedUint) (D : HashFn) (saltLen : Nat)
    (hs : sig.val < 2 ^ k.n.prec) :
    verify k hashed sig k.size (DigestState.new D) saltLen =
      emsaPssVerify hashed (beBytes k.size (sig.val ^ k.e.val % k.n.val)) saltLen (DigestState.new D) k.n.bits := by
  have hn := coherent_pos hk
  unfold verify
  rw [if_neg (by simp), rsaEncrypt_lt _ hk _ hs, Res.ok_bind, uintToBePad_eq, wrap_mod_val _ hn,
    if_pos (mod_lt_pow_size _ hn _), Res.ok_bind]

theorem verifyDigest_core (k : PublicKey) (hk : k.Coherent) (hashed : Bytes) (sig : BoxedUint) (D : HashFn)
    (saltLen : Nat) :
    verifyDigest D k hashed sig saltLen =
      if sig.val < k.n.val ∧ sig.nlimbs = k.n.nlimbs then
        emsaPssVerify hashed (beBytes k.size (sig.val ^ k.e.val % k.n.val)) saltLen (DigestState.new D) k.n.bits
      else .err .verification := by
  have hn := coherent_pos hk
  unfold verifyDigest
  dsimp only
  by_cases hs : sig.val < k.n.val
  · by_cases hw : sig.nlimbs = k.n.nlimbs
    · have h1 : (sig.ge k.n || sig.prec != k.nBitsPrecision) = false := by
        simp [ge, lt, hs, prec, PublicKey.nBitsPrecision, hw]
      rw [h1, if_neg (by simp), if_pos ⟨hs, hw⟩, rsaEncrypt_lt _ hk _ (lt_trans hs k.n.isLt), Res.ok_bind,
        uintToBePad_eq, wrap_mod_val _ hn, if_pos (mod_lt_pow_size _ hn _), Res.ok_bind, emsaPssVerifyDigest_agree]
    · have h1 : (sig.ge k.n || sig.prec != k.nBitsPrecision) = true := by
        simp only [Bool.or_eq_true, bne_iff_ne, prec, PublicKey.nBitsPrecision]
        right; omega
      rw [h1, if_pos rfl, if_neg (fun h => hw h.2)]
  · have h1 : (sig.ge k.n || sig.prec != k.nBitsPrecision) = true := by
      simp [ge, lt]; left; omega
    rw [h1, if_pos rfl, if_neg (fun h => hs h.1)]

/-- Recovered block of a verification. -/
theorem block_check (k : PublicKey) (hk : k.Coherent) (hp : k.n.prec < 2 ^ 32) (hashed : Bytes) (s : Nat) (D : HashFn)
    (hpos : 0 < D.outLen) (saltLen : Nat) (hadd : D.outLen + saltLen + 2 < 2 ^ 64) :
    ((emsaPssVerify hashed (beBytes k.size (s ^ k.e.val % k.n.val)) saltLen (DigestState.new D) k.n.bits = .ok () ∧
      hashed.length = D.outLen ∧ ∃ salt, salt.length = saltLen ∧
        Spec.emsaPss D.hash D.mgf D.outLen hashed salt (k.n.bits - 1) =
          some ((beBytes k.size (s ^ k.e.val % k.n.val)).drop (if k.n.bits % 8 = 1 then 1 else 0))) ∨
     (emsaPssVerify hashed (beBytes k.size (s ^ k.e.val % k.n.val)) saltLen (DigestState.new D) k.n.bits =
        .err .verification ∧
      ¬ (hashed.length = D.outLen ∧ ∃ salt, salt.length = saltLen ∧
        Spec.emsaPss D.hash D.mgf D.outLen hashed salt (k.n.bits - 1) =
          some ((beBytes k.size (s ^ k.e.val % k.n.val)).drop (if k.n.bits % 8 = 1 then 1 else 0))))) := by
  have hn := coherent_pos hk
  have := emsaPssVerify_eq hashed (beBytes k.size (s ^ k.e.val % k.n.val)) saltLen D hpos k.n.bits (bits_pos hn)
    (lt_of_le_of_lt (bits_le_prec _) hp) (by rw [beBytes_length, size_eq]) hadd
  rwa [surplus k hn] at this

end pss
end RSA
