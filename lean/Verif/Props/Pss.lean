import Verif.Props.Pkcs1v15
import Verif.Props.Raw
import Verif.Proof.Pss
import Mathlib.Tactic.NormNum.Prime

/-
C18 - C22, C24 (PSS half), C50: RSASSA-PSS (src/algorithms/pss.rs, src/pss.rs, src/pss/*).
-/
namespace RSA
open BoxedUint

/-! ### C24 (PSS) -/

/-- C24: the trait-object and generic-digest implementations of PSS encoding, checking and signing agree on every input. -/
theorem C24_pss_agree {σ : Type} (R : RngImpl σ) (fuel : Nat) (D : HashFn) :
    (∀ mHash emBits salt, emsaPssEncodeDigest mHash emBits salt D = emsaPssEncode mHash emBits salt (DigestState.new D)) ∧
    (∀ mHash em sLen keyBits,
      emsaPssVerifyDigest mHash em sLen D keyBits = emsaPssVerify mHash em sLen (DigestState.new D) keyBits) ∧
    (∀ s blind k hashed saltLen, pss.signDigest R fuel D s blind k hashed saltLen =
      pss.sign R fuel s blind k hashed saltLen (DigestState.new D)) :=
  ⟨fun a b c => emsaPssEncodeDigest_agree a b c D, fun a b c d => emsaPssVerifyDigest_agree a b c D d,
    fun a b c d e => pss.signDigest_agree R fuel D a b c d e⟩

/-! ### C19 -/

/-- C19, block level: a block of the modulus' octet length passes the PSS check for a digest and salt length exactly
when the digest has the hash's length and the block, without its first byte if the modulus has `8j+1` bits, is the
EMSA-PSS encoding of that digest for some salt of exactly that length; any other block gives the Verification error. -/
theorem C19_pss_block_exact (D : HashFn) (hpos : 0 < D.outLen) (mHash em : Bytes) (sLen keyBits : Nat)
    (hkb : 0 < keyBits) (hkb32 : keyBits < 2 ^ 32) (hem : em.length = (keyBits + 7) / 8)
    (hadd : D.outLen + sLen + 2 < 2 ^ 64) :
    (emsaPssVerify mHash em sLen (DigestState.new D) keyBits = .ok () ↔ mHash.length = D.outLen ∧
      Spec.IsEmsaPss D.hash D.outLen mHash sLen (keyBits - 1) (em.drop (if keyBits % 8 = 1 then 1 else 0))) ∧
    (emsaPssVerify mHash em sLen (DigestState.new D) keyBits = .ok () ∨
      emsaPssVerify mHash em sLen (DigestState.new D) keyBits = .err .verification) := by
  have hdrop : (keyBits + 7) / 8 - (keyBits - 1 + 7) / 8 = if keyBits % 8 = 1 then 1 else 0 := by split <;> omega
  have := emsaPssVerify_eq mHash em sLen D hpos keyBits hkb hkb32 hem hadd
  rw [hdrop] at this
  rcases this with ⟨h1, h2⟩ | ⟨h1, h2⟩
  · exact ⟨⟨fun _ => h2, fun _ => h1⟩, Or.inl h1⟩
  · refine ⟨⟨fun h => ?_, fun h => absurd h h2⟩, Or.inr h1⟩
    rw [h1] at h; cases h

/-- C19, the scheme object: a signature string is accepted exactly when it has `k` octets, the digest has the hash's
length and the `k`-octet string of `s^e mod n`, without its first byte if `n` has `8j+1` bits, is an EMSA-PSS encoding
of the digest with a salt of the requested length. Any other string gives the Verification error. -/
theorem C19_pss_verify_exact (k : PublicKey) (hk : k.Coherent) (hp : k.n.prec < 2 ^ 32) (blinded : Bool) (D : HashFn)
    (hpos : 0 < D.outLen) (saltLen : Nat) (hadd : D.outLen + saltLen + 2 < 2 ^ 64) (hashed sig : Bytes)
    (h29 : sig.length < 2 ^ 29) :
    ((pss.Pss.verify ⟨blinded, DigestState.new D, saltLen⟩ k hashed sig = .ok () ↔
      sig.length = Spec.octetLen k.n.val ∧ hashed.length = D.outLen ∧
      ∃ em, Spec.i2osp (Spec.os2ip sig ^ k.e.val % k.n.val) (Spec.octetLen k.n.val) = some em ∧
        Spec.IsEmsaPss D.hash D.outLen hashed saltLen (k.n.val.size - 1)
          (em.drop (if k.n.val.size % 8 = 1 then 1 else 0)))) ∧
    (pss.Pss.verify ⟨blinded, DigestState.new D, saltLen⟩ k hashed sig = .ok () ∨
      pss.Pss.verify ⟨blinded, DigestState.new D, saltLen⟩ k hashed sig = .err .verification) := by
  have hn := coherent_pos hk
  unfold pss.Pss.verify
  rw [← size_eq_octetLen, ← beVal_eq_os2ip, i2osp_eq _ _ (mod_lt_pow_size _ hn _), pkcs1v15.lenBitsU32_eq h29, Res.ok_bind,
    fromBeSlice_full, Res.ok_bind]
  by_cases hl : sig.length = k.size
  · have hs : beVal sig < 2 ^ k.n.prec := by
      refine lt_of_lt_of_le (beVal_lt sig) ?_
      rw [pow256, hl]
      exact Nat.pow_le_pow_right (by norm_num) (by have := size_le_bytes k; unfold prec; omega)
    have hv : (wrap (limbsFor (8 * sig.length)) (beVal sig)).val = beVal sig := by
      have h := fromBeSlice_full sig
      show beVal sig % 2 ^ (64 * limbsFor (8 * sig.length)) = beVal sig
      refine Nat.mod_eq_of_lt (lt_of_lt_of_le (beVal_lt sig) ?_)
      rw [pow256]
      refine Nat.pow_le_pow_right (by norm_num) ?_
      unfold limbsFor; omega
    dsimp only
    rw [hl, pss.verify_core k hk hashed _ D saltLen (by rw [← hl, hv]; exact hs), ← hl, hv]
    rw [hl]
    have hbc := pss.block_check k hk hp hashed (beVal sig) D hpos saltLen hadd
    rw [bits_eq_size] at hbc ⊢
    rcases hbc with ⟨h1, h2⟩ | ⟨h1, h2⟩
    · exact ⟨⟨fun _ => ⟨rfl, h2.1, _, rfl, h2.2⟩, fun _ => h1⟩, Or.inl h1⟩
    · refine ⟨⟨fun h => ?_, fun ⟨_, h3, em, h4, h5⟩ => absurd ⟨h3, ?_⟩ h2⟩, Or.inr h1⟩
      · rw [h1] at h; cases h
      · obtain rfl := Option.some.inj h4
        exact h5
  · unfold pss.verify
    rw [if_pos hl]
    exact ⟨⟨fun h => (by cases h), fun h => absurd h.1 hl⟩, Or.inr rfl⟩

/-- C19, the typed verifying key: accepted exactly when `s < n`, the signature integer is stored in as many limbs as
`n`, and the recovered block is an EMSA-PSS encoding as above. -/
theorem C19_typed_verify_exact {D : HashFn} (vk : pss.VerifyingKey D) (hk : vk.inner.Coherent)
    (hp : vk.inner.n.prec < 2 ^ 32) (hpos : 0 < D.outLen) (hadd : D.outLen + vk.saltLen + 2 < 2 ^ 64) (hashed : Bytes)
    (sg : pss.Signature) :
    ((vk.verifyPrehash hashed sg = .ok () ↔
      sg.inner.val < vk.inner.n.val ∧ sg.inner.nlimbs = vk.inner.n.nlimbs ∧ hashed.length = D.outLen ∧
      ∃ em, Spec.i2osp (sg.inner.val ^ vk.inner.e.val % vk.inner.n.val) (Spec.octetLen vk.inner.n.val) = some em ∧
        Spec.IsEmsaPss D.hash D.outLen hashed vk.saltLen (vk.inner.n.val.size - 1)
          (em.drop (if vk.inner.n.val.size % 8 = 1 then 1 else 0)))) ∧
    (vk.verifyPrehash hashed sg = .ok () ∨ vk.verifyPrehash hashed sg = .err .verification) ∧
    (∀ msg, vk.verify msg sg = vk.verifyPrehash (D.hash msg) sg ∧ vk.verifyDigest msg sg = vk.verify msg sg) := by
  have hn := coherent_pos hk
  rw [← and_assoc]
  refine ⟨?_, fun msg => ⟨rfl, rfl⟩⟩
  unfold pss.VerifyingKey.verifyPrehash
  rw [← size_eq_octetLen, i2osp_eq _ _ (mod_lt_pow_size _ hn _), pss.verifyDigest_core _ hk]
  split
  · next hc =>
    have hbc := pss.block_check vk.inner hk hp hashed sg.inner.val D hpos vk.saltLen hadd
    rw [bits_eq_size] at hbc ⊢
    rcases hbc with ⟨h1, h2⟩ | ⟨h1, h2⟩
    · exact ⟨⟨fun _ => ⟨hc.1, hc.2, h2.1, _, rfl, h2.2⟩, fun _ => h1⟩, Or.inl h1⟩
    · refine ⟨⟨fun h => ?_, fun ⟨_, _, h3, em, h4, h5⟩ => absurd ⟨h3, ?_⟩ h2⟩, Or.inr h1⟩
      · rw [h1] at h; cases h
      · obtain rfl := Option.some.inj h4
        exact h5
  · next hc => exact ⟨⟨fun h => (by cases h), fun h => absurd ⟨h.1, h.2.1⟩ hc⟩, Or.inr rfl⟩

/-! ### C18 -/

/-- The signature a well-formed key makes for a digest and a salt that fits. -/
theorem pss_sign_verify {k : PrivateKey} (hk : Spec.WellFormed k) (D : HashFn)
    (hpos : 0 < D.outLen) (hashed salt : Bytes)
    (hfit : D.outLen + salt.length + 2 ≤ (k.pub.n.val.size - 1 + 7) / 8) :
    ∃ em, Spec.emsaPss D.hash (Spec.mgf1 D.hash D.outLen) D.outLen hashed salt (k.pub.n.val.size - 1) = some em ∧
      beVal em < k.pub.n.val ∧
      (beVal em ^ k.d.val % k.pub.n.val) ^ k.pub.e.val % k.pub.n.val = beVal em ∧
      (beBytes k.pub.size (beVal em)).drop (if k.pub.n.val.size % 8 = 1 then 1 else 0) = em := by
  have hco : k.pub.Coherent := hk.coherent
  have hn := coherent_pos hco
  obtain ⟨em, hem⟩ : ∃ em, Spec.emsaPss D.hash (Spec.mgf1 D.hash D.outLen) D.outLen hashed salt
      (k.pub.n.val.size - 1) = some em := by
    unfold Spec.emsaPss
    dsimp only
    rw [if_neg (by omega)]
    exact ⟨_, rfl⟩
  have hlt : beVal em < k.pub.n.val := lt_of_lt_of_le (emsaPss_lt hpos hem) (by rw [← bits_eq_size]; exact pow_bits_le hn)
  refine ⟨em, hem, hlt, ?_, ?_⟩
  · rw [← Nat.pow_mod, ← pow_mul, wf_rsa hk, Nat.mod_eq_of_lt hlt]
  · have hel := (emsaPss_length hpos hem).1
    have hs : k.pub.size = (k.pub.n.val.size + 7) / 8 := size_eq_octetLen k.pub
    have hb : 0 < k.pub.n.val.size := by rw [← bits_eq_size]; exact bits_pos hn
    split
    · have : k.pub.size = em.length + 1 := by rw [hel, hs]; omega
      rw [beBytes_eq_of_lt (b := 0 :: em) (by rw [this]; rfl) (by rw [beVal_cons]; simp), List.drop_one, List.tail_cons]
    · have : k.pub.size = em.length := by rw [hel, hs]; omega
      rw [this, List.drop_zero, beBytes_eq_of_lt rfl rfl]

/-- C18: for a well-formed key, a digest of the hash's length and a salt length that fits, there is for each salt one
signature, of `k` octets: every generator that delivers that salt makes the scheme return exactly it, with blinding
(when the blinding draws are usable) and without, and it verifies with the same salt length. -/
theorem C18_pss_round_trip {k : PrivateKey} (hk : Spec.WellFormed k) (hp : k.pub.n.prec < 2 ^ 32) (D : HashFn)
    (hpos : 0 < D.outLen) (hashed salt : Bytes) (hh : hashed.length = D.outLen)
    (hfit : D.outLen + salt.length + 2 ≤ (k.pub.n.val.size - 1 + 7) / 8) :
    ∃ sig : Bytes, sig.length = Spec.octetLen k.pub.n.val ∧ Spec.os2ip sig < k.pub.n.val ∧
      (∀ blinded, pss.Pss.verify ⟨blinded, DigestState.new D, salt.length⟩ k.pub hashed sig = .ok ()) ∧
      (∀ {σ : Type} (R : RngImpl σ) (fuel : Nat) (s s' : σ), R.fill s salt.length = (some salt, s') →
        pss.Pss.sign ⟨false, DigestState.new D, salt.length⟩ R fuel (some s) k hashed = .ok sig ∧
        (Spec.BlindingOk R k.pub.n.val fuel (some s') →
          pss.Pss.sign ⟨true, DigestState.new D, salt.length⟩ R fuel (some s) k hashed = .ok sig)) := by
  have hco : k.pub.Coherent := hk.coherent
  have hn := coherent_pos hco
  obtain ⟨em, hem, hlt, hinv, hdrop⟩ := pss_sign_verify hk D hpos hashed salt hfit
  have hbl : k.pub.n.val.size ≤ k.pub.n.prec := by rw [← bits_eq_size]; exact bits_le_prec k.pub.n
  have hadd : D.outLen + salt.length + 2 < 2 ^ 64 := by omega
  have hval : beVal (beBytes k.pub.size (beVal em ^ k.d.val % k.pub.n.val)) = beVal em ^ k.d.val % k.pub.n.val := by
    rw [beVal_beBytes, Nat.mod_eq_of_lt (mod_lt_pow_size _ hn _)]
  have hsl : (beBytes k.pub.size (beVal em ^ k.d.val % k.pub.n.val)).length = Spec.octetLen k.pub.n.val := by
    rw [beBytes_length, size_eq_octetLen]
  have hsign : ∀ {σ : Type} (R : RngImpl σ) (fuel : Nat) (rng : Option σ), Spec.BlindingOk R k.pub.n.val fuel rng →
      pss.signPssWithSalt R fuel rng k hashed salt (DigestState.new D) =
        .ok (beBytes k.pub.size (beVal em ^ k.d.val % k.pub.n.val)) := by
    intro σ R fuel rng hb
    rw [pss.signPssWithSalt_eq R fuel rng hk hashed salt D hpos hp hh hadd hb]
    have hem' : Spec.emsaPss D.hash D.mgf D.outLen hashed salt (k.pub.n.bits - 1) = some em := by
      rw [bits_eq_size]; exact hem
    rw [hem']
  refine ⟨_, hsl, ?_, ?_, ?_⟩
  · rw [← beVal_eq_os2ip, hval]; exact Nat.mod_lt _ hn
  · intro blinded
    apply (C19_pss_verify_exact k.pub hco hp blinded D hpos salt.length hadd hashed _
      (by rw [beBytes_length]; exact size_lt_29 hp)).1.mpr
    refine ⟨hsl, hh, beBytes k.pub.size (beVal em), ?_, salt, rfl, ?_⟩
    · rw [← beVal_eq_os2ip, hval, hinv, ← size_eq_octetLen, i2osp_eq _ _ (lt_trans hlt (lt_pow_size _))]
    · rw [hdrop]; exact hem
  · intro σ R fuel s s' hf
    have htf : R.tryFill s salt.length = .ok (salt, s') := by unfold RngImpl.tryFill; rw [hf]
    constructor
    · unfold pss.Pss.sign pss.sign
      dsimp only
      rw [htf, Res.ok_bind]
      exact hsign R fuel none trivial
    · intro hb
      unfold pss.Pss.sign pss.sign
      dsimp only
      rw [htf, Res.ok_bind]
      exact hsign R fuel (some s') hb

/-- A 10-byte salt and a 4-byte hash for the 216-bit example key; the generator delivers ten bytes `7`. -/
example : Spec.WellFormed Ex.key ∧ Ex.key.pub.n.prec < 2 ^ 32 ∧ 0 < Ex.hash4.outLen ∧
    (Ex.hash4.hash [1, 2, 3]).length = Ex.hash4.outLen ∧
    Ex.hash4.outLen + (List.replicate 10 (7 : UInt8)).length + 2 ≤ (Ex.key.pub.n.val.size - 1 + 7) / 8 ∧
    Ex.countingRng.fill 7 10 = (some (List.replicate 10 7), 8) ∧
    Spec.BlindingOk Ex.countingRng Ex.key.pub.n.val 1 (some 8) :=
  ⟨Ex.key_wf, by decide, by decide, rfl, by decide +kernel, by decide +kernel,
    ⟨9, 1, .good 8 8 (by decide) (Or.inr (by decide)), le_refl _⟩⟩

/-- C18 for the typed keys: signatures of `SigningKey` and `BlindedSigningKey` (equal for equal salts) verify under the
`VerifyingKey` derived from them, when the modulus is stored without spare limbs. -/
theorem C18_typed_round_trip {k : PrivateKey} (hk : Spec.WellFormed k) (hs : NoSpareLimbs k.pub)
    (hp : k.pub.n.prec < 2 ^ 32) (D : HashFn) (hpos : 0 < D.outLen) (msg salt : Bytes)
    (hfit : D.outLen + salt.length + 2 ≤ (k.pub.n.val.size - 1 + 7) / 8) :
    ∃ sg : pss.Signature,
      (pss.SigningKey.verifyingKey (D := D) ⟨k, salt.length⟩).verify msg sg = .ok () ∧
      (pss.BlindedSigningKey.verifyingKey (D := D) ⟨k, salt.length⟩).verify msg sg = .ok () ∧
      (∀ {σ : Type} (R : RngImpl σ) (fuel : Nat) (s s' : σ), R.fill s salt.length = (some salt, s') →
        pss.SigningKey.trySignWithRng (D := D) R fuel s ⟨k, salt.length⟩ msg = .ok sg ∧
        pss.SigningKey.trySignDigestWithRng (D := D) R fuel s ⟨k, salt.length⟩ msg = .ok sg ∧
        pss.SigningKey.signPrehashWithRng (D := D) R fuel s ⟨k, salt.length⟩ (D.hash msg) = .ok sg ∧
        (Spec.BlindingOk R k.pub.n.val fuel (some s') →
          pss.BlindedSigningKey.trySignWithRng (D := D) R fuel s ⟨k, salt.length⟩ msg = .ok sg ∧
          pss.BlindedSigningKey.trySignDigestWithRng (D := D) R fuel s ⟨k, salt.length⟩ msg = .ok sg ∧
          pss.BlindedSigningKey.signPrehashWithRng (D := D) R fuel s ⟨k, salt.length⟩ (D.hash msg) = .ok sg)) := by
  have hco : k.pub.Coherent := hk.coherent
  have hn := coherent_pos hco
  have hbl : k.pub.n.val.size ≤ k.pub.n.prec := by rw [← bits_eq_size]; exact bits_le_prec k.pub.n
  have hadd : D.outLen + salt.length + 2 < 2 ^ 64 := by omega
  obtain ⟨sig, hl, hlt, hver, hsig⟩ := C18_pss_round_trip hk hp D hpos (D.hash msg) salt (D.hash_len _) hfit
  rw [← size_eq_octetLen] at hl
  have h29 : sig.length < 2 ^ 29 := by rw [hl]; exact size_lt_29 hp
  have ht : pss.Signature.tryFrom sig = .ok ⟨wrap (limbsFor (8 * sig.length)) (beVal sig)⟩ := by
    unfold pss.Signature.tryFrom
    rw [pkcs1v15.lenBitsU32_eq h29, Res.ok_bind, fromBeSlice_full, Res.ok_bind]
  have hw : wrap (limbsFor (8 * sig.length)) (beVal sig) = wrap k.pub.n.nlimbs (beVal sig) := by
    rw [hl, noSpare_limbs hn hs]
  rw [← beVal_eq_os2ip] at hlt
  have hv : pss.verifyDigest D k.pub (D.hash msg) (wrap (limbsFor (8 * sig.length)) (beVal sig)) salt.length = .ok () := by
    have h1 := (C19_pss_verify_exact k.pub hco hp false D hpos salt.length hadd (D.hash msg) sig h29).1.mp (hver false)
    apply (C19_typed_verify_exact (D := D) ⟨k.pub, salt.length⟩ hco hp hpos hadd (D.hash msg)
      ⟨wrap (limbsFor (8 * sig.length)) (beVal sig)⟩).1.mpr
    rw [hw]
    refine ⟨by dsimp only; rw [wrap_lt_val hlt]; exact hlt, rfl, h1.2.1, ?_⟩
    dsimp only
    rw [wrap_lt_val hlt, beVal_eq_os2ip]
    exact h1.2.2
  refine ⟨⟨wrap (limbsFor (8 * sig.length)) (beVal sig)⟩, hv, hv, ?_⟩
  intro σ R fuel s s' hf
  obtain ⟨a, b⟩ := hsig R fuel s s' hf
  have a' : pss.signDigest R fuel D s false k (D.hash msg) salt.length = .ok sig := by
    rw [pss.signDigest_agree]; exact a
  refine ⟨?_, ?_, ?_, fun hb => ?_⟩
  · unfold pss.SigningKey.trySignWithRng pss.SigningKey.trySignDigestWithRng; dsimp only; rw [a', Res.ok_bind, ht]
  · unfold pss.SigningKey.trySignDigestWithRng; dsimp only; rw [a', Res.ok_bind, ht]
  · unfold pss.SigningKey.signPrehashWithRng; dsimp only; rw [a', Res.ok_bind, ht]
  · have b' : pss.signDigest R fuel D s true k (D.hash msg) salt.length = .ok sig := by
      rw [pss.signDigest_agree]; exact b hb
    refine ⟨?_, ?_, ?_⟩
    · unfold pss.BlindedSigningKey.trySignWithRng; dsimp only; rw [b', Res.ok_bind, ht]
    · unfold pss.BlindedSigningKey.trySignDigestWithRng; dsimp only; rw [b', Res.ok_bind, ht]
    · unfold pss.BlindedSigningKey.signPrehashWithRng; dsimp only; rw [b', Res.ok_bind, ht]

/-! ### C50 -/

/-- C50 does not hold: under a modulus stored in more limbs than its octets need, the typed `VerifyingKey` rejects every
signature string of the correct length `k`, genuine or not. -/
theorem C50_spare_limbs_reject {D : HashFn} (vk : pss.VerifyingKey D) (hk : vk.inner.Coherent)
    (hs : ¬ NoSpareLimbs vk.inner) (hp : vk.inner.n.prec < 2 ^ 32) (sig : Bytes)
    (hl : sig.length = Spec.octetLen vk.inner.n.val) :
    ∃ sg, pss.Signature.tryFrom sig = .ok sg ∧ ∀ msg, vk.verify msg sg = .err .verification := by
  have hn := coherent_pos hk
  rw [← size_eq_octetLen] at hl
  have h29 : sig.length < 2 ^ 29 := by rw [hl]; exact size_lt_29 hp
  refine ⟨⟨wrap (limbsFor (8 * sig.length)) (beVal sig)⟩, ?_, fun msg => ?_⟩
  · unfold pss.Signature.tryFrom
    rw [pkcs1v15.lenBitsU32_eq h29, Res.ok_bind, fromBeSlice_full, Res.ok_bind]
  · unfold pss.VerifyingKey.verify
    rw [pss.verifyDigest_core _ hk, if_neg]
    rintro ⟨_, hw⟩
    apply hs
    unfold NoSpareLimbs
    rw [wrap_nlimbs, hl] at hw
    rw [← hw, ← size_eq_octetLen]
    have : 0 < vk.inner.size := by rw [size_eq]; have := bits_pos hn; omega
    unfold limbsFor; omega

example : (pss.VerifyingKey.new (D := Ex.hash4) Ex.wideKey.pub).inner.Coherent ∧
    ¬ NoSpareLimbs (pss.VerifyingKey.new (D := Ex.hash4) Ex.wideKey.pub).inner := ⟨rfl, by decide +kernel⟩

/-! ### C20 -/

/-- A 25-bit key: `n = 4127 * 4133`, `e = 3`. The modulus has `8*3 + 1` bits. -/
def Ex.nOdd25 : OddUint := ⟨wrap 1 17056891, by decide⟩
def Ex.pub25 : PublicKey := { n := Ex.nOdd25.toBoxedUint, e := wrap 1 3, nParams := ⟨Ex.nOdd25⟩ }
def Ex.key25 : PrivateKey :=
  { pub := Ex.pub25, d := wrap 1 2841439, primes := [wrap 1 4127, wrap 1 4133], precomputed := none }
theorem Ex.key25_wf : Spec.WellFormed Ex.key25 where
  coherent := rfl
  numbers :=
    { prime := by
        intro p hp
        rcases List.mem_cons.mp hp with rfl | hp
        · exact (by norm_num : Nat.Prime 4127)
        · rcases List.mem_cons.mp hp with rfl | hp
          · exact (by norm_num : Nat.Prime 4133)
          · simp at hp
      nodup := by decide
      two := by decide
      prod := by decide
      exp := by decide }
  width := by decide
  cache := by intro pre' h; cases h
/-- A toy hash with one byte of output. -/
def Ex.hash1 : HashFn where
  outLen := 1
  hash m := [m.foldl (· + ·) 0]
  hash_len := by intro m; rfl

/-- C20 does not hold for the `Pss` scheme object: under a genuine key it accepts a signature string whose integer is at
or above `n`. -/
theorem C20_above_n_accepted : ∃ (k : PrivateKey) (S : pss.Pss) (hashed sig : Bytes), Spec.WellFormed k ∧
    k.pub.n.val ≤ Spec.os2ip sig ∧ S.verify k.pub hashed sig = .ok () :=
  ⟨Ex.key25, pss.Pss.newWithSalt Ex.hash1 0, [1], [1, 248, 120, 18], Ex.key25_wf, by decide, by decide +kernel⟩

/-- In general: if the scheme object accepts the string of `s`, it also accepts the string of every `s'` with the same
residue modulo `n` that fits in `k` octets, e.g. `s + n`. -/
theorem C20_congruent_accepted (k : PublicKey) (hk : k.Coherent) (hp : k.n.prec < 2 ^ 32) (blinded : Bool) (D : HashFn)
    (hpos : 0 < D.outLen) (saltLen : Nat) (hadd : D.outLen + saltLen + 2 < 2 ^ 64) (hashed sig sig' : Bytes)
    (h29 : sig.length < 2 ^ 29) (hl : sig'.length = sig.length)
    (hmod : Spec.os2ip sig' % k.n.val = Spec.os2ip sig % k.n.val)
    (h : pss.Pss.verify ⟨blinded, DigestState.new D, saltLen⟩ k hashed sig = .ok ()) :
    pss.Pss.verify ⟨blinded, DigestState.new D, saltLen⟩ k hashed sig' = .ok () := by
  have h1 := (C19_pss_verify_exact k hk hp blinded D hpos saltLen hadd hashed sig h29).1.mp h
  apply (C19_pss_verify_exact k hk hp blinded D hpos saltLen hadd hashed sig' (by omega)).1.mpr
  rw [hl, Nat.pow_mod, hmod, ← Nat.pow_mod]
  exact h1

example : ([1, 248, 120, 18] : Bytes).length = ([0, 244, 51, 151] : Bytes).length ∧
    Spec.os2ip [1, 248, 120, 18] % Ex.pub25.n.val = Spec.os2ip [0, 244, 51, 151] % Ex.pub25.n.val ∧
    pss.Pss.verify ⟨false, DigestState.new Ex.hash1, 0⟩ Ex.pub25 [1] [0, 244, 51, 151] = .ok () := by decide +kernel

/-- C20 (full statement: every accepted PSS signature represents `s < n`). Proved for the typed `VerifyingKey`; for the
scheme object an accepted string's residue `s mod n`, which is below `n`, is itself accepted as a `k`-octet string, so
nothing can be forged that a correct check would not also accept in reduced form. Missing: rejection of unreduced
strings by the scheme object, which is false (`C20_above_n_accepted`). -/
theorem C20_below_n_partial (k : PublicKey) (hk : k.Coherent) (hp : k.n.prec < 2 ^ 32) (D : HashFn)
    (hpos : 0 < D.outLen) (saltLen : Nat) (hadd : D.outLen + saltLen + 2 < 2 ^ 64) (hashed : Bytes) :
    (∀ sg, (pss.VerifyingKey.newWithSaltLen (D := D) k saltLen).verifyPrehash hashed sg = .ok () →
      sg.inner.val < k.n.val) ∧
    (∀ blinded sig, sig.length < 2 ^ 29 →
      pss.Pss.verify ⟨blinded, DigestState.new D, saltLen⟩ k hashed sig = .ok () →
      ∃ sig', Spec.i2osp (Spec.os2ip sig % k.n.val) (Spec.octetLen k.n.val) = some sig' ∧
        pss.Pss.verify ⟨blinded, DigestState.new D, saltLen⟩ k hashed sig' = .ok ()) := by
  have hn := coherent_pos hk
  refine ⟨fun sg h => ?_, fun blinded sig h29 h => ?_⟩
  · exact ((C19_typed_verify_exact (D := D) ⟨k, saltLen⟩ hk hp hpos hadd hashed sg).1.mp h).1
  · have hl := ((C19_pss_verify_exact k hk hp blinded D hpos saltLen hadd hashed sig h29).1.mp h).1
    have hlt : Spec.os2ip sig % k.n.val < 256 ^ k.size := lt_trans (Nat.mod_lt _ hn) (lt_pow_size k)
    rw [← size_eq_octetLen]
    refine ⟨_, i2osp_eq _ _ hlt, ?_⟩
    refine C20_congruent_accepted k hk hp blinded D hpos saltLen hadd hashed sig _ h29 ?_ ?_ h
    · rw [beBytes_length, hl, size_eq_octetLen]
    · rw [← beVal_eq_os2ip, beVal_beBytes, Nat.mod_eq_of_lt hlt, Nat.mod_mod]

/-- The typed key accepts the reduced signature. -/
example : (pss.VerifyingKey.newWithSaltLen (D := Ex.hash1) Ex.pub25 0).verifyPrehash [1] ⟨wrap 1 16003991⟩ = .ok () := by
  decide +kernel

/-! ### C21 -/

/-- C21 does not hold: under a genuine 25-bit key (`emLen = 3`) a signature is accepted although `s < n` and
`s^e mod n ≥ 256^3`; both verification entry points accept it. -/
theorem C21_overflow_accepted : ∃ (k : PrivateKey) (sig : Bytes) (sg : pss.Signature), Spec.WellFormed k ∧
    Spec.os2ip sig < k.pub.n.val ∧ pss.Signature.tryFrom sig = .ok sg ∧
    256 ^ ((k.pub.n.val.size - 1 + 7) / 8) ≤ Spec.os2ip sig ^ k.pub.e.val % k.pub.n.val ∧
    (pss.Pss.newWithSalt Ex.hash1 0).verify k.pub [1] sig = .ok () ∧
    (pss.VerifyingKey.newWithSaltLen (D := Ex.hash1) k.pub 0).verifyPrehash [1] sg = .ok () :=
  ⟨Ex.key25, [0, 86, 105, 122], ⟨wrap 1 5663098⟩, Ex.key25_wf, by decide, by decide +kernel, by decide +kernel,
    by decide +kernel, by decide +kernel⟩

/-- C21 (full statement: a recovered value of 256^emLen or more is rejected). Proved: for every accepted signature the
recovered value is `OS2IP(EM)` for a correct encoding `EM`, or, only when `n` has `8j+1` bits, that plus `256^emLen`; in
particular no overflow is accepted for any other modulus size. Missing: the second case, which does occur
(`C21_overflow_accepted`). -/
theorem C21_overflow_partial (k : PublicKey) (hk : k.Coherent) (hp : k.n.prec < 2 ^ 32) (D : HashFn)
    (hpos : 0 < D.outLen) (saltLen : Nat) (hadd : D.outLen + saltLen + 2 < 2 ^ 64) (hashed : Bytes) (s : Nat)
    (h : (∃ blinded sig, sig.length < 2 ^ 29 ∧ Spec.os2ip sig = s ∧
        pss.Pss.verify ⟨blinded, DigestState.new D, saltLen⟩ k hashed sig = .ok ()) ∨
      (∃ sg, sg.inner.val = s ∧
        (pss.VerifyingKey.newWithSaltLen (D := D) k saltLen).verifyPrehash hashed sg = .ok ())) :
    ∃ em, Spec.IsEmsaPss D.hash D.outLen hashed saltLen (k.n.val.size - 1) em ∧
      (s ^ k.e.val % k.n.val = Spec.os2ip em ∨
        k.n.val.size % 8 = 1 ∧ s ^ k.e.val % k.n.val = Spec.os2ip em + 256 ^ ((k.n.val.size - 1 + 7) / 8)) := by
  have hn := coherent_pos hk
  have hcore : ∃ em, Spec.i2osp (s ^ k.e.val % k.n.val) (Spec.octetLen k.n.val) = some em ∧
        Spec.IsEmsaPss D.hash D.outLen hashed saltLen (k.n.val.size - 1)
          (em.drop (if k.n.val.size % 8 = 1 then 1 else 0)) := by
    rcases h with ⟨blinded, sig, h29, rfl, h⟩ | ⟨sg, rfl, h⟩
    · exact ((C19_pss_verify_exact k hk hp blinded D hpos saltLen hadd hashed sig h29).1.mp h).2.2
    · exact ((C19_typed_verify_exact (D := D) ⟨k, saltLen⟩ hk hp hpos hadd hashed sg).1.mp h).2.2.2
  obtain ⟨em, hi, hpss⟩ := hcore
  have hv : Spec.os2ip em = s ^ k.e.val % k.n.val := by
    rw [← size_eq_octetLen, i2osp_eq _ _ (mod_lt_pow_size _ hn _)] at hi
    obtain rfl := Option.some.inj hi
    rw [← beVal_eq_os2ip, beVal_beBytes, Nat.mod_eq_of_lt (mod_lt_pow_size _ hn _)]
  have hlen : em.length = Spec.octetLen k.n.val := by
    rw [← size_eq_octetLen, i2osp_eq _ _ (mod_lt_pow_size _ hn _)] at hi
    obtain rfl := Option.some.inj hi
    rw [beBytes_length, size_eq_octetLen]
  refine ⟨_, hpss, ?_⟩
  by_cases h1 : k.n.val.size % 8 = 1
  · rw [if_pos h1]
    have hol : Spec.octetLen k.n.val = (k.n.val.size - 1 + 7) / 8 + 1 := by unfold Spec.octetLen; omega
    match em, hlen with
    | [], hlen => rw [hol] at hlen; cases hlen
    | x :: xs, hlen =>
      rw [List.drop_one, List.tail_cons]
      rw [hol, List.length_cons] at hlen
      have hlen' : xs.length = (k.n.val.size - 1 + 7) / 8 := by omega
      rw [Spec.os2ip, hlen'] at hv
      have hlt : s ^ k.e.val % k.n.val < 2 * 256 ^ ((k.n.val.size - 1 + 7) / 8) := by
        refine lt_trans (Nat.mod_lt _ hn) ?_
        have h2 := Nat.lt_size_self k.n.val
        have h3 : (2 : Nat) ^ k.n.val.size = 2 * 256 ^ ((k.n.val.size - 1 + 7) / 8) := by
          rw [pow256, ← pow_succ']
          congr 1; omega
        omega
      rw [← hv] at hlt ⊢
      have hx : x.toNat < 2 := by
        by_contra hge
        have := Nat.mul_le_mul_right (256 ^ ((k.n.val.size - 1 + 7) / 8)) (show 2 ≤ x.toNat by omega)
        omega
      obtain h0 | h0 : x.toNat = 0 ∨ x.toNat = 1 := by omega
      · left; rw [h0]; simp
      · right; rw [h0]; exact ⟨h1, by ring⟩
  · left
    rw [if_neg h1, List.drop_zero, hv]

/-! ### C22 -/

/-- C22: the scheme refuses to sign without a generator; a generator failure while drawing the salt is an error; and
every signature that is returned -- even by a key object whose secret part is corrupted -- encodes exactly the next
`saltLen` bytes of the generator as its salt: `s^e mod n` is the EMSA-PSS encoding of the digest under that salt (and
`s < n` when blinding was used). -/
theorem C22_salt_from_rng {σ : Type} (R : RngImpl σ) (fuel : Nat) (k : PrivateKey) (hk : k.pub.Coherent)
    (hp : k.pub.n.prec < 2 ^ 32) (blinded : Bool) (D : HashFn) (hpos : 0 < D.outLen) (saltLen : Nat)
    (hadd : D.outLen + saltLen + 2 < 2 ^ 64) (hashed : Bytes) :
    pss.Pss.sign ⟨blinded, DigestState.new D, saltLen⟩ R fuel none k hashed = .err .invalidPaddingScheme ∧
    (∀ s, (R.fill s saltLen).1 = none →
      pss.Pss.sign ⟨blinded, DigestState.new D, saltLen⟩ R fuel (some s) k hashed = .err .rng ∧
      pss.signDigest R fuel D s blinded k hashed saltLen = .err .rng) ∧
    (∀ s sig, (pss.Pss.sign ⟨blinded, DigestState.new D, saltLen⟩ R fuel (some s) k hashed = .ok sig ∨
        pss.signDigest R fuel D s blinded k hashed saltLen = .ok sig) →
      sig.length = Spec.octetLen k.pub.n.val ∧ hashed.length = D.outLen ∧
      ∃ salt em, (R.fill s saltLen).1 = some salt ∧ salt.length = saltLen ∧
        Spec.emsaPss D.hash (Spec.mgf1 D.hash D.outLen) D.outLen hashed salt (k.pub.n.val.size - 1) = some em ∧
        Spec.os2ip sig ^ k.pub.e.val % k.pub.n.val = Spec.os2ip em ∧
        (blinded = true → Spec.os2ip sig < k.pub.n.val)) := by
  have hn := coherent_pos hk
  have hsame : ∀ s, pss.signDigest R fuel D s blinded k hashed saltLen =
      pss.Pss.sign ⟨blinded, DigestState.new D, saltLen⟩ R fuel (some s) k hashed :=
    fun s => pss.signDigest_agree R fuel D s blinded k hashed saltLen
  refine ⟨rfl, fun s hf => ?_, fun s sig h => ?_⟩
  · rw [hsame, and_self]
    unfold pss.Pss.sign pss.sign RngImpl.tryFill
    dsimp only
    match hx : R.fill s saltLen with
    | (some b, s') => rw [hx] at hf; cases hf
    | (none, s') => rfl
  · rw [hsame, or_self] at h
    unfold pss.Pss.sign pss.sign at h
    dsimp only at h
    rcases tryFill_cases R s saltLen with ⟨salt, s1, hf⟩ | hf
    · have hsl := tryFill_ok hf
      have hfill : (R.fill s saltLen).1 = some salt := by
        unfold RngImpl.tryFill at hf
        split at hf
        · next heq => rw [heq]; simp only [Res.ok.injEq, Prod.mk.injEq] at hf; rw [hf.1]
        · cases hf
      rw [hf, Res.ok_bind] at h
      dsimp only at h
      unfold pss.signPssWithSalt at h
      have hbp := bits_pos hn
      have hbl := bits_le_prec k.pub.n
      rw [subU_of_le (by omega), Res.ok_bind] at h
      have hh : hashed.length = D.outLen := by
        by_contra hne
        have : emsaPssEncode hashed (k.pub.n.bits - 1) salt (DigestState.new D) = .err .inputNotHashed := by
          unfold emsaPssEncode
          dsimp only [DigestState.outputSize, DigestState.new]
          rw [if_pos hne]
        rw [this] at h; cases h
      rw [emsaPssEncode_eq hashed _ salt D hpos hh (by rw [hsl]; exact hadd) (by omega)] at h
      cases hem : Spec.emsaPss D.hash D.mgf D.outLen hashed salt (k.pub.n.bits - 1) with
      | none => rw [hem] at h; cases h
      | some em =>
        rw [hem, Res.ok_bind] at h
        have hle : em.length ≤ 8 * k.pub.n.nlimbs := by
          rw [(emsaPss_length hpos hem).1]; unfold prec at hbl; omega
        rw [fromBeSlice_nprec _ hk, if_pos hle, Res.ok_bind, Res.bind_eq_ok] at h
        obtain ⟨⟨m, r⟩, hm, h⟩ := h
        obtain ⟨_, hre, hbl⟩ := C04_fault_safety R fuel k hk _ _ _ _ hm
        dsimp only at h
        rw [uintToZeroizingBePad_eq] at h
        split at h
        · next hlt =>
          obtain rfl := Res.ok.inj h
          refine ⟨by rw [beBytes_length, size_eq_octetLen], hh, salt, em, hfill, hsl, by rw [← bits_eq_size]; exact hem, ?_, ?_⟩
          · rw [← beVal_eq_os2ip, ← beVal_eq_os2ip, beVal_beBytes, Nat.mod_eq_of_lt hlt, hre,
              wrap_val_of_lt (beVal_lt_limbs hle)]
          · intro hb
            rw [← beVal_eq_os2ip, beVal_beBytes, Nat.mod_eq_of_lt hlt]
            exact hbl (by rw [if_pos hb]; rfl)
        · cases h
    · rw [hf] at h; cases h

/-- C22 for the typed signers: same generator discipline. -/
theorem C22_typed_salt_from_rng {σ : Type} (R : RngImpl σ) (fuel : Nat) (k : PrivateKey) (hk : k.pub.Coherent)
    (hp : k.pub.n.prec < 2 ^ 32) (D : HashFn) (hpos : 0 < D.outLen) (saltLen : Nat)
    (hadd : D.outLen + saltLen + 2 < 2 ^ 64) (msg : Bytes) (s : σ) (sg : pss.Signature)
    (h : pss.SigningKey.trySignWithRng (D := D) R fuel s ⟨k, saltLen⟩ msg = .ok sg ∨
      pss.BlindedSigningKey.trySignWithRng (D := D) R fuel s ⟨k, saltLen⟩ msg = .ok sg) :
    ∃ salt em, (R.fill s saltLen).1 = some salt ∧ salt.length = saltLen ∧
      Spec.emsaPss D.hash (Spec.mgf1 D.hash D.outLen) D.outLen (D.hash msg) salt (k.pub.n.val.size - 1) = some em ∧
      sg.inner.val ^ k.pub.e.val % k.pub.n.val = Spec.os2ip em := by
  obtain ⟨b, sig, hsig, hsg⟩ : ∃ b sig, pss.signDigest R fuel D s b k (D.hash msg) saltLen = .ok sig ∧
      pss.Signature.tryFrom sig = .ok sg := by
    rcases h with h | h
    · unfold pss.SigningKey.trySignWithRng pss.SigningKey.trySignDigestWithRng at h
      rw [Res.bind_eq_ok] at h
      obtain ⟨sig, h1, h2⟩ := h
      exact ⟨false, sig, h1, h2⟩
    · unfold pss.BlindedSigningKey.trySignWithRng at h
      rw [Res.bind_eq_ok] at h
      obtain ⟨sig, h1, h2⟩ := h
      exact ⟨true, sig, h1, h2⟩
  obtain ⟨hl, _, salt, em, h1, h2, h3, h4, _⟩ :=
    (C22_salt_from_rng R fuel k hk hp b D hpos saltLen hadd (D.hash msg)).2.2 s sig (Or.inr hsig)
  refine ⟨salt, em, h1, h2, h3, ?_⟩
  rw [← h4]
  have h29 : sig.length < 2 ^ 29 := by rw [hl, ← size_eq_octetLen]; exact size_lt_29 hp
  unfold pss.Signature.tryFrom at hsg
  rw [pkcs1v15.lenBitsU32_eq h29, Res.ok_bind, fromBeSlice_full, Res.ok_bind] at hsg
  obtain rfl := Res.ok.inj hsg
  have hv : (wrap (limbsFor (8 * sig.length)) (beVal sig)).val = beVal sig := by
    show beVal sig % 2 ^ (64 * limbsFor (8 * sig.length)) = beVal sig
    refine Nat.mod_eq_of_lt (lt_of_lt_of_le (beVal_lt sig) ?_)
    rw [pow256]
    refine Nat.pow_le_pow_right (by norm_num) ?_
    unfold limbsFor; omega
  rw [← beVal_eq_os2ip]
  dsimp only
  rw [hv]

/-- A generator that fails at every call. -/
def Ex.failingRng : RngImpl Unit where
  fill s _ := (none, s)
  randMod s _ := (none, s)
  fill_len := by intro s n b h; cases h
  randMod_lt := by intro s n r h; cases h
example : (Ex.failingRng.fill () 4).1 = none := rfl
example : (match pss.Pss.sign ⟨true, DigestState.new Ex.hash4, 10⟩ Ex.countingRng 1 (some 7) Ex.key
      (Ex.hash4.hash [1, 2, 3]) with
    | .ok sig => sig.length == 27 | _ => false) = true := by decide +kernel

/-! ### C50, continued -/

/-- C50 (full statement: genuine typed PSS signatures verify however the modulus is stored). Proved for moduli without
spare limbs, whatever generator, salt length and fuel: every signature a `BlindedSigningKey` returns verifies, even if
its secret part is corrupted, and so does every signature a well-formed `SigningKey` returns. Missing: moduli with spare
limbs, where it is false (`C50_spare_limbs_reject`). -/
theorem C50_genuine_verify_partial {k : PrivateKey} (hco : k.pub.Coherent) (hs : NoSpareLimbs k.pub)
    (hp : k.pub.n.prec < 2 ^ 32) (D : HashFn) (hpos : 0 < D.outLen) (saltLen : Nat)
    (hadd : D.outLen + saltLen + 2 < 2 ^ 64) {σ : Type} (R : RngImpl σ) (fuel : Nat) (s : σ) (msg : Bytes)
    (sg : pss.Signature)
    (h : pss.BlindedSigningKey.trySignWithRng (D := D) R fuel s ⟨k, saltLen⟩ msg = .ok sg ∨
      Spec.WellFormed k ∧ pss.SigningKey.trySignWithRng (D := D) R fuel s ⟨k, saltLen⟩ msg = .ok sg) :
    (pss.VerifyingKey.newWithSaltLen (D := D) k.pub saltLen).verify msg sg = .ok () := by
  have hn := coherent_pos hco
  obtain ⟨sig, hsg, hl, hlt, em, hem, hre⟩ : ∃ sig, pss.Signature.tryFrom sig = .ok sg ∧
      sig.length = k.pub.size ∧ beVal sig < k.pub.n.val ∧ ∃ em,
        Spec.IsEmsaPss D.hash D.outLen (D.hash msg) saltLen (k.pub.n.val.size - 1) em ∧
        beVal sig ^ k.pub.e.val % k.pub.n.val = beVal em := by
    simp only [beVal_eq_os2ip, size_eq_octetLen]
    rcases h with h | ⟨hk, h⟩
    · unfold pss.BlindedSigningKey.trySignWithRng at h
      rw [Res.bind_eq_ok] at h
      obtain ⟨sig, h1, h2⟩ := h
      obtain ⟨hl, _, salt, em, _, h4, h5, h6, h7⟩ :=
        (C22_salt_from_rng R fuel k hco hp true D hpos saltLen hadd (D.hash msg)).2.2 s sig (Or.inr h1)
      exact ⟨sig, h2, hl, h7 rfl, em, ⟨salt, h4, h5⟩, h6⟩
    · unfold pss.SigningKey.trySignWithRng pss.SigningKey.trySignDigestWithRng at h
      rw [Res.bind_eq_ok] at h
      obtain ⟨sig, h1, h2⟩ := h
      obtain ⟨hl, _, salt, em, h3, h4, h5, h6, _⟩ :=
        (C22_salt_from_rng R fuel k hco hp false D hpos saltLen hadd (D.hash msg)).2.2 s sig (Or.inr h1)
      refine ⟨sig, h2, hl, ?_, em, ⟨salt, h4, h5⟩, h6⟩
      have hfit := (emsaPss_length hpos h5).2
      obtain ⟨sig', _, h8, _, h9⟩ := C18_pss_round_trip hk hp D hpos (D.hash msg) salt (D.hash_len _) hfit
      have h10 := (h9 R fuel s (R.fill s saltLen).2 (by rw [h4, ← h3])).1
      dsimp only at h1
      rw [pss.signDigest_agree, ← h4] at h1
      unfold pss.Pss.sign at h10
      dsimp only at h10
      rw [h1] at h10
      obtain rfl := Res.ok.inj h10
      exact h8
  have hlen : em.length = (k.pub.n.val.size - 1 + 7) / 8 := by
    obtain ⟨salt, _, h5⟩ := hem
    exact (emsaPss_length hpos h5).1
  have h29 : sig.length < 2 ^ 29 := by rw [hl]; exact size_lt_29 hp
  unfold pss.Signature.tryFrom at hsg
  rw [pkcs1v15.lenBitsU32_eq h29, Res.ok_bind, fromBeSlice_full, Res.ok_bind] at hsg
  obtain rfl := Res.ok.inj hsg
  apply (C19_typed_verify_exact (D := D) ⟨k.pub, saltLen⟩ hco hp hpos hadd (D.hash msg) _).1.mpr
  dsimp only
  rw [hl, noSpare_limbs hn hs, wrap_lt_val hlt]
  refine ⟨hlt, rfl, D.hash_len _, beBytes k.pub.size (beVal em), ?_, ?_⟩
  · rw [hre, ← size_eq_octetLen, i2osp_eq]
    rw [← hre]; exact mod_lt_pow_size _ hn _
  · have hsz : k.pub.size = (k.pub.n.val.size + 7) / 8 := size_eq_octetLen k.pub
    have hb : 0 < k.pub.n.val.size := by rw [← bits_eq_size]; exact bits_pos hn
    split
    · rw [beBytes_eq_of_lt (b := 0 :: em) (by rw [List.length_cons, hlen, hsz]; omega) (by rw [beVal_cons]; simp),
        List.drop_one, List.tail_cons]
      exact hem
    · rw [List.drop_zero, beBytes_eq_of_lt (by rw [hlen, hsz]; omega) rfl]
      exact hem

example : (match pss.SigningKey.trySignWithRng (D := Ex.hash4) Ex.countingRng 1 7 ⟨Ex.key, 10⟩ [1, 2, 3] with
    | .ok sg => sg.inner.nlimbs == 4 | _ => false) = true := by decide +kernel

example := C19_pss_verify_exact Ex.key.pub Ex.key_wf.coherent (by decide) true Ex.hash4 (by decide) 10 (by decide)
  [1, 2, 3, 4] (List.replicate 27 7) (by decide)
example := C22_salt_from_rng Ex.countingRng 3 Ex.key Ex.key_wf.coherent (by decide) true Ex.hash4 (by decide) 10 (by decide)
  [1, 2, 3, 4]

end RSA
