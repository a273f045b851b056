import Verif.Model.Oaep
import Verif.Proof.OaepPad
import Verif.Proof.Pkcs1v15

namespace RSA
open BoxedUint

/-- RFC 8017 MGF1 of a hash function, in the shape `emeOaep` and `emsaPss` expect. -/
abbrev HashFn.mgf (h : HashFn) : Bytes → Nat → Bytes := Spec.mgf1 h.hash h.outLen

theorem HashFn.mgf_length (h : HashFn) (hpos : 0 < h.outLen) (z : Bytes) (l : Nat) : (h.mgf z l).length = l :=
  mgf1_length h hpos z l

theorem emeOaep_inj {p p' : Bytes} {g : Bytes → Nat → Bytes} {hLen k : Nat} {s s' m m' : Bytes}
    (hg : ∀ z l, (g z l).length = l) (hp : p.length = hLen) (hp' : p'.length = hLen) (hs : s.length = hLen)
    (hs' : s'.length = hLen) (hm : m.length + 2 * hLen + 2 ≤ k) (hm' : m'.length + 2 * hLen + 2 ≤ k)
    (h : Spec.emeOaep p g hLen k s m = Spec.emeOaep p' g hLen k s' m') : p = p' ∧ s = s' := by
  unfold Spec.emeOaep at h
  simp only at h
  set db := p ++ List.replicate (k - m.length - 2 * hLen - 2) 0x00 ++ [0x01] ++ m with hdb
  set db' := p' ++ List.replicate (k - m'.length - 2 * hLen - 2) 0x00 ++ [0x01] ++ m' with hdb'
  have hl : db.length = k - hLen - 1 := by rw [hdb]; simp; omega
  have hl' : db'.length = k - hLen - 1 := by rw [hdb']; simp; omega
  rw [List.append_assoc, List.append_assoc] at h
  have h1 := List.append_cancel_left h
  obtain ⟨e1, e2⟩ := List.append_inj h1 (by simp [hg, hs, hs'])
  rw [e2] at e1
  have es : s = s' := by
    have := congrArg (fun x => Spec.xorBytes x (g (Spec.xorBytes db' (g s' (k - hLen - 1))) hLen)) e1
    rwa [xorBytes_cancel _ _ (by rw [hg]; omega), xorBytes_cancel _ _ (by rw [hg]; omega)] at this
  refine ⟨?_, es⟩
  rw [es] at e2
  have ed : db = db' := by
    have := congrArg (fun x => Spec.xorBytes x (g s' (k - hLen - 1))) e2
    rwa [xorBytes_cancel _ _ (by rw [hg]; omega), xorBytes_cancel _ _ (by rw [hg]; omega)] at this
  rw [hdb, hdb', List.append_assoc, List.append_assoc, List.append_assoc, List.append_assoc] at ed
  exact (List.append_inj ed (by omega)).1

/-! ## Padding functions with fresh digests -/

theorem mgfEnc_eq (MGD : HashFn) (hpos : 0 < MGD.outLen) {hSize k : Nat} (hk : k < 2 ^ 32) (hle : hSize ≤ k)
    (seed db : Bytes) (hs : seed.length = hSize) (hd : db.length = k - hSize - 1) :
    (do let (db, mgfDigest) ← mgf1Xor db ⟨MGD, []⟩ seed
        let (seed, _) ← mgf1Xor seed mgfDigest db
        .ok (seed, db)) =
      Res.ok (Spec.xorBytes seed (MGD.mgf (Spec.xorBytes db (MGD.mgf seed (k - hSize - 1))) hSize),
        Spec.xorBytes db (MGD.mgf seed (k - hSize - 1))) := by
  rw [mgf1Xor_eq db MGD hpos seed (by omega), Res.ok_bind]
  simp only
  rw [mgf1Xor_eq seed MGD hpos _ (by omega), Res.ok_bind, hd, hs]

theorem mgfDec_eq (MGD : HashFn) (hpos : 0 < MGD.outLen) {hSize k : Nat} (hk : k < 2 ^ 32) (hle : hSize ≤ k)
    (seed db : Bytes) (hs : seed.length = hSize) (hd : db.length = k - hSize - 1) :
    (do let (seed, mgfDigest) ← mgf1Xor seed ⟨MGD, []⟩ db
        let (db, _) ← mgf1Xor db mgfDigest seed
        .ok (seed, db)) =
      Res.ok (Spec.xorBytes seed (MGD.mgf db hSize),
        Spec.xorBytes db (MGD.mgf (Spec.xorBytes seed (MGD.mgf db hSize)) (k - hSize - 1))) := by
  rw [mgf1Xor_eq seed MGD hpos db (by omega), Res.ok_bind]
  simp only
  rw [mgf1Xor_eq db MGD hpos _ (by omega), Res.ok_bind, hd, hs]

theorem mgf1XorLoop_state (h : HashFn) (seed : Bytes) : ∀ (fuel : Nat) (out : Bytes) (ctr : Counter) (x : Bytes)
    (dg : DigestState), mgf1XorLoop fuel out ⟨h, []⟩ seed ctr = .ok (x, dg) → dg = ⟨h, []⟩ := by
  intro fuel
  induction fuel with
  | zero =>
    intro out ctr x dg hh
    cases out with
    | nil => simp only [mgf1XorLoop, Res.ok.injEq, Prod.mk.injEq] at hh; exact hh.2.symm
    | cons o os => simp [mgf1XorLoop] at hh
  | succ fuel ih =>
    intro out ctr x dg hh
    cases out with
    | nil => simp only [mgf1XorLoop, Res.ok.injEq, Prod.mk.injEq] at hh; exact hh.2.symm
    | cons o os =>
      have hin := digestInput_eq seed ctr.bytes rfl
      rw [Res.bind_eq_ok] at hin
      obtain ⟨y, hy, hz⟩ := hin
      simp only [mgf1XorLoop, hy, hz, Res.ok_bind, DigestState.update, DigestState.finalizeReset, xorInto_eq] at hh
      rw [Res.bind_eq_ok] at hh
      obtain ⟨⟨t, dg'⟩, h1, h2⟩ := hh
      simp only [Res.ok.injEq, Prod.mk.injEq] at h2
      rw [← h2.2]
      exact ih _ _ _ _ h1

theorem mgf1Xor_state (h : HashFn) (seed out x : Bytes) (dg : DigestState)
    (hh : mgf1Xor out ⟨h, []⟩ seed = .ok (x, dg)) : dg = ⟨h, []⟩ := by
  unfold mgf1Xor at hh
  split at hh
  · exact mgf1XorLoop_state _ _ _ _ _ _ _ hh
  · cases hh

/-- Two masking steps, trait-object and generic digest. -/
theorem mgf2_agree (MGD : HashFn) (a b : Bytes) (f : Bytes → Bytes → Bytes × Bytes) :
    (do let (a', dg) ← mgf1XorDigest a ⟨MGD, []⟩ b
        let (b', _) ← mgf1XorDigest b dg a'
        Res.ok (f a' b')) =
    (do let (a', dg) ← mgf1Xor a ⟨MGD, []⟩ b
        let (b', _) ← mgf1Xor b dg a'
        Res.ok (f a' b')) := by
  rw [mgf1XorDigest_eq]
  cases h : mgf1Xor a ⟨MGD, []⟩ b with
  | ok p =>
    obtain ⟨x, dg⟩ := p
    have := mgf1Xor_state _ _ _ _ _ h
    subst this
    simp only [Res.ok_bind]
    rw [mgf1XorDigest_eq]
  | err e => rfl
  | panic e => rfl
  | loop => rfl

theorem oaepEncryptDigest_agree {σ : Type} (R : RngImpl σ) (s : σ) (msg : Bytes) (D MGD : HashFn)
    (label : Option Bytes) (k : Nat) :
    oaepEncryptDigest R s msg D MGD label k = oaepEncrypt R s msg (DigestState.new D) (DigestState.new MGD) label k := by
  unfold oaepEncryptDigest oaepEncrypt
  dsimp only
  have : (fun seed db => do
      let mgfDigest := DigestState.new MGD
      let (db, mgfDigest) ← mgf1XorDigest db mgfDigest seed
      let (seed, _) ← mgf1XorDigest seed mgfDigest db
      Res.ok (seed, db)) = (fun seed db => do
      let (db, mgfDigest) ← mgf1Xor db (DigestState.new MGD) seed
      let (seed, _) ← mgf1Xor seed mgfDigest db
      Res.ok (seed, db)) := by
    funext seed db
    exact mgf2_agree MGD db seed (fun a b => (b, a))
  rw [← this]
  rfl

theorem oaepDecrypt_core (em : Bytes) (D MGD : HashFn) (label : Option Bytes) (k : Nat)
    (hl : (label.getD []).length < maxLabelLen) :
    oaepDecrypt em (DigestState.new D) (DigestState.new MGD) label k =
      oaepDecryptCore em D.outLen (D.hash (label.getD [])) k (fun seed db => do
        let (seed, mgfDigest) ← mgf1Xor seed (DigestState.new MGD) db
        let (db, _) ← mgf1Xor db mgfDigest seed
        Res.ok (seed, db)) := by
  unfold oaepDecrypt oaepDecryptCore
  dsimp only
  rw [if_neg (by omega)]
  rfl

theorem oaepDecryptDigest_core (em : Bytes) (D MGD : HashFn) (label : Option Bytes) (k : Nat)
    (hl : (label.getD []).length < maxLabelLen) :
    oaepDecryptDigest em D MGD label k =
      oaepDecryptCore em D.outLen (D.hash (label.getD [])) k (fun seed db => do
        let (seed, mgfDigest) ← mgf1Xor seed (DigestState.new MGD) db
        let (db, _) ← mgf1Xor db mgfDigest seed
        Res.ok (seed, db)) := by
  unfold oaepDecryptDigest oaepDecryptCore
  dsimp only
  rw [if_neg (by omega)]
  have : (fun seed db => do
      let mgfDigest := DigestState.new MGD
      let (seed, mgfDigest) ← mgf1XorDigest seed mgfDigest db
      let (db, _) ← mgf1XorDigest db mgfDigest seed
      Res.ok (seed, db)) = (fun seed db => do
      let (seed, mgfDigest) ← mgf1Xor seed (DigestState.new MGD) db
      let (db, _) ← mgf1Xor db mgfDigest seed
      Res.ok (seed, db)) := by
    funext seed db
    exact mgf2_agree MGD seed db (fun a b => (a, b))
  rw [← this]

theorem oaepDecryptDigest_agree (em : Bytes) (D MGD : HashFn) (label : Option Bytes) (k : Nat)
    (hl : (label.getD []).length < maxLabelLen) :
    oaepDecryptDigest em D MGD label k = oaepDecrypt em (DigestState.new D) (DigestState.new MGD) label k := by
  rw [oaepDecryptDigest_core _ _ _ _ _ hl, oaepDecrypt_core _ _ _ _ _ hl]

theorem oaepEncrypt_eq {σ : Type} (R : RngImpl σ) (s : σ) (msg : Bytes) (D MGD : HashFn) (hpos : 0 < MGD.outLen)
    (label : Option Bytes) (hl : (label.getD []).length < maxLabelLen) (k : Nat) (hk : k < 2 ^ 32) :
    oaepEncrypt R s msg (DigestState.new D) (DigestState.new MGD) label k =
      if msg.length + 2 * D.outLen + 2 > k then .err .messageTooLong
      else R.tryFill s D.outLen >>= fun x =>
        .ok (Spec.emeOaep (D.hash (label.getD [])) MGD.mgf D.outLen k x.1 msg, x.2) := by
  unfold oaepEncrypt
  dsimp only
  rw [if_neg (by omega)]
  by_cases hsz : msg.length + 2 * D.outLen + 2 > k
  · rw [if_pos hsz]
    show oaepEncryptInternal R s msg _ D.outLen k _ = _
    unfold oaepEncryptInternal
    rw [if_pos hsz]
  · apply oaepEncryptInternal_eq R s msg (D.hash (label.getD [])) D.outLen k _ MGD.mgf (D.hash_len _)
    intro seed db hs hd
    exact mgfEnc_eq MGD hpos hk (by omega) seed db hs hd

/-- Block acceptance for fresh digests. -/
theorem oaepDecrypt_spec (em : Bytes) (D MGD : HashFn) (hpos : 0 < MGD.outLen) (label : Option Bytes)
    (hl : (label.getD []).length < maxLabelLen) (hk : em.length < 2 ^ 32) :
    (∀ m, oaepDecrypt em (DigestState.new D) (DigestState.new MGD) label em.length = .ok m ↔
      11 ≤ em.length ∧ ∃ seed, seed.length = D.outLen ∧ m.length + 2 * D.outLen + 2 ≤ em.length ∧
        em = Spec.emeOaep (D.hash (label.getD [])) MGD.mgf D.outLen em.length seed m) ∧
    ((¬ (11 ≤ em.length ∧ ∃ seed m, seed.length = D.outLen ∧ m.length + 2 * D.outLen + 2 ≤ em.length ∧
        em = Spec.emeOaep (D.hash (label.getD [])) MGD.mgf D.outLen em.length seed m)) →
      oaepDecrypt em (DigestState.new D) (DigestState.new MGD) label em.length = .err .decryption) := by
  rw [oaepDecrypt_core _ _ _ _ _ hl]
  by_cases hsm : em.length < 11 ∨ em.length < D.outLen * 2 + 2
  · rw [oaepDecryptCore_small _ _ _ _ _ hsm]
    refine ⟨fun m => ⟨fun h => (by cases h), ?_⟩, fun _ => rfl⟩
    rintro ⟨h11, seed, hs, hm, _⟩
    omega
  · push Not at hsm
    obtain ⟨h1, h2⟩ := oaepDecryptCore_spec em D.outLen (D.hash (label.getD [])) em.length _ MGD.mgf (D.hash_len _)
      (MGD.mgf_length hpos) rfl hsm.1 (by omega) hk
      (fun seed db hs hd => mgfDec_eq MGD hpos hk (by omega) seed db hs hd)
    constructor
    · intro m
      constructor
      · intro h
        refine ⟨hsm.1, ?_⟩
        by_contra hno
        by_cases hex : ∃ seed m, seed.length = D.outLen ∧ m.length + 2 * D.outLen + 2 ≤ em.length ∧
            em = Spec.emeOaep (D.hash (label.getD [])) MGD.mgf D.outLen em.length seed m
        · obtain ⟨seed, m', a, b, c⟩ := hex
          have := h1 seed m' a b c
          unfold DigestState.new at h
          rw [this] at h
          obtain rfl := Res.ok.inj h
          exact hno ⟨seed, a, b, c⟩
        · have := h2 hex
          unfold DigestState.new at h
          rw [this] at h; cases h
      · rintro ⟨_, seed, a, b, c⟩
        exact h1 seed m a b c
    · intro hno
      exact h2 (fun hex => hno ⟨hsm.1, hex⟩)

/-! ## With a key -/
namespace oaep

theorem emeOaep_head (p : Bytes) (g : Bytes → Nat → Bytes) (hLen k : Nat) (seed m : Bytes) :
    (Spec.emeOaep p g hLen k seed m).head? = some 0 := rfl

theorem encryptDigest_agree {σ : Type} (R : RngImpl σ) (D MGD : HashFn) (s : σ) (k : PublicKey) (msg : Bytes)
    (label : Option Bytes) :
    encryptDigest R D MGD s k msg label = encrypt R s k msg (DigestState.new D) (DigestState.new MGD) label := by
  unfold encryptDigest encrypt
  rw [oaepEncryptDigest_agree]

theorem encrypt_eq {σ : Type} (R : RngImpl σ) (s : σ) (k : PublicKey) (hk : k.Coherent) (hc : checkPublic k = .ok ())
    (msg : Bytes) (D MGD : HashFn) (hpos : 0 < MGD.outLen) (label : Option Bytes)
    (hl : (label.getD []).length < maxLabelLen) :
    encrypt R s k msg (DigestState.new D) (DigestState.new MGD) label =
      if msg.length + 2 * D.outLen + 2 > k.size then .err .messageTooLong
      else R.tryFill s D.outLen >>= fun x =>
        .ok (beBytes k.size (beVal (Spec.emeOaep (D.hash (label.getD [])) MGD.mgf D.outLen k.size x.1 msg) ^ k.e.val
          % k.n.val), x.2) := by
  have h4096 := ((checkPublic_ok k).mp hc).1
  have hsz := size_le_bytes k
  have h32 : k.size < 2 ^ 32 := by unfold prec at h4096; omega
  unfold encrypt
  rw [hc, Res.ok_bind, oaepEncrypt_eq R s msg D MGD hpos label hl _ h32]
  split
  · rfl
  · next hlm =>
    rcases tryFill_cases R s D.outLen with ⟨seed, s', hf⟩ | hf
    · rw [hf]
      simp only [Res.ok_bind]
      set em := Spec.emeOaep (D.hash (label.getD [])) MGD.mgf D.outLen k.size seed msg with hem
      have hlen : em.length = k.size :=
        emeOaep_length _ _ _ _ _ _ (D.hash_len _) (tryFill_ok hf) (MGD.mgf_length hpos) (by omega)
      have hle : em.length ≤ 8 * k.n.nlimbs := by rw [hlen]; exact hsz
      rw [fromBeSlice_nprec k hk, if_pos hle, Res.ok_bind]
      have := encryptPad_eq k hk (beVal em) (beVal_lt_limbs hle)
      rw [Res.bind_eq_ok] at this
      obtain ⟨c, h1, h2⟩ := this
      rw [h1, Res.ok_bind, h2, Res.ok_bind]
    · rw [hf]; rfl

/-- Decryption of a string of the right length whose value is below `n`. -/
theorem decrypt_lt {σ : Type} (R : RngImpl σ) (fuel : Nat) (rng : Option σ) {k : PrivateKey} (hk : Spec.WellFormed k)
    (ct : Bytes) (hl : ct.length = k.pub.size) (hv : beVal ct < k.pub.n.val)
    (hb : Spec.BlindingOk R k.pub.n.val fuel rng) (dg mg : DigestState) (label : Option Bytes) :
    decrypt R fuel rng k ct dg mg label =
      oaepDecrypt (beBytes k.pub.size (beVal ct ^ k.d.val % k.pub.n.val)) dg mg label k.pub.size := by
  have hco : k.pub.Coherent := hk.coherent
  have hn := coherent_pos hco
  unfold decrypt
  rw [if_neg (by simp [hl]), fromBeSlice_nprec _ hco, if_pos (by rw [hl]; exact size_le_bytes _), Res.ok_bind]
  have hwv : (wrap k.pub.n.nlimbs (beVal ct)).val = beVal ct := wrap_lt_val hv
  obtain ⟨r, hr⟩ := rsaDecryptAndCheck_ok R fuel rng hk (wrap k.pub.n.nlimbs (beVal ct)) rfl (by rw [hwv]; exact hv) hb
  rw [hr, hwv]
  simp only [Res.ok_bind]
  rw [uintToZeroizingBePad_eq, wrap_mod_val _ hn, if_pos (mod_lt_pow_size _ hn _), Res.ok_bind]

theorem decrypt_ge {σ : Type} (R : RngImpl σ) (fuel : Nat) (rng : Option σ) {k : PrivateKey} (hk : k.pub.Coherent)
    (ct : Bytes) (hl : ct.length = k.pub.size) (hv : k.pub.n.val ≤ beVal ct) (dg mg : DigestState)
    (label : Option Bytes) : decrypt R fuel rng k ct dg mg label = .err .decryption := by
  unfold decrypt
  rw [if_neg (by simp [hl]), fromBeSlice_nprec _ hk, if_pos (by rw [hl]; exact size_le_bytes _), Res.ok_bind,
    rsaDecryptAndCheck_ge R fuel rng k _ (by
      rw [wrap_val_of_lt (beVal_lt_limbs (by rw [hl]; exact size_le_bytes _))]; exact hv)]
  rfl

/-- The generic-digest decryption is the trait-object one after the public-key check. -/
theorem decryptDigest_agree {σ : Type} (R : RngImpl σ) (fuel : Nat) (D MGD : HashFn) (rng : Option σ) (k : PrivateKey)
    (hc : checkPublic k.pub = .ok ()) (ct : Bytes) (label : Option Bytes)
    (hl : (label.getD []).length < maxLabelLen) :
    decryptDigest R fuel D MGD rng k ct label =
      decrypt R fuel rng k ct (DigestState.new D) (DigestState.new MGD) label := by
  unfold decryptDigest decrypt
  rw [hc, Res.ok_bind]
  simp only [oaepDecryptDigest_agree _ D MGD label _ hl]

end oaep
end RSA
