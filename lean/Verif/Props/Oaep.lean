import Verif.Props.ExampleKeys
import Verif.Props.Pkcs1v15
import Verif.Proof.Oaep

/-
C14 - C17, C23, C24 (OAEP half): OAEP and MGF1 (src/algorithms/oaep.rs, src/algorithms/mgf.rs, src/oaep.rs, src/oaep/*).

`D` is the label hash, `MGD` the mask hash; both are arbitrary functions of fixed output length (`MGD` not empty). The
label length bound 2^61 is the crate's own limit.
-/
namespace RSA
open BoxedUint

/-! ### C23 -/

/-- C23: masking a buffer of up to 2^32 bytes is exclusive-or with RFC 8017 MGF1 of the seed, in both implementations, and
leaves the digest object reset. -/
theorem C23_mgf1 (out seed : Bytes) (h : HashFn) (hpos : 0 < h.outLen) (hl : out.length ≤ 2 ^ 32) :
    mgf1Xor out (DigestState.new h) seed =
      .ok (Spec.xorBytes out (Spec.mgf1 h.hash h.outLen seed out.length), DigestState.new h) ∧
    mgf1XorDigest out (DigestState.new h) seed =
      .ok (Spec.xorBytes out (Spec.mgf1 h.hash h.outLen seed out.length), DigestState.new h) ∧
    (Spec.mgf1 h.hash h.outLen seed out.length).length = out.length :=
  ⟨mgf1Xor_eq out h hpos seed hl, mgf1XorDigest_ok out h hpos seed hl, mgf1_length h hpos seed _⟩

/-- C23: masking twice with the same seed restores the buffer. -/
theorem C23_mgf1_involution (out seed : Bytes) (h : HashFn) (hpos : 0 < h.outLen) (hl : out.length ≤ 2 ^ 32) :
    ∃ masked, mgf1Xor out (DigestState.new h) seed = .ok (masked, DigestState.new h) ∧
      mgf1Xor masked (DigestState.new h) seed = .ok (out, DigestState.new h) := by
  refine ⟨_, (C23_mgf1 out seed h hpos hl).1, ?_⟩
  have hlen : (Spec.xorBytes out (Spec.mgf1 h.hash h.outLen seed out.length)).length = out.length := by
    rw [xorBytes_length, mgf1_length h hpos]; omega
  have := (C23_mgf1 _ seed h hpos (by rw [hlen]; exact hl)).1
  rw [this, hlen, xorBytes_cancel]
  rw [mgf1_length h hpos]

/-- C23: buffers over 2^32 bytes hit the assertion (RFC 8017 "mask too long"). -/
theorem C23_mask_too_long (out seed : Bytes) (dg : DigestState) (hl : 2 ^ 32 < out.length) :
    mgf1Xor out dg seed = .panic .assert ∧ mgf1XorDigest out dg seed = .panic .assert := by
  unfold mgf1Xor mgf1XorDigest
  rw [if_neg (by omega), if_neg (by omega)]; exact ⟨rfl, rfl⟩

/-- Three counter blocks are visible with a hash that returns the counter byte. -/
def Ex.tailHash : HashFn where
  outLen := 2
  hash m := [m.getLastD 0, 7]
  hash_len := by intro m; rfl
example : 0 < Ex.tailHash.outLen ∧
    mgf1Xor [0, 0, 0, 0, 0] (DigestState.new Ex.tailHash) [9] = .ok ([0, 7, 1, 7, 2], DigestState.new Ex.tailHash) :=
  ⟨by decide, rfl⟩

/-! ### C24 (OAEP and MGF1) -/

/-- C24: the trait-object and generic-digest implementations agree: masking, OAEP encoding and whole encryptions always;
decoding for labels within the limit, decryption additionally for keys passing the public-key check, which only the
generic version performs. -/
theorem C24_oaep_agree {σ : Type} (R : RngImpl σ) (fuel : Nat) (D MGD : HashFn) (label : Option Bytes) :
    (∀ out seed, mgf1XorDigest out (DigestState.new MGD) seed = mgf1Xor out (DigestState.new MGD) seed) ∧
    (∀ s msg k, oaepEncryptDigest R s msg D MGD label k =
      oaepEncrypt R s msg (DigestState.new D) (DigestState.new MGD) label k) ∧
    (∀ s k msg, oaep.encryptDigest R D MGD s k msg label =
      oaep.encrypt R s k msg (DigestState.new D) (DigestState.new MGD) label) ∧
    ((label.getD []).length < 2 ^ 61 →
      (∀ em k, oaepDecryptDigest em D MGD label k =
        oaepDecrypt em (DigestState.new D) (DigestState.new MGD) label k) ∧
      (∀ rng k ct, checkPublic k.pub = .ok () → oaep.decryptDigest R fuel D MGD rng k ct label =
        oaep.decrypt R fuel rng k ct (DigestState.new D) (DigestState.new MGD) label)) :=
  ⟨fun out seed => mgf1XorDigest_eq out MGD seed, fun s msg k => oaepEncryptDigest_agree R s msg D MGD label k,
    fun s k msg => oaep.encryptDigest_agree R D MGD s k msg label,
    fun hl => ⟨fun em k => oaepDecryptDigest_agree em D MGD label k hl,
      fun rng k ct hc => oaep.decryptDigest_agree R fuel D MGD rng k hc ct label hl⟩⟩

/-- C24: for an over-long label both decoders fail, with different errors. -/
theorem C24_oaep_label_error (em : Bytes) (D MGD : HashFn) (label : Bytes) (k : Nat) (hl : 2 ^ 61 ≤ label.length) :
    oaepDecrypt em (DigestState.new D) (DigestState.new MGD) (some label) k = .err .decryption ∧
    oaepDecryptDigest em D MGD (some label) k = .err .labelTooLong := by
  unfold oaepDecrypt oaepDecryptDigest
  have : label.length ≥ maxLabelLen := hl
  simp [this]

example : ((some [1, 2, 3] : Option Bytes).getD []).length < 2 ^ 61 ∧ checkPublic Ex.key.pub = .ok () := by
  decide +kernel

/-! ### C14 -/

/-- C14: a ciphertext produced by OAEP encryption decrypts to the message with the same hashes and label, without
blinding or with any generator whose blinding draws are usable. (The crate refuses blocks under 11 bytes, so either the
modulus has at least 11 bytes or the hash at least 5, as every real hash has.) -/
theorem C14_oaep_round_trip {σ : Type} (R : RngImpl σ) (s s' : σ) {k : PrivateKey} (hk : Spec.WellFormed k)
    (D MGD : HashFn) (hpos : 0 < MGD.outLen) (label : Option Bytes)
    (h11 : 11 ≤ Spec.octetLen k.pub.n.val ∨ 5 ≤ D.outLen) (msg ct : Bytes)
    (h : oaep.encrypt R s k.pub msg (DigestState.new D) (DigestState.new MGD) label = .ok (ct, s')) :
    ∀ {τ : Type} (R' : RngImpl τ) (fuel' : Nat) (rng : Option τ), Spec.BlindingOk R' k.pub.n.val fuel' rng →
      oaep.decrypt R' fuel' rng k ct (DigestState.new D) (DigestState.new MGD) label = .ok msg ∧
      oaep.decryptDigest R' fuel' D MGD rng k ct label = .ok msg := by
  intro τ R' fuel' rng hb
  have hco : k.pub.Coherent := hk.coherent
  have hn := coherent_pos hco
  have hc : checkPublic k.pub = .ok () := by
    rcases checkPublic_cases k.pub with h' | ⟨e, h'⟩
    · exact h'
    · unfold oaep.encrypt at h; rw [h'] at h; cases h
  have hl : (label.getD []).length < maxLabelLen := by
    by_contra hge
    unfold oaep.encrypt at h
    have : oaepEncrypt R s msg (DigestState.new D) (DigestState.new MGD) label k.pub.size = .err .labelTooLong := by
      unfold oaepEncrypt; dsimp only; rw [if_pos (by omega)]
    rw [hc, Res.ok_bind, this] at h
    cases h
  rw [oaep.encrypt_eq R s k.pub hco hc msg D MGD hpos label hl] at h
  rw [oaep.decryptDigest_agree R' fuel' D MGD rng k hc ct label hl, and_self]
  rw [← size_eq_octetLen] at h11
  split at h
  · cases h
  · next hlm =>
    rcases tryFill_cases R s D.outLen with ⟨seed, s1, hf⟩ | hf
    · rw [hf, Res.ok_bind] at h
      simp only [Res.ok.injEq, Prod.mk.injEq] at h
      obtain ⟨rfl, _⟩ := h
      set em := Spec.emeOaep (D.hash (label.getD [])) MGD.mgf D.outLen k.pub.size seed msg with hem
      have hsl := tryFill_ok hf
      have hlen : em.length = k.pub.size :=
        emeOaep_length _ _ _ _ _ _ (D.hash_len _) hsl (MGD.mgf_length hpos) (by omega)
      have hlt : beVal em < k.pub.n.val := block_lt k.pub hn hlen rfl
      have hval : beVal (beBytes k.pub.size (beVal em ^ k.pub.e.val % k.pub.n.val))
          = beVal em ^ k.pub.e.val % k.pub.n.val := by
        rw [beVal_beBytes, Nat.mod_eq_of_lt (mod_lt_pow_size _ hn _)]
      rw [oaep.decrypt_lt R' fuel' rng hk _ (beBytes_length _ _) (by rw [hval]; exact Nat.mod_lt _ hn) hb, hval]
      rw [← Nat.pow_mod, ← pow_mul, mul_comm k.pub.e.val, wf_rsa hk, Nat.mod_eq_of_lt hlt,
        beBytes_eq_of_lt hlen rfl]
      have hk4096 := ((checkPublic_ok k.pub).mp hc).1
      have hsz := size_le_bytes k.pub
      have h32 : k.pub.size < 2 ^ 32 := by unfold prec at hk4096; omega
      have hspec := (oaepDecrypt_spec em D MGD hpos label hl (by omega)).1 msg
      rw [hlen] at hspec
      exact hspec.mpr ⟨by omega, seed, hsl, by omega, hem⟩
    · rw [hf] at h; cases h

/-- A maximal message with a label, for the 27-byte example key and two different 4- and 2-byte hashes. -/
example : Spec.WellFormed Ex.key ∧ 11 ≤ Spec.octetLen Ex.key.pub.n.val ∧
    (match oaep.encrypt Ex.countingRng 5 Ex.key.pub (List.replicate 17 1) (DigestState.new Ex.hash4)
      (DigestState.new Ex.tailHash) (some [1, 2]) with
    | .ok (ct, s) => ct.length == 27 && s == 6
    | _ => false) = true :=
  ⟨Ex.key_wf, by decide +kernel, by decide +kernel⟩

/-! ### C15 -/

/-- C15, block level: a block of any length below 2^32 decodes to `m` exactly when it has at least 11 bytes and is the
RFC 8017 EME-OAEP encoding of `m` for some seed; every other block gives the one Decryption error. -/
theorem C15_oaep_unpad_exact (em : Bytes) (D MGD : HashFn) (hpos : 0 < MGD.outLen) (label : Option Bytes)
    (hl : (label.getD []).length < 2 ^ 61) (hk : em.length < 2 ^ 32) :
    (∀ m, oaepDecrypt em (DigestState.new D) (DigestState.new MGD) label em.length = .ok m ↔
      11 ≤ em.length ∧ ∃ seed, seed.length = D.outLen ∧ m.length + 2 * D.outLen + 2 ≤ em.length ∧
        em = Spec.emeOaep (D.hash (label.getD [])) (Spec.mgf1 MGD.hash MGD.outLen) D.outLen em.length seed m) ∧
    (oaepDecrypt em (DigestState.new D) (DigestState.new MGD) label em.length = .err .decryption ∨
      ∃ m, oaepDecrypt em (DigestState.new D) (DigestState.new MGD) label em.length = .ok m) := by
  obtain ⟨h1, h2⟩ := oaepDecrypt_spec em D MGD hpos label hl hk
  refine ⟨h1, ?_⟩
  by_cases hex : 11 ≤ em.length ∧ ∃ seed m, seed.length = D.outLen ∧ m.length + 2 * D.outLen + 2 ≤ em.length ∧
        em = Spec.emeOaep (D.hash (label.getD [])) MGD.mgf D.outLen em.length seed m
  · obtain ⟨a, seed, m, b⟩ := hex
    exact Or.inr ⟨m, (h1 m).mpr ⟨a, seed, b⟩⟩
  · exact Or.inl (h2 hex)

/-- C15, key level: a ciphertext string decrypts to `m` exactly when it has `k ≥ 11` bytes, its integer is below `n` and
`I2OSP(c^d mod n, k)` is an EME-OAEP encoding of `m`; everything else gives the same Decryption error. -/
theorem C15_oaep_decrypt_exact {σ : Type} (R : RngImpl σ) (fuel : Nat) (rng : Option σ) {k : PrivateKey}
    (hk : Spec.WellFormed k) (hp : k.pub.n.prec < 2 ^ 32) (hb : Spec.BlindingOk R k.pub.n.val fuel rng)
    (D MGD : HashFn) (hpos : 0 < MGD.outLen) (label : Option Bytes) (hl : (label.getD []).length < 2 ^ 61)
    (ct : Bytes) :
    (∀ m, oaep.decrypt R fuel rng k ct (DigestState.new D) (DigestState.new MGD) label = .ok m ↔
      ct.length = Spec.octetLen k.pub.n.val ∧ 11 ≤ ct.length ∧ Spec.os2ip ct < k.pub.n.val ∧
      ∃ seed, seed.length = D.outLen ∧ m.length + 2 * D.outLen + 2 ≤ ct.length ∧
        Spec.i2osp (Spec.os2ip ct ^ k.d.val % k.pub.n.val) ct.length = some
          (Spec.emeOaep (D.hash (label.getD [])) (Spec.mgf1 MGD.hash MGD.outLen) D.outLen ct.length seed m)) ∧
    (oaep.decrypt R fuel rng k ct (DigestState.new D) (DigestState.new MGD) label = .err .decryption ∨
      ∃ m, oaep.decrypt R fuel rng k ct (DigestState.new D) (DigestState.new MGD) label = .ok m) := by
  have hco : k.pub.Coherent := hk.coherent
  have hn := coherent_pos hco
  rw [← size_eq_octetLen, ← beVal_eq_os2ip]
  by_cases hlen : ct.length = k.pub.size
  swap
  · have : oaep.decrypt R fuel rng k ct (DigestState.new D) (DigestState.new MGD) label = .err .decryption := by
      unfold oaep.decrypt; rw [if_pos hlen]
    rw [this]
    exact ⟨fun m => ⟨fun h => (by cases h), fun h => absurd h.1 hlen⟩, Or.inl rfl⟩
  by_cases hv : beVal ct < k.pub.n.val
  swap
  · rw [oaep.decrypt_ge R fuel rng hco ct hlen (by omega)]
    exact ⟨fun m => ⟨fun h => (by cases h), fun h => absurd h.2.2.1 hv⟩, Or.inl rfl⟩
  rw [oaep.decrypt_lt R fuel rng hk ct hlen hv hb, hlen, i2osp_eq _ _ (mod_lt_pow_size _ hn _)]
  set em := beBytes k.pub.size (beVal ct ^ k.d.val % k.pub.n.val) with hem
  have hel : em.length = k.pub.size := beBytes_length _ _
  have hsz := size_le_bytes k.pub
  obtain ⟨h1, h2⟩ := C15_oaep_unpad_exact em D MGD hpos label hl (by unfold prec at hp; omega)
  rw [hel] at h1 h2
  refine ⟨fun m => ?_, h2⟩
  rw [h1 m]
  constructor
  · rintro ⟨a, seed, b, c, d⟩; exact ⟨rfl, a, hv, seed, b, c, by rw [← d]⟩
  · rintro ⟨_, a, _, seed, b, c, d⟩; exact ⟨a, seed, b, c, Option.some.inj d⟩

/-- A block the decoder accepts: the encoding of `[42]` on 27 bytes under seed `1 2 3 4`. -/
example : oaepDecrypt (Spec.emeOaep (Ex.hash4.hash [8]) (Spec.mgf1 Ex.tailHash.hash 2) 4 27 [1, 2, 3, 4] [42])
    (DigestState.new Ex.hash4) (DigestState.new Ex.tailHash) (some [8]) 27 = .ok [42] := by decide +kernel
example : Ex.key.pub.n.prec < 2 ^ 32 ∧ Spec.BlindingOk Ex.countingRng Ex.key.pub.n.val 1 (some 5) :=
  ⟨by decide, 6, 1, .good 5 5 (by decide) (Or.inr (by decide)), le_refl _⟩

/-! ### C16 -/

/-- C16: a ciphertext produced under label `L` is rejected with the Decryption error under every label `L'` whose hash
differs, and accepted, with the same message, when the hashes agree. -/
theorem C16_label_binding {σ τ : Type} (R : RngImpl σ) (s s' : σ) (R' : RngImpl τ) (fuel' : Nat) (rng : Option τ)
    {k : PrivateKey} (hk : Spec.WellFormed k) (hb : Spec.BlindingOk R' k.pub.n.val fuel' rng)
    (D MGD : HashFn) (hpos : 0 < MGD.outLen) (label label' : Option Bytes) (hl' : (label'.getD []).length < 2 ^ 61)
    (h11 : 11 ≤ Spec.octetLen k.pub.n.val ∨ 5 ≤ D.outLen) (msg ct : Bytes)
    (h : oaep.encrypt R s k.pub msg (DigestState.new D) (DigestState.new MGD) label = .ok (ct, s')) :
    (D.hash (label.getD []) ≠ D.hash (label'.getD []) →
      oaep.decrypt R' fuel' rng k ct (DigestState.new D) (DigestState.new MGD) label' = .err .decryption) ∧
    (D.hash (label.getD []) = D.hash (label'.getD []) →
      oaep.decrypt R' fuel' rng k ct (DigestState.new D) (DigestState.new MGD) label' = .ok msg) := by
  have hco : k.pub.Coherent := hk.coherent
  have hc : checkPublic k.pub = .ok () := by
    rcases checkPublic_cases k.pub with h' | ⟨e, h'⟩
    · exact h'
    · unfold oaep.encrypt at h; rw [h'] at h; cases h
  have hp : k.pub.n.prec < 2 ^ 32 := by have := ((checkPublic_ok k.pub).mp hc).1; omega
  have hl : (label.getD []).length < 2 ^ 61 := by
    by_contra hge
    unfold oaep.encrypt at h
    have : oaepEncrypt R s msg (DigestState.new D) (DigestState.new MGD) label k.pub.size = .err .labelTooLong := by
      unfold oaepEncrypt; dsimp only; rw [if_pos (by unfold maxLabelLen; omega)]
    rw [hc, Res.ok_bind, this] at h
    cases h
  have hdec := (C14_oaep_round_trip R s s' hk D MGD hpos label h11 msg ct h R' fuel' rng hb).1
  obtain ⟨e1, e2, e3, seed, e4, e5, e6⟩ := ((C15_oaep_decrypt_exact R' fuel' rng hk hp hb D MGD hpos label hl ct).1 msg).mp hdec
  obtain ⟨d1, d2⟩ := C15_oaep_decrypt_exact R' fuel' rng hk hp hb D MGD hpos label' hl' ct
  constructor
  · intro hne
    rcases d2 with d2 | ⟨m', d2⟩
    · exact d2
    · obtain ⟨_, _, _, seed', f4, f5, f6⟩ := (d1 m').mp d2
      rw [e6] at f6
      exact absurd (emeOaep_inj (MGD.mgf_length hpos) (D.hash_len _) (D.hash_len _) e4 f4 e5 f5 (Option.some.inj f6)).1 hne
  · intro heq
    exact (d1 msg).mpr ⟨e1, e2, e3, seed, e4, e5, by rw [← heq]; exact e6⟩

example : Ex.hash4.hash ((some [1] : Option Bytes).getD []) ≠ Ex.hash4.hash ((none : Option Bytes).getD []) := by decide

/-! ### C17 -/

/-- C17: for a public key the crate accepts and a label within the limit, encryption fails with MessageTooLong exactly
when `|msg| + 2 hLen + 2 > k`; otherwise it fails only if the generator fails, and returns the RSA image of the EME-OAEP
encoding under the seed the generator returned: exactly `k` bytes, below `n`. -/
theorem C17_oaep_shape {σ : Type} (R : RngImpl σ) (s : σ) (k : PublicKey) (hk : k.Coherent)
    (hc : checkPublic k = .ok ()) (D MGD : HashFn) (hpos : 0 < MGD.outLen) (label : Option Bytes)
    (hl : (label.getD []).length < 2 ^ 61) (msg : Bytes) :
    (oaep.encrypt R s k msg (DigestState.new D) (DigestState.new MGD) label = .err .messageTooLong ↔
      Spec.octetLen k.n.val < msg.length + 2 * D.outLen + 2) ∧
    (msg.length + 2 * D.outLen + 2 ≤ Spec.octetLen k.n.val →
      ((R.fill s D.outLen).1 = none →
        oaep.encrypt R s k msg (DigestState.new D) (DigestState.new MGD) label = .err .rng) ∧
      ∀ seed, (R.fill s D.outLen).1 = some seed → ∃ ct,
        oaep.encrypt R s k msg (DigestState.new D) (DigestState.new MGD) label = .ok (ct, (R.fill s D.outLen).2) ∧
        ct.length = Spec.octetLen k.n.val ∧ Spec.os2ip ct < k.n.val ∧
        Spec.os2ip ct = Spec.os2ip (Spec.emeOaep (D.hash (label.getD [])) (Spec.mgf1 MGD.hash MGD.outLen) D.outLen
          (Spec.octetLen k.n.val) seed msg) ^ k.e.val % k.n.val) := by
  have hn := coherent_pos hk
  rw [← size_eq_octetLen, oaep.encrypt_eq R s k hk hc msg D MGD hpos label hl]
  by_cases hlm : msg.length + 2 * D.outLen + 2 > k.size
  · rw [if_pos hlm]
    exact ⟨⟨fun _ => hlm, fun _ => rfl⟩, fun h => by omega⟩
  · rw [if_neg hlm]
    unfold RngImpl.tryFill
    rcases hf : R.fill s D.outLen with ⟨_ | seed, s'⟩
    · refine ⟨⟨fun h => (by cases h), fun h => (by omega)⟩, fun _ => ⟨fun _ => rfl, ?_⟩⟩
      intro seed h; cases h
    · refine ⟨⟨fun h => (by cases h), fun h => (by omega)⟩, fun _ => ⟨fun h => (by cases h), ?_⟩⟩
      intro seed' h
      obtain rfl := Option.some.inj h
      have hval : ∀ v, Spec.os2ip (beBytes k.size (v % k.n.val)) = v % k.n.val := by
        intro v
        rw [← beVal_eq_os2ip, beVal_beBytes, Nat.mod_eq_of_lt (mod_lt_pow_size _ hn _)]
      refine ⟨_, rfl, beBytes_length _ _, ?_, ?_⟩
      · rw [hval]; exact Nat.mod_lt _ hn
      · rw [hval, ← beVal_eq_os2ip]

/-- C17: an over-long label is refused. -/
theorem C17_oaep_label_limit {σ : Type} (R : RngImpl σ) (s : σ) (k : PublicKey) (hc : checkPublic k = .ok ())
    (D MGD : HashFn) (label : Option Bytes) (hl : 2 ^ 61 ≤ (label.getD []).length) (msg : Bytes) :
    oaep.encrypt R s k msg (DigestState.new D) (DigestState.new MGD) label = .err .labelTooLong := by
  unfold oaep.encrypt oaepEncrypt
  rw [hc, Res.ok_bind]
  dsimp only
  rw [if_pos (by unfold maxLabelLen; omega)]; rfl

example : 2 ^ 61 ≤ ((some (List.replicate (2 ^ 61) 0) : Option Bytes).getD []).length := by
  rw [Option.getD_some, List.length_replicate]

example := C23_mgf1 [0, 0, 0, 0, 0] [9] Ex.tailHash (by decide) (by decide)

end RSA
