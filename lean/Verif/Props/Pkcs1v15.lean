import Verif.Props.ExampleKeys
import Verif.Proof.Pkcs1v15
import Verif.Spec.Der

/-
C06 - C13, C49: PKCS#1 v1.5 encryption and signatures (src/algorithms/pkcs1v15.rs, src/pkcs1v15.rs, src/pkcs1v15/*).
-/
namespace RSA
open BoxedUint

/-! ### C06 -/

/-- C06: whatever the generator did, a ciphertext produced for a well-formed key decrypts to the message, without
blinding and with every generator whose blinding draws are usable. -/
theorem C06_encryption_round_trip {σ : Type} (R : RngImpl σ) (fuel : Nat) (s s' : σ) {k : PrivateKey}
    (hk : Spec.WellFormed k) (msg ct : Bytes) (h : pkcs1v15.encrypt R fuel s k.pub msg = .ok (ct, s')) :
    ∀ {τ : Type} (R' : RngImpl τ) (fuel' : Nat) (rng : Option τ), Spec.BlindingOk R' k.pub.n.val fuel' rng →
      pkcs1v15.decrypt R' fuel' rng k ct = .ok msg := by
  intro τ R' fuel' rng hb
  have hco : k.pub.Coherent := hk.coherent
  have hn := coherent_pos hco
  have hc : checkPublic k.pub = .ok () := by
    rcases checkPublic_cases k.pub with h' | ⟨e, h'⟩
    · exact h'
    · unfold pkcs1v15.encrypt at h; rw [h'] at h; cases h
  rw [pkcs1v15.encrypt_eq R fuel s k.pub hco hc] at h
  split at h
  · cases h
  · next hl =>
    rcases nonZeroRandomBytes_cases R fuel s (k.pub.size - msg.length - 3) with ⟨ps, s1, hps, hpl, hnz⟩ | h' | h'
    · rw [hps, Res.ok_bind] at h
      simp only [Res.ok.injEq, Prod.mk.injEq] at h
      obtain ⟨rfl, _⟩ := h
      set em : Bytes := [0x00, 0x02] ++ ps ++ [0x00] ++ msg with hem
      have hlen : em.length = k.pub.size := by simp [hem]; omega
      have hspec : Spec.IsEmePkcs1v15 k.pub.size msg em := ⟨ps, rfl, by omega, hnz, hlen⟩
      have hlt : beVal em < k.pub.n.val := block_lt k.pub hn hlen rfl
      have hval : beVal (beBytes k.pub.size (beVal em ^ k.pub.e.val % k.pub.n.val))
          = beVal em ^ k.pub.e.val % k.pub.n.val := by
        rw [beVal_beBytes, Nat.mod_eq_of_lt (mod_lt_pow_size _ hn _)]
      rw [pkcs1v15.decrypt_lt R' fuel' rng hk hc _ (by rw [beBytes_length]; exact size_le_bytes _)
        (by rw [hval]; exact Nat.mod_lt _ hn) hb, hval]
      rw [← Nat.pow_mod, ← pow_mul, mul_comm k.pub.e.val, wf_rsa hk, Nat.mod_eq_of_lt hlt,
        beBytes_eq_of_lt hlen rfl]
      have hk4096 := ((checkPublic_ok k.pub).mp hc).1
      have hsz := size_le_bytes k.pub
      have h31 : k.pub.size < 2 ^ 31 := by unfold prec at hk4096; omega
      exact (pkcs1v15EncryptUnpad_spec em k.pub.size hlen h31).1 msg hspec
    · rw [h'] at h; cases h
    · rw [h'] at h; cases h

/-- A maximal (16-byte) message encrypted for the 27-byte example key. -/
example : (match pkcs1v15.encrypt Ex.countingRng 1 7 Ex.key.pub (List.replicate 16 0) with
    | .ok (ct, s) => ct.length == 27 && s == 8
    | _ => false) = true := by decide +kernel

/-! ### C07 -/

/-- C07: for a public key the crate accepts, encryption fails with MessageTooLong exactly for messages longer than
`k - 11`; otherwise the outcome is an RNG failure, a generator that keeps returning zero bytes, or a ciphertext of
exactly `k` bytes, below `n`, that is the RSA image of a correct EME-PKCS1-v1_5 block of the message (at least 8 bytes of
padding, none zero). A generator that does not fail and does return non-zero bytes always yields a ciphertext. -/
theorem C07_encryption_shape {σ : Type} (R : RngImpl σ) (fuel : Nat) (s : σ) (k : PublicKey) (hk : k.Coherent)
    (hc : checkPublic k = .ok ()) (msg : Bytes) :
    (pkcs1v15.encrypt R fuel s k msg = .err .messageTooLong ↔ Spec.octetLen k.n.val < msg.length + 11) ∧
    (msg.length + 11 ≤ Spec.octetLen k.n.val →
      (∃ ct s' em, pkcs1v15.encrypt R fuel s k msg = .ok (ct, s') ∧ ct.length = Spec.octetLen k.n.val ∧
        Spec.os2ip ct < k.n.val ∧ Spec.IsEmePkcs1v15 (Spec.octetLen k.n.val) msg em ∧
        Spec.os2ip ct = Spec.os2ip em ^ k.e.val % k.n.val) ∨
      pkcs1v15.encrypt R fuel s k msg = .err .rng ∨ pkcs1v15.encrypt R fuel s k msg = .loop) ∧
    (msg.length + 11 ≤ Spec.octetLen k.n.val → Spec.GoodByteRng R fuel →
      ∃ ct s', pkcs1v15.encrypt R fuel s k msg = .ok (ct, s')) := by
  have hn := coherent_pos hk
  rw [← size_eq_octetLen, pkcs1v15.encrypt_eq R fuel s k hk hc]
  by_cases hl : msg.length + 11 > k.size
  · rw [if_pos hl]
    exact ⟨⟨fun _ => hl, fun _ => rfl⟩, fun h => by omega, fun h => by omega⟩
  · rw [if_neg hl]
    rcases nonZeroRandomBytes_cases R fuel s (k.size - msg.length - 3) with ⟨ps, s1, hps, hpl, hnz⟩ | h' | h'
    · rw [hps, Res.ok_bind]
      refine ⟨⟨fun h => (by cases h), fun h => by omega⟩, fun _ => Or.inl ?_, fun _ _ => ⟨_, _, rfl⟩⟩
      have hval : Spec.os2ip (beBytes k.size (beVal ([0x00, 0x02] ++ ps ++ [0x00] ++ msg) ^ k.e.val % k.n.val))
          = beVal ([0x00, 0x02] ++ ps ++ [0x00] ++ msg) ^ k.e.val % k.n.val := by
        rw [← beVal_eq_os2ip, beVal_beBytes, Nat.mod_eq_of_lt (mod_lt_pow_size _ hn _)]
      refine ⟨_, _, [0x00, 0x02] ++ ps ++ [0x00] ++ msg, rfl, beBytes_length _ _, ?_, ⟨ps, rfl, by omega, hnz, ?_⟩, ?_⟩
      · rw [hval]; exact Nat.mod_lt _ hn
      · simp; omega
      · rw [hval, ← beVal_eq_os2ip]
    · rw [h']
      refine ⟨⟨fun h => (by cases h), fun h => by omega⟩, fun _ => Or.inr (Or.inl rfl), fun _ hg => ?_⟩
      obtain ⟨b, s', hb⟩ := nonZeroRandomBytes_good R fuel hg s (k.size - msg.length - 3)
      rw [h'] at hb; cases hb
    · rw [h']
      refine ⟨⟨fun h => (by cases h), fun h => by omega⟩, fun _ => Or.inr (Or.inr rfl), fun _ hg => ?_⟩
      obtain ⟨b, s', hb⟩ := nonZeroRandomBytes_good R fuel hg s (k.size - msg.length - 3)
      rw [h'] at hb; cases hb

example : Ex.key.pub.Coherent ∧ checkPublic Ex.key.pub = .ok () ∧ Ex.key.pub.size = 27 := by decide +kernel
/-- A generator whose every other byte is zero: two draws always suffice. -/
def Ex.alternatingRng : RngImpl Bool where
  fill s n := (some (List.replicate n (if s then 1 else 0)), !s)
  randMod s n := (some (if s then 1 % n else 0), !s)
  fill_len := by intro s n b h; obtain rfl := Option.some.inj h; simp
  randMod_lt := by
    intro s n r h hn
    obtain rfl := Option.some.inj h
    split
    · exact Nat.mod_lt _ hn
    · exact hn
example : Spec.GoodByteRng Ex.alternatingRng 2 := by
  refine ⟨fun s n => ⟨_, rfl⟩, fun s => ?_⟩
  cases s
  · exact ⟨2, le_refl _, .again false 1 rfl (.good true 1 rfl (by decide))⟩
  · exact ⟨1, by omega, .good true 1 rfl (by decide)⟩

/-! ### C08 -/

/-- C08, block level: a recovered block of any length below 2^31 unpads to `m` exactly when it is
`00 02 PS 00 m` with at least 8 non-zero bytes of padding; every other block gives the one Decryption error. -/
theorem C08_unpad_accepts_exactly (em : Bytes) (hk : em.length < 2 ^ 31) :
    (∀ m, pkcs1v15EncryptUnpad em em.length = .ok m ↔ Spec.IsEmePkcs1v15 em.length m em) ∧
    ((¬ ∃ m, Spec.IsEmePkcs1v15 em.length m em) → pkcs1v15EncryptUnpad em em.length = .err .decryption) := by
  obtain ⟨h1, h2⟩ := pkcs1v15EncryptUnpad_spec em em.length rfl hk
  refine ⟨fun m => ⟨fun h => ?_, h1 m⟩, h2⟩
  by_cases hex : ∃ m', Spec.IsEmePkcs1v15 em.length m' em
  · obtain ⟨m', hm'⟩ := hex
    rw [h1 m' hm'] at h
    obtain rfl := Res.ok.inj h
    exact hm'
  · rw [h2 hex] at h; cases h

/-- C08, key level: for a well-formed key accepted by the crate, a ciphertext string `ct` whose integer is below `n`
decrypts to `m` exactly when the block `I2OSP(c^d mod n, k)` encodes `m`; all other blocks give the Decryption error,
as do integers at or above `n`. -/
theorem C08_decrypt_accepts_exactly {σ : Type} (R : RngImpl σ) (fuel : Nat) (rng : Option σ) {k : PrivateKey}
    (hk : Spec.WellFormed k) (hc : checkPublic k.pub = .ok ()) (hb : Spec.BlindingOk R k.pub.n.val fuel rng)
    (ct : Bytes) (hl : ct.length ≤ 8 * k.pub.n.nlimbs) :
    (Spec.os2ip ct < k.pub.n.val → ∃ em,
      Spec.i2osp (Spec.os2ip ct ^ k.d.val % k.pub.n.val) (Spec.octetLen k.pub.n.val) = some em ∧
      (∀ m, pkcs1v15.decrypt R fuel rng k ct = .ok m ↔ Spec.IsEmePkcs1v15 (Spec.octetLen k.pub.n.val) m em) ∧
      ((¬ ∃ m, Spec.IsEmePkcs1v15 (Spec.octetLen k.pub.n.val) m em) →
        pkcs1v15.decrypt R fuel rng k ct = .err .decryption)) ∧
    (k.pub.n.val ≤ Spec.os2ip ct → pkcs1v15.decrypt R fuel rng k ct = .err .decryption) := by
  have hco : k.pub.Coherent := hk.coherent
  have hn := coherent_pos hco
  rw [← size_eq_octetLen, ← beVal_eq_os2ip]
  constructor
  · intro hv
    refine ⟨_, i2osp_eq _ _ (mod_lt_pow_size _ hn _), ?_⟩
    rw [pkcs1v15.decrypt_lt R fuel rng hk hc ct hl hv hb]
    have hk4096 := ((checkPublic_ok k.pub).mp hc).1
    have hsz := size_le_bytes k.pub
    have h31 : k.pub.size < 2 ^ 31 := by unfold prec at hk4096; omega
    have := C08_unpad_accepts_exactly (beBytes k.pub.size (beVal ct ^ k.d.val % k.pub.n.val)) (by simpa using h31)
    simpa using this
  · intro hv
    unfold pkcs1v15.decrypt
    rw [hc, Res.ok_bind, fromBeSlice_nprec _ hco, if_pos hl, Res.ok_bind,
      rsaDecryptAndCheck_ge R fuel rng k _ (by rw [wrap_val_of_lt (beVal_lt_limbs hl)]; exact hv)]
    rfl

/-- A block with 8 padding bytes is accepted, one with 7 is not; an example key, string and generator. -/
example : Spec.IsEmePkcs1v15 13 [9, 9] ([0, 2] ++ List.replicate 8 5 ++ [0] ++ [9, 9]) :=
  ⟨List.replicate 8 5, rfl, by decide, by decide, by decide⟩
example : pkcs1v15EncryptUnpad ([0, 2] ++ List.replicate 7 5 ++ [0] ++ [9, 9, 9]) 13 = .err .decryption := by
  decide +kernel
example : Spec.WellFormed Ex.key ∧ checkPublic Ex.key.pub = .ok () ∧
    Spec.BlindingOk Ex.countingRng Ex.key.pub.n.val 1 (some 5) ∧
    (List.replicate 27 (1 : UInt8)).length ≤ 8 * Ex.key.pub.n.nlimbs ∧
    Spec.os2ip (List.replicate 27 1) < Ex.key.pub.n.val :=
  ⟨Ex.key_wf, by decide +kernel, ⟨6, 1, .good 5 5 (by decide) (Or.inr (by decide)), le_refl _⟩, by decide, by decide⟩

/-! ### C09 -/

/-- The modulus is stored in as few limbs as its `k` octets need. -/
def NoSpareLimbs (k : PublicKey) : Prop := k.n.nlimbs = (Spec.octetLen k.n.val + 7) / 8

theorem emsa_facts {t em : Bytes} {k : Nat} (h : Spec.emsaPkcs1v15 t k = some em) :
    em.length = k ∧ em.head? = some 0 ∧ t.length + 11 ≤ k := by
  unfold Spec.emsaPkcs1v15 at h
  split at h
  · next hl =>
    obtain rfl := Option.some.inj h
    refine ⟨?_, rfl, hl⟩
    simp; omega
  · cases h

theorem noSpare_limbs {k : PublicKey} (hn : 0 < k.n.val) (hs : NoSpareLimbs k) : limbsFor (8 * k.size) = k.n.nlimbs := by
  have := size_pos k hn
  unfold NoSpareLimbs at hs
  rw [← size_eq_octetLen] at hs
  unfold limbsFor; omega

theorem size_lt_29 {k : PublicKey} (hp : k.n.prec < 2 ^ 32) : k.size < 2 ^ 29 := by
  have := size_le_bytes k
  unfold prec at hp; omega

/-- C09: for a well-formed key whose modulus has no spare limbs (and whose bit precision is a `u32`, as it is in Rust),
a digest of the length the scheme expects whose `DigestInfo` fits is signed, the signature has exactly `k` bytes, is the
same with every usable generator and without one, and verifies under the public key. -/
theorem C09_signature_round_trip {k : PrivateKey} (hk : Spec.WellFormed k) (hs : NoSpareLimbs k.pub)
    (hp : k.pub.n.prec < 2 ^ 32) (S : pkcs1v15.Pkcs1v15Sign) (hashed : Bytes)
    (hlen : ∀ l, S.hashLen = some l → hashed.length = l)
    (hfit : S.pfx.length + hashed.length + 11 ≤ Spec.octetLen k.pub.n.val) :
    ∃ sig : Bytes, sig.length = Spec.octetLen k.pub.n.val ∧
      (∀ {σ : Type} (R : RngImpl σ) (fuel : Nat) (rng : Option σ), Spec.BlindingOk R k.pub.n.val fuel rng →
        S.sign R fuel rng k hashed = .ok sig) ∧
      S.verify k.pub hashed sig = .ok () := by
  have hco : k.pub.Coherent := hk.coherent
  have hn := coherent_pos hco
  have hchk : S.checkHashLen hashed = .ok () := by
    unfold pkcs1v15.Pkcs1v15Sign.checkHashLen
    cases hl : S.hashLen with
    | none => rfl
    | some l => simp [hlen l hl]
  rw [← size_eq_octetLen] at *
  obtain ⟨em, hem⟩ : ∃ em, Spec.emsaPkcs1v15 (S.pfx ++ hashed) k.pub.size = some em := by
    unfold Spec.emsaPkcs1v15
    rw [if_pos (by simpa using hfit)]
    exact ⟨_, rfl⟩
  obtain ⟨hel, he0, _⟩ := emsa_facts hem
  have hlt : beVal em < k.pub.n.val := block_lt k.pub hn hel he0
  set m := beVal em ^ k.d.val % k.pub.n.val with hm
  have hml : m < k.pub.n.val := Nat.mod_lt _ hn
  have hmv : beVal (beBytes k.pub.size m) = m := by
    rw [beVal_beBytes, Nat.mod_eq_of_lt (lt_trans hml (lt_pow_size _))]
  refine ⟨beBytes k.pub.size m, beBytes_length _ _, ?_, ?_⟩
  · intro σ R fuel rng hb
    unfold pkcs1v15.Pkcs1v15Sign.sign
    rw [hchk, Res.ok_bind, pkcs1v15.sign_eq R fuel rng hk _ _ hb, hem]
  · unfold pkcs1v15.Pkcs1v15Sign.verify
    rw [hchk, Res.ok_bind, beBytes_length, pkcs1v15.lenBitsU32_eq (size_lt_29 hp), Res.ok_bind]
    have hfs := fromBeSlice_full (beBytes k.pub.size m)
    rw [beBytes_length, hmv, noSpare_limbs hn hs] at hfs
    rw [hfs, Res.ok_bind, pkcs1v15.verify_eq _ hco, if_pos]
    refine ⟨by rw [wrap_lt_val hml]; exact hml, rfl, ?_⟩
    rw [wrap_lt_val hml, hem, hm, ← Nat.pow_mod, ← pow_mul, wf_rsa hk, Nat.mod_eq_of_lt hlt, beBytes_eq_of_lt hel rfl]

/-- C09 for the typed keys: `SigningKey` signatures verify under the `VerifyingKey` derived from it, for messages and
prehashes alike, and signing with a generator gives the same signature. -/
theorem C09_typed_round_trip {D : HashFn} (sk : pkcs1v15.SigningKey D) (hk : Spec.WellFormed sk.inner)
    (hs : NoSpareLimbs sk.inner.pub) (hp : sk.inner.pub.n.prec < 2 ^ 32) (msg : Bytes)
    (hfit : sk.pfx.length + D.outLen + 11 ≤ Spec.octetLen sk.inner.pub.n.val) :
    ∃ sg, sk.trySign msg = .ok sg ∧ sk.verifyingKey.verify msg sg = .ok () ∧
      sk.trySignDigest msg = .ok sg ∧ sk.verifyingKey.verifyDigest msg sg = .ok () ∧
      sk.signPrehash (D.hash msg) = .ok sg ∧ sk.verifyingKey.verifyPrehash (D.hash msg) sg = .ok () ∧
      ∀ {σ : Type} (R : RngImpl σ) (fuel : Nat) (s : σ), Spec.BlindingOk R sk.inner.pub.n.val fuel (some s) →
        sk.trySignWithRng R fuel s msg = .ok sg ∧ sk.trySignDigestWithRng R fuel s msg = .ok sg := by
  have hco : sk.inner.pub.Coherent := hk.coherent
  have hn := coherent_pos hco
  obtain ⟨sig, hl, hsig, hver⟩ := C09_signature_round_trip hk hs hp ⟨none, sk.pfx⟩ (D.hash msg)
    (by intro l h; cases h) (by rw [D.hash_len]; exact hfit)
  rw [← size_eq_octetLen] at hl
  have h29 : sig.length < 2 ^ 29 := by rw [hl]; exact size_lt_29 hp
  have ht := pkcs1v15.Signature.tryFrom_eq sig h29
  have hsign : ∀ {σ : Type} (R : RngImpl σ) (fuel : Nat) (rng : Option σ),
      Spec.BlindingOk R sk.inner.pub.n.val fuel rng →
      pkcs1v15.sign R fuel rng sk.inner sk.pfx (D.hash msg) = .ok sig := by
    intro σ R fuel rng hb
    have := hsig R fuel rng hb
    exact this
  have hv : pkcs1v15.verify sk.inner.pub sk.pfx (D.hash msg) (wrap (limbsFor (8 * sig.length)) (beVal sig)) = .ok () := by
    unfold pkcs1v15.Pkcs1v15Sign.verify at hver
    have hc : (⟨none, sk.pfx⟩ : pkcs1v15.Pkcs1v15Sign).checkHashLen (D.hash msg) = .ok () := rfl
    rw [hc, Res.ok_bind, pkcs1v15.lenBitsU32_eq h29, Res.ok_bind, fromBeSlice_full, Res.ok_bind] at hver
    exact hver
  have h0 := hsign dummyRng 0 none trivial
  refine ⟨⟨wrap (limbsFor (8 * sig.length)) (beVal sig)⟩, ?_, hv, ?_, hv, ?_, hv, ?_⟩
  · unfold pkcs1v15.SigningKey.trySign; rw [h0, Res.ok_bind, ht]
  · unfold pkcs1v15.SigningKey.trySignDigest; rw [h0, Res.ok_bind, ht]
  · unfold pkcs1v15.SigningKey.signPrehash; rw [h0, Res.ok_bind, ht]
  · intro σ R fuel s hb
    have := hsign R fuel (some s) hb
    constructor
    · unfold pkcs1v15.SigningKey.trySignWithRng; rw [this, Res.ok_bind, ht]
    · unfold pkcs1v15.SigningKey.trySignDigestWithRng; rw [this, Res.ok_bind, ht]

/-- A toy hash with 4-byte output (sum of the bytes, four times). -/
def Ex.hash4 : HashFn where
  outLen := 4
  hash m := List.replicate 4 (m.foldl (· + ·) 0)
  hash_len := by intro m; simp
instance : Decidable (NoSpareLimbs k) := by unfold NoSpareLimbs; infer_instance
/-- The 27-byte example key has no spare limbs; a 16-byte `T` fits. -/
example : Spec.WellFormed Ex.key ∧ NoSpareLimbs Ex.key.pub ∧ Ex.key.pub.n.prec < 2 ^ 32 ∧
    [(1 : UInt8), 2, 3].length + Ex.hash4.outLen + 11 ≤ Spec.octetLen Ex.key.pub.n.val :=
  ⟨Ex.key_wf, by decide +kernel, by decide, by decide +kernel⟩

/-! ### C49 -/

/-- C49 does not hold for keys whose modulus is stored in more limbs than its octets need (key generation and `from_p_q`
produce such keys for some sizes): every signature string of the correct length `k` is rejected, genuine or not. -/
theorem C49_spare_limbs_reject (k : PublicKey) (hk : k.Coherent) (hs : ¬ NoSpareLimbs k) (S : pkcs1v15.Pkcs1v15Sign)
    (hashed sig : Bytes) (hl : sig.length = Spec.octetLen k.n.val) : S.verify k hashed sig ≠ .ok () := by
  intro h
  have hn := coherent_pos hk
  unfold pkcs1v15.Pkcs1v15Sign.verify at h
  rw [Res.bind_eq_ok] at h
  obtain ⟨_, _, h⟩ := h
  rw [Res.bind_eq_ok] at h
  obtain ⟨bits, hb, h⟩ := h
  rw [Res.bind_eq_ok] at h
  obtain ⟨x, hx, h⟩ := h
  rw [pkcs1v15.verify_eq _ hk] at h
  split at h
  · next hc =>
    have hbits : bits = 8 * sig.length := by
      unfold lenBitsU32 at hb
      split at hb
      · have hxl := (fromBeSlice_eq_ok_iff.mp hx).1
        have hbb := (Res.ok.inj hb).symm
        rw [hbb] at hxl
        unfold divCeil at hxl
        have hm := Nat.mod_le sig.length (2 ^ 32)
        omega
      · cases hb
    have hx2 := (fromBeSlice_eq_ok_iff.mp hx).2.2
    have hnl := hc.2.1
    rw [hx2, wrap_nlimbs, hbits, hl, ← size_eq_octetLen] at hnl
    apply hs
    unfold NoSpareLimbs
    rw [← size_eq_octetLen]
    have := size_pos k hn
    unfold limbsFor at hnl; omega
  · cases h

/-- The example key stored with one limb too many: a well-formed key that the theorem applies to. -/
def Ex.wideKey : PrivateKey :=
  { Ex.keyNoCrt with
    pub := { n := wrap 5 ((2 ^ 89 - 1) * (2 ^ 127 - 1)), e := wrap 1 65537,
             nParams := ⟨⟨wrap 5 ((2 ^ 89 - 1) * (2 ^ 127 - 1)), by decide +kernel⟩⟩ }
    d := wrap 5 Ex.dVal }
theorem Ex.wideKey_wf : Spec.WellFormed Ex.wideKey where
  coherent := rfl
  numbers := by
    have h1 : Ex.wideKey.pub.n.val = (2 ^ 89 - 1) * (2 ^ 127 - 1) := by decide +kernel
    have h2 : Ex.wideKey.d.val = Ex.dVal := by decide +kernel
    rw [h1, h2]; exact Ex.numbers
  width := le_refl _
  cache := by intro pre h; cases h
example : Spec.WellFormed Ex.wideKey ∧ ¬ NoSpareLimbs Ex.wideKey.pub := ⟨Ex.wideKey_wf, by decide +kernel⟩

/-- C49 (full statement: genuine signatures verify for every well-formed key, however the modulus is stored). Proved for
moduli without spare limbs, for every scheme object and generator. Missing: moduli with spare limbs, where it is false
(`C49_spare_limbs_reject`). -/
theorem C49_genuine_verify_partial {k : PrivateKey} (hk : Spec.WellFormed k) (hs : NoSpareLimbs k.pub)
    (hp : k.pub.n.prec < 2 ^ 32) (S : pkcs1v15.Pkcs1v15Sign) {σ : Type} (R : RngImpl σ) (fuel : Nat) (rng : Option σ)
    (hb : Spec.BlindingOk R k.pub.n.val fuel rng) (hashed sig : Bytes) (h : S.sign R fuel rng k hashed = .ok sig) :
    S.verify k.pub hashed sig = .ok () := by
  have hchk : S.checkHashLen hashed = .ok () := by
    unfold pkcs1v15.Pkcs1v15Sign.sign at h
    rw [Res.bind_eq_ok] at h
    obtain ⟨u, hu, _⟩ := h
    exact hu
  have hlen : ∀ l, S.hashLen = some l → hashed.length = l := by
    intro l hl
    unfold pkcs1v15.Pkcs1v15Sign.checkHashLen at hchk
    rw [hl] at hchk
    by_contra hne
    simp [hne] at hchk
  have hfit : S.pfx.length + hashed.length + 11 ≤ Spec.octetLen k.pub.n.val := by
    unfold pkcs1v15.Pkcs1v15Sign.sign at h
    rw [hchk, Res.ok_bind, pkcs1v15.sign_eq R fuel rng hk _ _ hb] at h
    cases hem : Spec.emsaPkcs1v15 (S.pfx ++ hashed) k.pub.size with
    | none => rw [hem] at h; cases h
    | some em =>
      have := (emsa_facts hem).2.2
      rw [← size_eq_octetLen]; simpa using this
  obtain ⟨sig', _, h1, h2⟩ := C09_signature_round_trip hk hs hp S hashed hlen hfit
  have := h1 R fuel rng hb
  rw [h] at this
  obtain rfl := Res.ok.inj this
  exact h2

example : ∃ sig, pkcs1v15.Pkcs1v15Sign.newUnprefixed.sign Ex.countingRng 1 (some 5) Ex.key [1, 2, 3] = .ok sig :=
  ⟨[209, 168, 54, 190, 224, 67, 39, 138, 167, 205, 225, 75, 195, 246, 62, 183, 107, 240, 150, 31, 31, 92, 73, 125, 246,
    61, 244], by decide +kernel⟩

/-! ### C10 -/

/-- C10: verification of a signature string (shorter than 2^29 bytes) succeeds exactly when the digest has the expected
length, the string represents an integer `s < n` in as many limbs as the modulus is stored in, and `I2OSP(s^e mod n, k)`
is, byte for byte, the unique EMSA-PKCS1-v1_5 encoding `00 01 FF..FF 00 prefix digest`; in all other cases it fails with
Verification (InputNotHashed for a digest of the wrong length). -/
theorem C10_verify_exact (k : PublicKey) (hk : k.Coherent) (S : pkcs1v15.Pkcs1v15Sign) (hashed sig : Bytes)
    (h29 : sig.length < 2 ^ 29) :
    (S.verify k hashed sig = .ok () ↔
      (∀ l, S.hashLen = some l → hashed.length = l) ∧ Spec.os2ip sig < k.n.val ∧
      max 1 ((sig.length + 7) / 8) = k.n.nlimbs ∧
      ∃ em, Spec.emsaPkcs1v15 (S.pfx ++ hashed) (Spec.octetLen k.n.val) = some em ∧
        Spec.i2osp (Spec.os2ip sig ^ k.e.val % k.n.val) (Spec.octetLen k.n.val) = some em) ∧
    (S.verify k hashed sig = .ok () ∨ S.verify k hashed sig = .err .verification ∨
      S.verify k hashed sig = .err .inputNotHashed) := by
  have hn := coherent_pos hk
  have hlimb : limbsFor (8 * sig.length) = max 1 ((sig.length + 7) / 8) := by unfold limbsFor; omega
  by_cases hlen : ∀ l, S.hashLen = some l → hashed.length = l
  · have hchk : S.checkHashLen hashed = .ok () := by
      unfold pkcs1v15.Pkcs1v15Sign.checkHashLen
      cases hl : S.hashLen with
      | none => rfl
      | some l => simp [hlen l hl]
    have hver : S.verify k hashed sig =
        pkcs1v15.verify k S.pfx hashed (wrap (limbsFor (8 * sig.length)) (beVal sig)) := by
      unfold pkcs1v15.Pkcs1v15Sign.verify
      rw [hchk, Res.ok_bind, pkcs1v15.lenBitsU32_eq h29, Res.ok_bind, fromBeSlice_full, Res.ok_bind]
    rw [hver, pkcs1v15.verify_eq _ hk, pkcs1v15.parse_val, wrap_nlimbs, hlimb, ← size_eq_octetLen, ← beVal_eq_os2ip,
      i2osp_eq _ _ (mod_lt_pow_size _ hn _)]
    have key : (beVal sig < k.n.val ∧ max 1 ((sig.length + 7) / 8) = k.n.nlimbs ∧
        Spec.emsaPkcs1v15 (S.pfx ++ hashed) k.size = some (beBytes k.size (beVal sig ^ k.e.val % k.n.val))) ↔
        ((∀ l, S.hashLen = some l → hashed.length = l) ∧ beVal sig < k.n.val ∧
        max 1 ((sig.length + 7) / 8) = k.n.nlimbs ∧ ∃ em, Spec.emsaPkcs1v15 (S.pfx ++ hashed) k.size = some em ∧
        some (beBytes k.size (beVal sig ^ k.e.val % k.n.val)) = some em) := by
      constructor
      · rintro ⟨h1, h2, h3⟩; exact ⟨hlen, h1, h2, _, h3, rfl⟩
      · rintro ⟨_, h1, h2, em, h3, h4⟩; exact ⟨h1, h2, h3.trans h4.symm⟩
    rw [← key]
    split
    · next h => exact ⟨⟨fun _ => h, fun _ => rfl⟩, Or.inl rfl⟩
    · next h => exact ⟨⟨fun h' => (by cases h'), fun h' => absurd h' h⟩, Or.inr (Or.inl rfl)⟩
  · have hver : S.verify k hashed sig = .err .inputNotHashed := by
      push Not at hlen
      obtain ⟨l, hl, hne⟩ := hlen
      unfold pkcs1v15.Pkcs1v15Sign.verify pkcs1v15.Pkcs1v15Sign.checkHashLen
      rw [hl]
      simp [hne]
    rw [hver]
    exact ⟨⟨fun h => (by cases h), fun h => absurd h.1 hlen⟩, Or.inr (Or.inr rfl)⟩

/-- C10 for the typed key and an already parsed signature. -/
theorem C10_typed_verify_exact {D : HashFn} (vk : pkcs1v15.VerifyingKey D) (hk : vk.inner.Coherent) (msg : Bytes)
    (sg : pkcs1v15.Signature) :
    (vk.verify msg sg = .ok () ↔ sg.inner.val < vk.inner.n.val ∧ sg.inner.nlimbs = vk.inner.n.nlimbs ∧
      ∃ em, Spec.emsaPkcs1v15 (vk.pfx ++ D.hash msg) (Spec.octetLen vk.inner.n.val) = some em ∧
        Spec.i2osp (sg.inner.val ^ vk.inner.e.val % vk.inner.n.val) (Spec.octetLen vk.inner.n.val) = some em) ∧
    (vk.verify msg sg = .ok () ∨ vk.verify msg sg = .err .verification) := by
  have hn := coherent_pos hk
  unfold pkcs1v15.VerifyingKey.verify
  rw [pkcs1v15.verify_eq _ hk, ← size_eq_octetLen, i2osp_eq _ _ (mod_lt_pow_size _ hn _)]
  split
  · next h => exact ⟨⟨fun _ => ⟨h.1, h.2.1, _, h.2.2, rfl⟩, fun _ => rfl⟩, Or.inl rfl⟩
  · next h =>
    refine ⟨⟨fun h' => (by cases h'), ?_⟩, Or.inr rfl⟩
    rintro ⟨h1, h2, em, h3, h4⟩
    exact absurd ⟨h1, h2, h3.trans h4.symm⟩ h

/-- The accepting side is inhabited. -/
example : pkcs1v15.Pkcs1v15Sign.newUnprefixed.verify Ex.key.pub [1, 2, 3]
    [209, 168, 54, 190, 224, 67, 39, 138, 167, 205, 225, 75, 195, 246, 62, 183, 107, 240, 150, 31, 31, 92, 73, 125, 246,
    61, 244] = .ok () := by decide +kernel

/-! ### C11 -/

/-- C11: two strings accepted for the same digest and prefix under the public half of a well-formed key represent the
same integer. -/
theorem C11_signature_unique {k : PrivateKey} (hk : Spec.WellFormed k) (S : pkcs1v15.Pkcs1v15Sign)
    (hashed sig1 sig2 : Bytes) (l1 : sig1.length < 2 ^ 29) (l2 : sig2.length < 2 ^ 29)
    (h1 : S.verify k.pub hashed sig1 = .ok ()) (h2 : S.verify k.pub hashed sig2 = .ok ()) :
    Spec.os2ip sig1 = Spec.os2ip sig2 := by
  have hco : k.pub.Coherent := hk.coherent
  have hn := coherent_pos hco
  obtain ⟨_, a1, _, em1, b1, c1⟩ := (C10_verify_exact k.pub hco S hashed sig1 l1).1.mp h1
  obtain ⟨_, a2, _, em2, b2, c2⟩ := (C10_verify_exact k.pub hco S hashed sig2 l2).1.mp h2
  have he : em1 = em2 := Option.some.inj (b1.symm.trans b2)
  subst he
  apply wf_inj hk a1 a2
  rw [← size_eq_octetLen, i2osp_eq _ _ (mod_lt_pow_size _ hn _)] at c1 c2
  have := Option.some.inj (c1.trans c2.symm)
  have h3 := congrArg beVal this
  rwa [beVal_beBytes, beVal_beBytes, Nat.mod_eq_of_lt (mod_lt_pow_size _ hn _),
    Nat.mod_eq_of_lt (mod_lt_pow_size _ hn _)] at h3

/-- Two different accepted strings (see C12) of the same integer. -/
example : Spec.WellFormed Ex.key ∧ ∃ s1 s2 : Bytes, s1 ≠ s2 ∧
    pkcs1v15.Pkcs1v15Sign.newUnprefixed.verify Ex.key.pub [1, 2, 3] s1 = .ok () ∧
    pkcs1v15.Pkcs1v15Sign.newUnprefixed.verify Ex.key.pub [1, 2, 3] s2 = .ok () :=
  ⟨Ex.key_wf, [209, 168, 54, 190, 224, 67, 39, 138, 167, 205, 225, 75, 195, 246, 62, 183, 107, 240, 150, 31, 31, 92, 73,
    125, 246, 61, 244], [0, 209, 168, 54, 190, 224, 67, 39, 138, 167, 205, 225, 75, 195, 246, 62, 183, 107, 240, 150, 31,
    31, 92, 73, 125, 246, 61, 244], by decide, by decide +kernel, by decide +kernel⟩

/-! ### C12 -/

/-- C12 does not hold: a 28-byte string is accepted as a signature under a key whose modulus has 27 bytes. -/
theorem C12_wrong_length_accepted : ∃ (k : PublicKey) (S : pkcs1v15.Pkcs1v15Sign) (hashed sig : Bytes), k.Coherent ∧
    sig.length ≠ Spec.octetLen k.n.val ∧ S.verify k hashed sig = .ok () :=
  ⟨Ex.key.pub, pkcs1v15.Pkcs1v15Sign.newUnprefixed, [1, 2, 3],
    [0, 209, 168, 54, 190, 224, 67, 39, 138, 167, 205, 225, 75, 195, 246, 62, 183, 107, 240, 150, 31, 31, 92, 73, 125,
    246, 61, 244], rfl, by decide +kernel, by decide +kernel⟩

/-- ... in general: prepending zero bytes to an accepted signature keeps it accepted as long as the number of 64-bit
limbs stays the same. -/
theorem C12_zero_prefix_accepted (k : PublicKey) (hk : k.Coherent) (S : pkcs1v15.Pkcs1v15Sign) (hashed sig : Bytes)
    (z : Nat) (h29 : sig.length + z < 2 ^ 29) (hsame : max 1 ((sig.length + z + 7) / 8) = max 1 ((sig.length + 7) / 8))
    (h : S.verify k hashed sig = .ok ()) : S.verify k hashed (List.replicate z 0 ++ sig) = .ok () := by
  have hl : (List.replicate z (0 : UInt8) ++ sig).length = sig.length + z := by simp; omega
  have h1 := (C10_verify_exact k hk S hashed sig (by omega)).1.mp h
  apply (C10_verify_exact k hk S hashed _ (by omega)).1.mpr
  rw [hl, hsame]
  rwa [← beVal_eq_os2ip, beVal_zeros_append, beVal_eq_os2ip]

example : max 1 ((27 + 5 + 7) / 8) = max 1 ((27 + 7) / 8) := rfl

/-- C12 (full statement: every string whose length differs from `k` is rejected). Proved: a string needing a different
number of 64-bit limbs than the modulus is stored in is rejected; hence, for moduli without spare limbs, every string
at least 8 bytes longer or shorter than `k`, and every other length when `k` is a multiple of 8 except the seven lengths
`k-7 .. k-1`. Missing: lengths with the same limb count, where it is false (`C12_wrong_length_accepted`). -/
theorem C12_wrong_length_rejected_partial (k : PublicKey) (hk : k.Coherent) (S : pkcs1v15.Pkcs1v15Sign)
    (hashed sig : Bytes) (h29 : sig.length < 2 ^ 29) (hl : max 1 ((sig.length + 7) / 8) ≠ k.n.nlimbs) :
    S.verify k hashed sig = .err .verification ∨ S.verify k hashed sig = .err .inputNotHashed := by
  obtain ⟨h1, h2⟩ := C10_verify_exact k hk S hashed sig h29
  rcases h2 with h2 | h2
  · exact absurd (h1.mp h2).2.2.1 hl
  · exact h2

example : max 1 (((List.replicate 33 (7 : UInt8)).length + 7) / 8) ≠ Ex.key.pub.n.nlimbs := by decide

/-! ### C13 -/

theorem derLen_short {n : Nat} (h : n < 128) : Spec.derLen n = [UInt8.ofNat n] := by simp [Spec.derLen, h]

/-- C13: when the whole `DigestInfo` fits short-form DER lengths (`|oid| + |digest| + 8 < 128`), the generated prefix
followed by the digest is exactly its DER encoding. -/
theorem C13_digest_info (oid digest : Bytes) (h : oid.length + digest.length + 8 < 128) :
    ∃ pfx, pkcs1v15GeneratePrefix oid digest.length = .ok pfx ∧ pfx ++ digest = Spec.digestInfo oid digest := by
  have e1 : (UInt8.ofNat oid.length).toNat = oid.length := by simp; omega
  have e2 : (UInt8.ofNat digest.length).toNat = digest.length := by simp; omega
  have a1 : addU8 (UInt8.ofNat oid.length) 8 = .ok (UInt8.ofNat (oid.length + 8)) := by
    unfold addU8
    rw [e1, if_pos (by show oid.length + 8 < 256; omega)]
    congr 1
    apply UInt8.toNat_inj.mp
    simp [UInt8.toNat_add]
  have a2 : addU8 (UInt8.ofNat (oid.length + 8)) (UInt8.ofNat digest.length)
      = .ok (UInt8.ofNat (oid.length + 8 + digest.length)) := by
    unfold addU8
    have : (UInt8.ofNat (oid.length + 8)).toNat = oid.length + 8 := by simp; omega
    rw [e2, this, if_pos (by omega)]
    congr 1
    apply UInt8.toNat_inj.mp
    simp [UInt8.toNat_add]
  have a3 : addU8 (UInt8.ofNat oid.length) 4 = .ok (UInt8.ofNat (oid.length + 4)) := by
    unfold addU8
    rw [e1, if_pos (by show oid.length + 4 < 256; omega)]
    congr 1
    apply UInt8.toNat_inj.mp
    simp [UInt8.toNat_add]
  unfold pkcs1v15GeneratePrefix
  simp only [a1, a2, a3, Res.ok_bind]
  refine ⟨_, rfl, ?_⟩
  unfold Spec.digestInfo Spec.der
  simp only [List.length_nil, derLen_short (show 0 < 128 by omega), derLen_short (show oid.length < 128 by omega),
    derLen_short (show digest.length < 128 by omega)]
  have l1 : ((0x06 : UInt8) :: ([UInt8.ofNat oid.length] ++ oid) ++ 0x05 :: ([UInt8.ofNat 0] ++ [])).length
      = oid.length + 4 := by simp
  rw [l1, derLen_short (show oid.length + 4 < 128 by omega)]
  have l2 : ((0x30 : UInt8) :: ([UInt8.ofNat (oid.length + 4)] ++
      ((0x06 : UInt8) :: ([UInt8.ofNat oid.length] ++ oid) ++ 0x05 :: ([UInt8.ofNat 0] ++ []))) ++
      0x04 :: ([UInt8.ofNat digest.length] ++ digest)).length = oid.length + 8 + digest.length := by simp; omega
  rw [l2, derLen_short (show oid.length + 8 + digest.length < 128 by omega)]
  simp

/-- C13, the other direction: beyond short-form lengths the function never produces the DER encoding. -/
theorem C13_digest_info_only (oid digest pfx : Bytes) (h : pkcs1v15GeneratePrefix oid digest.length = .ok pfx)
    (hd : pfx ++ digest = Spec.digestInfo oid digest) : oid.length + digest.length + 8 < 128 := by
  by_contra hc
  unfold pkcs1v15GeneratePrefix at h
  simp only at h
  rw [Res.bind_eq_ok] at h
  obtain ⟨a, ha, h⟩ := h
  rw [Res.bind_eq_ok] at h
  obtain ⟨b, hb, h⟩ := h
  rw [Res.bind_eq_ok] at h
  obtain ⟨c, hc', h⟩ := h
  obtain rfl := Res.ok.inj h
  -- lengths: the produced string is too short once any length needs more than one octet
  have hlen := congrArg List.length hd
  have dl : ∀ n, 1 ≤ (Spec.derLen n).length ∧ (128 ≤ n → 2 ≤ (Spec.derLen n).length) := by
    intro n
    unfold Spec.derLen
    split
    · simp; omega
    · next hn =>
      have : 1 ≤ (Spec.natOctets n).length := by
        rw [Spec.natOctets]
        split
        · omega
        · simp
      simp; omega
  unfold Spec.digestInfo at hlen
  have d5 : (Spec.der 5 []).length = 2 := rfl
  have dlen : ∀ (t : UInt8) (x : Bytes), (Spec.der t x).length = 1 + (Spec.derLen x.length).length + x.length := by
    intro t x; simp [Spec.der]; omega
  have h1 := dlen 6 oid
  have h2 := dlen 4 digest
  have h3 := dlen 0x30 (Spec.der 6 oid ++ Spec.der 5 [])
  have h4 := dlen 0x30 (Spec.der 0x30 (Spec.der 6 oid ++ Spec.der 5 []) ++ Spec.der 4 digest)
  rw [h4] at hlen
  simp only [List.length_append, List.length_cons, List.length_nil, d5] at hlen h3
  have k1 := (dl oid.length).1
  have k2 := (dl digest.length).1
  have k3 := (dl ((Spec.der 6 oid).length + 2)).1
  have k4 := dl ((Spec.der 0x30 (Spec.der 6 oid ++ Spec.der 5 [])).length + (Spec.der 4 digest).length)
  have k5 := k4.1
  have k6 := k4.2 (by omega)
  omega

/-- SHA-256: OID 2.16.840.1.101.3.4.2.1 and 32-byte digests give the well-known 19-byte prefix. -/
example : pkcs1v15GeneratePrefix [0x60, 0x86, 0x48, 0x01, 0x65, 0x03, 0x04, 0x02, 0x01] 32 =
    .ok [0x30, 0x31, 0x30, 0x0d, 0x06, 0x09, 0x60, 0x86, 0x48, 0x01, 0x65, 0x03, 0x04, 0x02, 0x01, 0x05, 0x00, 0x04, 0x20] := by
  decide +kernel
example : ([0x60, 0x86, 0x48, 0x01, 0x65, 0x03, 0x04, 0x02, 0x01] : Bytes).length + 64 + 8 < 128 := by decide

example := C09_signature_round_trip Ex.key_wf (by decide +kernel) (by decide) ⟨some 3, [9, 9]⟩ [1, 2, 3]
  (fun l h => by cases h; rfl) (by decide +kernel)

end RSA
