import Verif.Proof.TraceOps
import Verif.Props.LeakOps

/-
C82: the exact sequence of observations made by the private-key routines, by masking and by encoding, as functions of public
sizes and of what the caller learns. `Verif/Spec/Trace.lean` writes the sequences out.
-/
namespace RSA
open BoxedUint

/-- C82: checking PKCS#1 v1.5 padding reads every octet of the block exactly once, in order, makes no decision until the
verdict, and then cuts the message off the end. -/
theorem C82_pkcs1v15_padding (em : Bytes) (hk : 11 ≤ em.length) :
    (leak.pkcs1v15EncryptUnpad em em.length).ev =
      Spec.pkcs1v15UnpadTrace em.length (pkcs1v15EncryptUnpad em em.length) :=
  leak.pkcs1v15EncryptUnpad_ev hk

/-- A block of 12 octets: a test of its length, 12 reads, the verdict. -/
example :
    let bad : Bytes := [0, 2, 9, 9, 9, 9, 9, 9, 9, 0, 0, 5]
    let good : Bytes := [0, 2, 9, 9, 9, 9, 9, 9, 9, 9, 0, 5]
    (leak.pkcs1v15EncryptUnpad bad 12).ev =
      [.branch false, .read 12 0, .read 12 1, .read 12 2, .read 12 3, .read 12 4, .read 12 5, .read 12 6, .read 12 7,
        .read 12 8, .read 12 9, .read 12 10, .read 12 11, .branch true] ∧
    Spec.pkcs1v15UnpadTrace 12 (.ok [5]) =
      [.branch false, .read 12 0, .read 12 1, .read 12 2, .read 12 3, .read 12 4, .read 12 5, .read 12 6, .read 12 7,
        .read 12 8, .read 12 9, .read 12 10, .read 12 11, .branch false, .range 12 11 12] ∧
    pkcs1v15EncryptUnpad good 12 = .ok [5] ∧ pkcs1v15EncryptUnpad bad 12 = .err .decryption := by decide +kernel

/-- C82: MGF1 on a buffer of at most 2^32 octets, in both implementations: the number of blocks, what is hashed for each and
how the counter is stepped depend on lengths only, neither on the seed nor on the buffer. -/
theorem C82_mgf1 (out seed : Bytes) (dg : DigestState) (hpos : 0 < dg.fn.outLen) (hl : out.length ≤ 2 ^ 32) :
    (leak.mgf1Xor out dg seed).ev = Spec.mgfTrace (Spec.hashing seed.length dg.buf.length) dg.fn.outLen out.length ∧
    (leak.mgf1XorDigest out dg seed).ev =
      Spec.mgfTrace (Spec.hashingDigest seed.length dg.buf.length) dg.fn.outLen out.length :=
  ⟨(leak.mgf1Xor_run hpos hl).ev, (leak.mgf1XorDigest_run hpos hl).ev⟩

/-- Six octets masked with a hash of four: two blocks. -/
example : (leak.mgf1XorDigest [1, 2, 3, 4, 5, 6] (DigestState.new Ex.hash4) [7, 8, 9]).ev =
    [.branch true,
      .branch true, .absorb 3, .absorb 4, .finalize 7,
        .branch false, .read 4 0, .write 6 0, .branch false, .read 4 1, .write 6 1, .branch false, .read 4 2, .write 6 2,
        .branch false, .read 4 3, .write 6 3, .branch true, .branch true,
      .branch true, .absorb 3, .absorb 4, .finalize 7,
        .branch false, .read 4 0, .write 6 4, .branch false, .read 4 1, .write 6 5, .branch true, .branch true,
      .branch false] ∧
    (leak.incCounter ⟨0, 0, 0, 255⟩).ev = [.branch false, .branch true] ∧
    (leak.incCounter ⟨0, 0, 0, 255⟩).ev = Spec.counterTrace 255 := by decide +kernel

/-- C82: checking OAEP padding unmasks seed and data block completely, compares the whole label hash, reads every octet after
it once, in order, and makes no decision until the verdict; in both implementations. -/
theorem C82_oaep_padding (em : Bytes) (label : Option Bytes) (hk : 11 ≤ em.length) (hl : em.length ≤ 2 ^ 32)
    (hlab : (label.getD []).length < 2 ^ 61) :
    (∀ dg mg : DigestState, 0 < dg.fn.outLen → 0 < mg.fn.outLen → 2 * dg.fn.outLen + 2 ≤ em.length →
      (leak.oaepDecrypt em dg mg label em.length).ev =
        Spec.oaepUnpadTrace [.absorb (label.getD []).length, .finalize (dg.buf.length + (label.getD []).length)]
          (Spec.oaepMaskTrace dg.fn.outLen mg.fn.outLen em.length mg.buf.length) dg.fn.outLen em.length
          (oaepDecrypt em dg mg label em.length)) ∧
    (∀ D MGD : HashFn, 0 < D.outLen → 0 < MGD.outLen → 2 * D.outLen + 2 ≤ em.length →
      (leak.oaepDecryptDigest em D MGD label em.length).ev =
        Spec.oaepUnpadTrace [.absorb (label.getD []).length] (Spec.oaepMaskTraceDigest D.outLen MGD.outLen em.length)
          D.outLen em.length (oaepDecryptDigest em D MGD label em.length)) :=
  ⟨fun _ _ hp hp' hk' => leak.oaepDecrypt_ev hk hk' hl hlab hp hp',
    fun _ _ hp hp' hk' => leak.oaepDecryptDigest_ev hk hk' hl hlab hp hp'⟩

/-- A block of 12 octets with a one-octet hash, rejected. -/
example :
    let em : Bytes := [0, 9, 1, 2, 3, 4, 5, 6, 7, 8, 9, 1]
    oaepDecryptDigest em Ex.hash1 Ex.hash1 none 12 = .err .decryption ∧
    Ex.hash1.outLen = 1 ∧
    (leak.oaepDecryptDigest em Ex.hash1 Ex.hash1 none 12).ev =
      [.branch false, .absorb 0, .branch false, .branch false, .read 12 0, .range 12 0 1, .range 11 0 1] ++
      Spec.oaepMaskTraceDigest 1 1 12 ++
      [.range 10 0 1, .compare 1 1, .read 10 1, .read 10 2, .read 10 3, .read 10 4, .read 10 5, .read 10 6, .read 10 7,
        .read 10 8, .read 10 9, .alloc 12, .branch true] := by decide +kernel

/-- C82: the conversion to octets shows the number of octets of the integer, and nothing else about it. -/
theorem C82_conversion (x : BoxedUint) (k : Nat) (h : x.val < 256 ^ k) :
    (leak.uintToZeroizingBePad x k).ev = Spec.toOctetsTrace x.nlimbs (Spec.octetLen x.val) k :=
  leak.uintToZeroizingBePad_ev x k h

example : (leak.uintToZeroizingBePad (wrap 2 0xabcdef) 5).ev =
    [.opaque "leading_zeros", .alloc 16, .range 16 13 16, .branch false, .alloc 5, .branch true, .range 5 2 5, .copy 3] ∧
    (leak.uintToZeroizingBePad (wrap 2 0xabcdef) 5).res = .ok [0, 0, 0xab, 0xcd, 0xef] := by decide +kernel

/-- C82: whenever the private operation returns a result, under any key whose parts fit together, its observations are
exactly those written out: bignum operations whose sizes are the storage sizes of the key, and how the blinding draws turned
out. -/
theorem C82_private_operation {σ : Type} (R : RngImpl σ) (fuel : Nat) {k : PrivateKey} (hk : Spec.Sized k)
    (hn : 1 < k.pub.n.val) (rng : Option σ) (c : BoxedUint) (hc : c.nlimbs = k.pub.n.nlimbs) {r : BoxedUint × Option σ}
    (h : rsaDecryptAndCheck R fuel k rng c = .ok r) :
    (leak.rsaDecryptAndCheck R fuel k rng c).ev = Spec.privateTrace R fuel k.pub.n.val (Spec.sizes k) rng :=
  (leak.rsaDecryptAndCheck_tr' R fuel hk hn rng hc r (by rw [leak.rsaDecryptAndCheck_res]; exact h)).1

/-- With and without blinding, with and without the cached values, and with three primes. -/
example :
    let run := fun (k : PrivateKey) (s : Option Nat) => leak.rsaDecryptAndCheck Ex.countingRng 3 k s (wrap k.pub.n.nlimbs 77)
    (run Ex.key none).ev =
      [.bignum "cmp" [4, 4], .branch false, .branch false, .bignum "widen" [4, 256], .branch true, .branch false,
        .read 2 0, .read 2 1, .bignum "BoxedMontyForm::new" [4, 4], .bignum "pow" [4, 4],
        .bignum "BoxedMontyForm::new" [4, 4], .bignum "pow" [4, 4], .bignum "BoxedMontyForm::new" [4, 4],
        .bignum "BoxedMontyForm::sub" [4, 4], .bignum "BoxedMontyForm::mul" [4, 4], .bignum "wrapping_mul" [4, 2],
        .bignum "wrapping_add" [4, 4], .bignum "shorten" [4, 256],
        .branch false, .branch true, .bignum "rem_vartime" [4, 4], .bignum "widen" [4, 256],
        .bignum "BoxedMontyForm::new" [4, 4], .bignum "pow" [4, 1], .bignum "eq" [4, 4], .branch false] ∧
    (run Ex.key (some 0)).ev = Spec.privateTrace Ex.countingRng 3 Ex.key.pub.n.val (Spec.sizes Ex.key) (some 0) ∧
    (run Ex.key3 (some 5)).ev = Spec.privateTrace Ex.countingRng 3 Ex.key3.pub.n.val (Spec.sizes Ex.key3) (some 5) ∧
    (run Ex.keyNoCrt none).ev = Spec.privateTrace Ex.countingRng 3 Ex.keyNoCrt.pub.n.val (Spec.sizes Ex.keyNoCrt) none ∧
    (run Ex.key none).ev ≠ (run Ex.keyNoCrt none).ev ∧ (run Ex.key (some 0)).ev ≠ (run Ex.key (some 5)).ev := by
  decide +kernel

/-! ### Whole operations -/

/-- C82: PKCS#1 v1.5 decryption under a well-formed key with usable blinding, accepted or rejected: the private operation,
the conversion of the decrypted integer, the removal of the padding. -/
theorem C82_pkcs1v15_decrypt {σ : Type} (R : RngImpl σ) (fuel : Nat) (rng : Option σ) {k : PrivateKey}
    (hk : Spec.WellFormed k) (hc : checkPublic k.pub = .ok ()) (hb : Spec.BlindingOk R k.pub.n.val fuel rng)
    (hs : 11 ≤ Spec.octetLen k.pub.n.val) (ct : Bytes) (hl : ct.length ≤ 8 * k.pub.n.nlimbs)
    (hv : Spec.os2ip ct < k.pub.n.val) :
    (leak.pkcs1v15Decrypt R fuel rng k ct).ev =
      Spec.privateTrace R fuel k.pub.n.val (Spec.sizes k) rng ++
      Spec.toOctetsTrace k.pub.n.nlimbs (Spec.octetLen (Spec.os2ip ct ^ k.d.val % k.pub.n.val)) (Spec.octetLen k.pub.n.val) ++
      Spec.pkcs1v15UnpadTrace (Spec.octetLen k.pub.n.val) (pkcs1v15.decrypt R fuel rng k ct) := by
  rw [← size_eq_octetLen] at hs ⊢
  rw [← beVal_eq_os2ip] at hv ⊢
  rw [pkcs1v15.decrypt_lt R fuel rng hk hc ct hl hv hb]
  unfold leak.pkcs1v15Decrypt
  rw [hc, Leak.ofRes_ok_bind]
  have := leak.decrypt_ev R fuel rng hk hb ct hl hv (fun em => leak.pkcs1v15EncryptUnpad em k.pub.size)
  rw [show _ = _ from this]
  simp only
  have h := leak.pkcs1v15EncryptUnpad_ev (em := beBytes k.pub.size (beVal ct ^ k.d.val % k.pub.n.val)) (by simpa using hs)
  simp only [beBytes_length] at h
  rw [h]

/-- C82: OAEP decryption likewise, in both implementations. -/
theorem C82_oaep_decrypt {σ : Type} (R : RngImpl σ) (fuel : Nat) (rng : Option σ) {k : PrivateKey}
    (hk : Spec.WellFormed k) (hb : Spec.BlindingOk R k.pub.n.val fuel rng) (hs : 11 ≤ Spec.octetLen k.pub.n.val)
    (hs' : Spec.octetLen k.pub.n.val ≤ 2 ^ 32) (label : Option Bytes) (hlab : (label.getD []).length < 2 ^ 61)
    (ct : Bytes) (hl : ct.length = Spec.octetLen k.pub.n.val) (hv : Spec.os2ip ct < k.pub.n.val) :
    (∀ dg mg : DigestState, 0 < dg.fn.outLen → 0 < mg.fn.outLen → 2 * dg.fn.outLen + 2 ≤ Spec.octetLen k.pub.n.val →
      (leak.oaepSchemeDecrypt R fuel rng k ct dg mg label).ev =
      Spec.privateTrace R fuel k.pub.n.val (Spec.sizes k) rng ++
      Spec.toOctetsTrace k.pub.n.nlimbs (Spec.octetLen (Spec.os2ip ct ^ k.d.val % k.pub.n.val)) (Spec.octetLen k.pub.n.val) ++
      Spec.oaepUnpadTrace [.absorb (label.getD []).length, .finalize (dg.buf.length + (label.getD []).length)]
        (Spec.oaepMaskTrace dg.fn.outLen mg.fn.outLen (Spec.octetLen k.pub.n.val) mg.buf.length) dg.fn.outLen
        (Spec.octetLen k.pub.n.val) (oaep.decrypt R fuel rng k ct dg mg label)) ∧
    (checkPublic k.pub = .ok () → ∀ D MGD : HashFn, 0 < D.outLen → 0 < MGD.outLen →
      2 * D.outLen + 2 ≤ Spec.octetLen k.pub.n.val →
      (leak.oaepSchemeDecryptDigest R fuel D MGD rng k ct label).ev =
      Spec.privateTrace R fuel k.pub.n.val (Spec.sizes k) rng ++
      Spec.toOctetsTrace k.pub.n.nlimbs (Spec.octetLen (Spec.os2ip ct ^ k.d.val % k.pub.n.val)) (Spec.octetLen k.pub.n.val) ++
      Spec.oaepUnpadTrace [.absorb (label.getD []).length]
        (Spec.oaepMaskTraceDigest D.outLen MGD.outLen (Spec.octetLen k.pub.n.val)) D.outLen
        (Spec.octetLen k.pub.n.val) (oaep.decryptDigest R fuel D MGD rng k ct label)) := by
  rw [← size_eq_octetLen] at hs hs' hl ⊢
  rw [← beVal_eq_os2ip] at hv ⊢
  have hle : ct.length ≤ 8 * k.pub.n.nlimbs := by rw [hl]; exact size_le_bytes _
  have hem : (beBytes k.pub.size (beVal ct ^ k.d.val % k.pub.n.val)).length = k.pub.size := by simp
  constructor
  · intro dg mg hp hp' hk'
    rw [← leak.oaepSchemeDecrypt_res]
    unfold leak.oaepSchemeDecrypt
    rw [if_neg (by simp [hl])]
    have := leak.decrypt_ev R fuel rng hk hb ct hle hv (fun em => leak.oaepDecrypt em dg mg label k.pub.size)
    rw [show _ = _ from this]
    simp only
    have h := leak.oaepDecrypt_ev (em := beBytes k.pub.size (beVal ct ^ k.d.val % k.pub.n.val)) (dg := dg) (mg := mg)
      (label := label) (by omega) (by omega) (by omega) hlab hp hp'
    simp only [hem] at h
    rw [h, leak.oaepDecrypt_res]
  · intro hc D MGD hp hp' hk'
    rw [← leak.oaepSchemeDecryptDigest_res]
    unfold leak.oaepSchemeDecryptDigest
    rw [hc, Leak.ofRes_ok_bind, if_neg (by simp [hl])]
    have := leak.decrypt_ev R fuel rng hk hb ct hle hv (fun em => leak.oaepDecryptDigest em D MGD label k.pub.size)
    rw [show _ = _ from this]
    simp only
    have h := leak.oaepDecryptDigest_ev (em := beBytes k.pub.size (beVal ct ^ k.d.val % k.pub.n.val)) (D := D) (MGD := MGD)
      (label := label) (by omega) (by omega) (by omega) hlab hp hp'
    simp only [hem] at h
    rw [h, leak.oaepDecryptDigest_res]

/-- The hypotheses hold for the example key. -/
example : Spec.WellFormed Ex.key ∧ checkPublic Ex.key.pub = .ok () ∧
    Spec.BlindingOk Ex.countingRng Ex.key.pub.n.val 3 (some 5) ∧ Spec.octetLen Ex.key.pub.n.val = 27 ∧
    (let enc := match pkcs1v15.encrypt Ex.countingRng 5 7 Ex.key.pub [1, 2, 3] with | .ok (c, _) => c | _ => []
     enc.length = 27 ∧ Spec.os2ip enc < Ex.key.pub.n.val ∧
     (leak.pkcs1v15Decrypt Ex.countingRng 3 (some 5) Ex.key enc).ev =
      Spec.privateTrace Ex.countingRng 3 Ex.key.pub.n.val (Spec.sizes Ex.key) (some 5) ++ Spec.toOctetsTrace 4 26 27 ++
        Spec.pkcs1v15UnpadTrace 27 (.ok [1, 2, 3])) := by
  exact ⟨Ex.key_wf, by decide +kernel, ⟨6, 1, .good 5 5 (by decide) (Or.inr (by decide)), by decide⟩, by decide +kernel,
    by decide +kernel⟩

private theorem bind_ok_ev {α β : Type} {x : Leak α} {f : α → Leak β} {b : β} (h : (x >>= f).res = .ok b) :
    ∃ a, x.res = .ok a ∧ (f a).res = .ok b ∧ (x >>= f).ev = x.ev ++ (f a).ev := by
  rw [Leak.res_bind] at h
  obtain ⟨a, ha, h⟩ := Res.bind_eq_ok.mp h
  exact ⟨a, ha, h, Leak.ev_bind_ok ha f⟩

/-- C82: every PKCS#1 v1.5 signature is made by the same observations, given the lengths of prefix and digest, the storage
sizes of the key, the blinding draws and the number of leading zero octets of the signature. -/
theorem C82_pkcs1v15_sign {σ : Type} (R : RngImpl σ) (fuel : Nat) (rng : Option σ) {k : PrivateKey} (hk : Spec.Sized k)
    (hn : 1 < k.pub.n.val) (pfx hashed sig : Bytes) (h : pkcs1v15.sign R fuel rng k pfx hashed = .ok sig) :
    (leak.pkcs1v15Sign R fuel rng k pfx hashed).ev =
      Spec.pkcs1v15SignPadTrace pfx.length hashed.length (Spec.octetLen k.pub.n.val) ++
      .bignum "from_be_slice" [Spec.octetLen k.pub.n.val, 64 * k.pub.n.nlimbs] ::
      (Spec.privateTrace R fuel k.pub.n.val (Spec.sizes k) rng ++
        Spec.toOctetsTrace k.pub.n.nlimbs (Spec.octetLen (Spec.os2ip sig)) (Spec.octetLen k.pub.n.val)) := by
  rw [← size_eq_octetLen]
  rw [← leak.pkcs1v15Sign_res] at h
  unfold leak.pkcs1v15Sign at h ⊢
  obtain ⟨em, he, h, hev⟩ := bind_ok_ev h
  rw [hev]
  obtain ⟨e1, hl⟩ := leak.pkcs1v15SignPad_tr pfx hashed k.pub.size em he
  have := leak.private_tr R fuel hk hn rng em h
  rw [e1, show _ = _ from this, hl]

/-- C82: the same for PSS signatures with a given salt, in both implementations. -/
theorem C82_pss_sign_with_salt {σ : Type} (R : RngImpl σ) (fuel : Nat) (rng : Option σ) {k : PrivateKey} (hk : Spec.Sized k)
    (hn : 1 < k.pub.n.val) (hashed salt sig : Bytes) :
    (∀ dg : DigestState, 0 < dg.fn.outLen → pss.signPssWithSalt R fuel rng k hashed salt dg = .ok sig →
      (leak.signPssWithSalt R fuel rng k hashed salt dg).ev =
        let len := (k.pub.n.val.size - 1 + 7) / 8
        Spec.pssPadTrace (Spec.mgfTrace (Spec.hashing dg.fn.outLen 0) dg.fn.outLen (len - dg.fn.outLen - 1)) dg.fn.outLen
          salt.length len dg.buf.length ++
        .bignum "from_be_slice" [len, 64 * k.pub.n.nlimbs] ::
        (Spec.privateTrace R fuel k.pub.n.val (Spec.sizes k) rng ++
          Spec.toOctetsTrace k.pub.n.nlimbs (Spec.octetLen (Spec.os2ip sig)) (Spec.octetLen k.pub.n.val))) ∧
    (∀ D : HashFn, 0 < D.outLen → pss.signPssWithSaltDigest R fuel D rng k hashed salt = .ok sig →
      (leak.signPssWithSaltDigest R fuel D rng k hashed salt).ev =
        let len := (k.pub.n.val.size - 1 + 7) / 8
        Spec.pssPadTrace (Spec.mgfTrace (Spec.hashingDigest D.outLen 0) D.outLen (len - D.outLen - 1)) D.outLen
          salt.length len 0 ++
        .bignum "from_be_slice" [len, 64 * k.pub.n.nlimbs] ::
        (Spec.privateTrace R fuel k.pub.n.val (Spec.sizes k) rng ++
          Spec.toOctetsTrace k.pub.n.nlimbs (Spec.octetLen (Spec.os2ip sig)) (Spec.octetLen k.pub.n.val))) := by
  rw [← size_eq_octetLen, ← bits_eq_size]
  have hbp := RSA.bits_pos (k := k.pub) (by omega)
  constructor
  · intro dg hpos h
    rw [← leak.signPssWithSalt_res] at h
    unfold leak.signPssWithSalt at h ⊢
    rw [subU_of_le (by omega), Leak.ofRes_ok_bind] at h ⊢
    obtain ⟨em, he, h, hev⟩ := bind_ok_ev h
    rw [hev]
    obtain ⟨e1, hl⟩ := leak.emsaPssEncode_tr hashed (k.pub.n.bits - 1) salt dg hpos em he
    have := leak.private_tr R fuel hk hn rng em h
    rw [e1, show _ = _ from this, hl]
    rfl
  · intro D hpos h
    rw [← leak.signPssWithSaltDigest_res] at h
    unfold leak.signPssWithSaltDigest at h ⊢
    rw [subU_of_le (by omega), Leak.ofRes_ok_bind] at h ⊢
    obtain ⟨em, he, h, hev⟩ := bind_ok_ev h
    rw [hev]
    obtain ⟨e1, hl⟩ := leak.emsaPssEncodeDigest_tr hashed (k.pub.n.bits - 1) salt D hpos em he
    have := leak.private_tr R fuel hk hn rng em h
    rw [e1, show _ = _ from this, hl]
    rfl

/-- C82: PSS signing with a salt from the generator is one request for the salt, the choice whether to blind, and then
signing with that salt. -/
theorem C82_pss_sign {σ : Type} (R : RngImpl σ) (fuel : Nat) (s t : σ) (blind : Bool) (k : PrivateKey)
    (hashed salt : Bytes) (n : Nat) (hf : R.fill s n = (some salt, t)) :
    (∀ dg : DigestState, (leak.pssSign R fuel s blind k hashed n dg).ev = [.range n 0 n, .branch true, .branch blind] ++
      (leak.signPssWithSalt R fuel (if blind then some t else none) k hashed salt dg).ev) ∧
    (∀ D : HashFn, (leak.pssSignDigest R fuel D s blind k hashed n).ev = [.range n 0 n, .branch true, .branch blind] ++
      (leak.signPssWithSaltDigest R fuel D (if blind then some t else none) k hashed salt).ev) := by
  have hfill : leak.tryFill R s n = ⟨[.range n 0 n, .branch true], .ok (salt, t)⟩ := by
    unfold leak.tryFill RngImpl.tryFill
    rw [hf]; rfl
  constructor
  · intro dg
    unfold leak.pssSign
    rw [hfill]
    cases blind <;> rfl
  · intro D
    unfold leak.pssSignDigest
    rw [hfill]
    cases blind <;> rfl

/-- C82: every PKCS#1 v1.5 encryption under any key whose parts fit together: one request for the padding, one more for each
octet of it that was zero, and the public operation. -/
theorem C82_pkcs1v15_encrypt {σ : Type} (R : RngImpl σ) (fuel : Nat) (s : σ) {k : PublicKey} (hk : k.Coherent)
    (msg : Bytes) {r : Bytes × σ} (h : pkcs1v15.encrypt R fuel s k msg = .ok r) :
    (leak.pkcs1v15Encrypt R fuel s k msg).ev =
      Spec.pkcs1v15EncryptPadTrace R fuel s msg.length (Spec.octetLen k.n.val) ++
      Spec.publicTrace k.n.nlimbs k.e.nlimbs (Spec.octetLen k.n.val) (Spec.octetLen (Spec.os2ip r.1)) (Spec.octetLen k.n.val) := by
  rw [← size_eq_octetLen]
  rw [← leak.pkcs1v15Encrypt_res] at h
  unfold leak.pkcs1v15Encrypt at h ⊢
  obtain ⟨_, -, h, hev⟩ := bind_ok_ev h
  rw [hev]
  obtain ⟨⟨em, t⟩, he, h, hev⟩ := bind_ok_ev h
  rw [show _ = _ from hev]
  obtain ⟨e1, hl⟩ := leak.pkcs1v15EncryptPad_tr R fuel s msg k.size _ he
  have := leak.public_tr hk (coherent_pos hk) em t h
  rw [e1, show _ = _ from this, show em.length = k.size from hl]
  rfl

/-- C82: every OAEP encryption, in both implementations. -/
theorem C82_oaep_encrypt {σ : Type} (R : RngImpl σ) (s : σ) {k : PublicKey} (hk : k.Coherent) (msg : Bytes)
    (label : Option Bytes) {r : Bytes × σ} :
    (∀ dg mg : DigestState, 0 < mg.fn.outLen → oaep.encrypt R s k msg dg mg label = .ok r →
      (leak.oaepSchemeEncrypt R s k msg dg mg label).ev =
      Spec.oaepPadTrace [.absorb (label.getD []).length, .finalize (dg.buf.length + (label.getD []).length)]
        (Spec.oaepPadMaskTrace dg.fn.outLen mg.fn.outLen (Spec.octetLen k.n.val) mg.buf.length) dg.fn.outLen msg.length
        (Spec.octetLen k.n.val) ++
      Spec.publicTrace k.n.nlimbs k.e.nlimbs (Spec.octetLen k.n.val) (Spec.octetLen (Spec.os2ip r.1)) (Spec.octetLen k.n.val)) ∧
    (∀ D MGD : HashFn, 0 < MGD.outLen → oaep.encryptDigest R D MGD s k msg label = .ok r →
      (leak.oaepSchemeEncryptDigest R D MGD s k msg label).ev =
      Spec.oaepPadTrace [.absorb (label.getD []).length]
        (Spec.oaepPadMaskTraceDigest D.outLen MGD.outLen (Spec.octetLen k.n.val)) D.outLen msg.length
        (Spec.octetLen k.n.val) ++
      Spec.publicTrace k.n.nlimbs k.e.nlimbs (Spec.octetLen k.n.val) (Spec.octetLen (Spec.os2ip r.1)) (Spec.octetLen k.n.val)) := by
  rw [← size_eq_octetLen]
  constructor
  · intro dg mg hpos h
    rw [← leak.oaepSchemeEncrypt_res] at h
    unfold leak.oaepSchemeEncrypt at h ⊢
    obtain ⟨_, -, h, hev⟩ := bind_ok_ev h
    rw [hev]
    obtain ⟨⟨em, t⟩, he, h, hev⟩ := bind_ok_ev h
    rw [show _ = _ from hev]
    obtain ⟨e1, hl⟩ := leak.oaepEncrypt_tr R s msg dg mg label k.size hpos _ he
    have := leak.public_tr hk (coherent_pos hk) em t h
    rw [e1, show _ = _ from this, show em.length = k.size from hl]
    rfl
  · intro D MGD hpos h
    rw [← leak.oaepSchemeEncryptDigest_res] at h
    unfold leak.oaepSchemeEncryptDigest at h ⊢
    obtain ⟨_, -, h, hev⟩ := bind_ok_ev h
    rw [hev]
    obtain ⟨⟨em, t⟩, he, h, hev⟩ := bind_ok_ev h
    rw [show _ = _ from hev]
    obtain ⟨e1, hl⟩ := leak.oaepEncryptDigest_tr R s msg D MGD label k.size hpos _ he
    have := leak.public_tr hk (coherent_pos hk) em t h
    rw [e1, show _ = _ from this, show em.length = k.size from hl]
    rfl

/-- The hypotheses are met: the example key signs and encrypts in every scheme; all drawn octets of the padding are zero
and are replaced. -/
example : Spec.Sized Ex.key ∧ 1 < Ex.key.pub.n.val ∧ Ex.key.pub.Coherent ∧
    (let sigs := [pkcs1v15.sign Ex.countingRng 3 (some 5) Ex.key [48] [1, 2, 3, 4],
      pss.signPssWithSalt Ex.countingRng 3 (some 5) Ex.key [1, 2, 3, 4] [7, 7] (DigestState.new Ex.hash4),
      pss.signPssWithSaltDigest Ex.countingRng 3 Ex.hash4 (some 5) Ex.key [1, 2, 3, 4] [7, 7]]
     sigs.all (fun r => match r with | .ok sig => sig.length == 27 | _ => false) = true) ∧
    (let encs := [pkcs1v15.encrypt Ex.countingRng 30 256 Ex.key.pub [1, 2, 3],
      oaep.encrypt Ex.countingRng 250 Ex.key.pub [1, 2, 3] (DigestState.new Ex.hash4) (DigestState.new Ex.tailHash) none,
      oaep.encryptDigest Ex.countingRng Ex.hash4 Ex.tailHash 250 Ex.key.pub [1, 2, 3] none]
     encs.all (fun r => match r with | .ok c => c.1.length == 27 | _ => false) = true) ∧
    (leak.pkcs1v15SignPad [48] [1, 2, 3, 4] 27).ev =
      [.branch false, .alloc 27, .write 27 0, .write 27 1, .branch true, .branch true, .write 27 21, .branch true,
        .range 27 22 23, .copy 1, .range 27 23 27, .copy 4] := by
  refine ⟨⟨rfl, by decide, by decide, ?_⟩, by decide +kernel, rfl, by decide +kernel, by decide +kernel, by decide +kernel⟩
  intro pre h
  have hc := Ex.key_wf.cache pre h
  exact ⟨hc.qinv_params, hc.p_width, hc.q_width⟩

example := C82_pss_sign Ex.countingRng 3 5 6 true Ex.key [1, 2, 3, 4] (List.replicate 8 5) 8 (by decide +kernel)
example := C82_pkcs1v15_encrypt Ex.countingRng 5 7 (k := Ex.key.pub) Ex.key_wf.coherent [1, 2, 3] (r :=
  ([224, 56, 52, 73, 141, 57, 228, 72, 27, 241, 1, 6, 215, 119, 211, 126, 208, 90, 227, 45, 236, 238, 143, 230, 243, 188,
    176], 8)) (by decide +kernel)

end RSA
