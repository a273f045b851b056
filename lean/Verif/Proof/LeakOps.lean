import Verif.Model.LeakOps
import Verif.Proof.Leak
import Verif.Proof.Pss

/- Lemmas about the observed versions of signing and encryption. -/
namespace RSA
open BoxedUint

namespace leak
open Leak

/-! ### They compute what the model computes -/

theorem setIdx_res (l : Bytes) (i : Nat) (b : UInt8) : (setIdx l i b).res = RSA.setIdx l i b := rfl
theorem addU_res (a b : Nat) : (addU a b).res = RSA.addU a b := by
  unfold addU RSA.addU branch
  simp only [res_bind, res_emit, Res.ok_bind, res_ite, res_ofRes]
theorem newVec_res (n : Nat) (b : UInt8) : (newVec n b).res = .ok (List.replicate n b) := rfl
theorem fromBeSlice_res (b : Bytes) (bits : Nat) : (fromBeSlice b bits).res = BoxedUint.fromBeSlice b bits := rfl
theorem tryFill_res {σ : Type} (R : RngImpl σ) (s : σ) (n : Nat) : (tryFill R s n).res = R.tryFill s n := rfl
theorem update_res (d : DigestState) (x : Bytes) : (update d x).res = .ok (d.update x) := rfl
theorem finalizeReset_res (d : DigestState) : (finalizeReset d).res = .ok d.finalizeReset := rfl

theorem uintToBePad_res (x : BoxedUint) (len : Nat) : (uintToBePad x len).res = RSA.uintToBePad x len := by
  unfold uintToBePad RSA.uintToBePad
  simp only [res_bind, res_emit, Res.ok_bind, sliceFrom_res, leftPad_res]

theorem rerollByte_res {σ : Type} (R : RngImpl σ) : ∀ (fuel : Nat) (s : σ),
    (rerollByte R fuel s).res = RSA.rerollByte R fuel s
  | 0, _ => rfl
  | fuel + 1, s => by
    unfold rerollByte RSA.rerollByte
    simp only [res_bind, tryFill_res, idx_res, branch, res_emit, Res.ok_bind, res_ite, res_ofRes, rerollByte_res R fuel]

theorem fixZeros_res {σ : Type} (R : RngImpl σ) (fuel : Nat) : ∀ (l : Bytes) (s : σ),
    (fixZeros R fuel l s).res = RSA.fixZeros R fuel l s
  | [], _ => rfl
  | el :: rest, s => by
    unfold fixZeros RSA.fixZeros
    by_cases h : el = 0 <;>
      simp only [h, if_true, if_false, res_bind, branch, res_emit, Res.ok_bind, res_ofRes, rerollByte_res,
        fixZeros_res R fuel rest]

theorem nonZeroRandomBytes_res {σ : Type} (R : RngImpl σ) (fuel : Nat) (s : σ) (len : Nat) :
    (nonZeroRandomBytes R fuel s len).res = RSA.nonZeroRandomBytes R fuel s len := by
  unfold nonZeroRandomBytes RSA.nonZeroRandomBytes
  simp only [res_bind, tryFill_res, fixZeros_res]

theorem pkcs1v15EncryptPad_res {σ : Type} (R : RngImpl σ) (fuel : Nat) (s : σ) (msg : Bytes) (k : Nat) :
    (pkcs1v15EncryptPad R fuel s msg k).res = RSA.pkcs1v15EncryptPad R fuel s msg k := by
  unfold pkcs1v15EncryptPad RSA.pkcs1v15EncryptPad
  simp only [res_bind, branch, res_emit, Res.ok_bind, res_ite, res_ofRes, newVec_res, setIdx_res, subU_res, slice_res,
    nonZeroRandomBytes_res, copyInto_res]

theorem pkcs1v15SignPad_res (pfx hashed : Bytes) (k : Nat) :
    (pkcs1v15SignPad pfx hashed k).res = RSA.pkcs1v15SignPad pfx hashed k := by
  unfold pkcs1v15SignPad RSA.pkcs1v15SignPad
  simp only [res_bind, branch, res_emit, Res.ok_bind, res_ite, res_ofRes, newVec_res, setIdx_res, subU_res, copyInto_res]

theorem emsaPssEncode_res (mHash : Bytes) (emBits : Nat) (salt : Bytes) (hash : DigestState) :
    (emsaPssEncode mHash emBits salt hash).res = RSA.emsaPssEncode mHash emBits salt hash := by
  unfold emsaPssEncode RSA.emsaPssEncode
  simp only [res_bind, branch, res_emit, Res.ok_bind, res_ite, res_ofRes, newVec_res, setIdx_res, subU_res, addU_res,
    copyInto_res, splitAt_res, slice_res, update_res, finalizeReset_res, mgf1Xor_res, idx_res]

theorem emsaPssEncodeDigest_res (mHash : Bytes) (emBits : Nat) (salt : Bytes) (D : HashFn) :
    (emsaPssEncodeDigest mHash emBits salt D).res = RSA.emsaPssEncodeDigest mHash emBits salt D := by
  unfold emsaPssEncodeDigest RSA.emsaPssEncodeDigest
  simp only [res_bind, branch, res_emit, Res.ok_bind, res_ite, res_ofRes, newVec_res, setIdx_res, subU_res, addU_res,
    copyInto_res, splitAt_res, slice_res, update_res, finalizeReset_res, mgf1XorDigest_res, idx_res]

theorem oaepEncryptInternal_res {σ : Type} (R : RngImpl σ) (s : σ) (msg pHash : Bytes) (hSize k : Nat)
    (mgf : Bytes → Bytes → Leak (Bytes × Bytes)) :
    (oaepEncryptInternal R s msg pHash hSize k mgf).res =
      RSA.oaepEncryptInternal R s msg pHash hSize k (fun a b => (mgf a b).res) := by
  unfold oaepEncryptInternal RSA.oaepEncryptInternal
  simp only [res_bind, branch, res_emit, Res.ok_bind, res_ite, res_ofRes, newVec_res, setIdx_res, subU_res,
    copyInto_res, splitAt_res, tryFill_res]

theorem oaepEncrypt_res {σ : Type} (R : RngImpl σ) (s : σ) (msg : Bytes) (dg mg : DigestState) (label : Option Bytes)
    (k : Nat) : (oaepEncrypt R s msg dg mg label k).res = RSA.oaepEncrypt R s msg dg mg label k := by
  unfold oaepEncrypt RSA.oaepEncrypt
  simp only [res_bind, branch, res_emit, Res.ok_bind, res_ite, res_ofRes, update_res, finalizeReset_res,
    oaepEncryptInternal_res, mgf1Xor_res]

theorem oaepEncryptDigest_res {σ : Type} (R : RngImpl σ) (s : σ) (msg : Bytes) (D MGD : HashFn) (label : Option Bytes)
    (k : Nat) : (oaepEncryptDigest R s msg D MGD label k).res = RSA.oaepEncryptDigest R s msg D MGD label k := by
  unfold oaepEncryptDigest RSA.oaepEncryptDigest
  simp only [res_bind, branch, res_emit, Res.ok_bind, res_ite, res_ofRes, oaepEncryptInternal_res, mgf1XorDigest_res]

theorem pkcs1v15Encrypt_res {σ : Type} (R : RngImpl σ) (fuel : Nat) (s : σ) (k : PublicKey) (msg : Bytes) :
    (pkcs1v15Encrypt R fuel s k msg).res = pkcs1v15.encrypt R fuel s k msg := by
  unfold pkcs1v15Encrypt pkcs1v15.encrypt
  simp only [res_bind, res_ofRes, pkcs1v15EncryptPad_res, fromBeSlice_res, rsaEncrypt_res, uintToBePad_res]

theorem pkcs1v15Sign_res {σ : Type} (R : RngImpl σ) (fuel : Nat) (rng : Option σ) (k : PrivateKey) (pfx hashed : Bytes) :
    (pkcs1v15Sign R fuel rng k pfx hashed).res = pkcs1v15.sign R fuel rng k pfx hashed := by
  unfold pkcs1v15Sign pkcs1v15.sign
  simp only [res_bind, pkcs1v15SignPad_res, fromBeSlice_res, rsaDecryptAndCheck_res, uintToZeroizingBePad_res]

theorem signPssWithSalt_res {σ : Type} (R : RngImpl σ) (fuel : Nat) (rng : Option σ) (k : PrivateKey)
    (hashed salt : Bytes) (dg : DigestState) :
    (signPssWithSalt R fuel rng k hashed salt dg).res = pss.signPssWithSalt R fuel rng k hashed salt dg := by
  unfold signPssWithSalt pss.signPssWithSalt
  simp only [res_bind, res_ofRes, emsaPssEncode_res, fromBeSlice_res, rsaDecryptAndCheck_res, uintToZeroizingBePad_res]

theorem signPssWithSaltDigest_res {σ : Type} (R : RngImpl σ) (fuel : Nat) (D : HashFn) (rng : Option σ) (k : PrivateKey)
    (hashed salt : Bytes) :
    (signPssWithSaltDigest R fuel D rng k hashed salt).res = pss.signPssWithSaltDigest R fuel D rng k hashed salt := by
  unfold signPssWithSaltDigest pss.signPssWithSaltDigest
  simp only [res_bind, res_ofRes, emsaPssEncodeDigest_res, fromBeSlice_res, rsaDecryptAndCheck_res,
    uintToZeroizingBePad_res]

theorem pssSign_res {σ : Type} (R : RngImpl σ) (fuel : Nat) (s : σ) (blind : Bool) (k : PrivateKey) (hashed : Bytes)
    (saltLen : Nat) (dg : DigestState) :
    (pssSign R fuel s blind k hashed saltLen dg).res = pss.sign R fuel s blind k hashed saltLen dg := by
  unfold pssSign pss.sign
  simp only [branch, res_bind, tryFill_res, res_emit, Res.ok_bind, res_ite, signPssWithSalt_res]
  cases blind <;> rfl

theorem pssSignDigest_res {σ : Type} (R : RngImpl σ) (fuel : Nat) (D : HashFn) (s : σ) (blind : Bool) (k : PrivateKey)
    (hashed : Bytes) (saltLen : Nat) :
    (pssSignDigest R fuel D s blind k hashed saltLen).res = pss.signDigest R fuel D s blind k hashed saltLen := by
  unfold pssSignDigest pss.signDigest
  simp only [branch, res_bind, tryFill_res, res_emit, Res.ok_bind, res_ite, signPssWithSaltDigest_res]
  cases blind <;> rfl

theorem oaepSchemeEncrypt_res {σ : Type} (R : RngImpl σ) (s : σ) (k : PublicKey) (msg : Bytes) (dg mg : DigestState)
    (label : Option Bytes) : (oaepSchemeEncrypt R s k msg dg mg label).res = oaep.encrypt R s k msg dg mg label := by
  unfold oaepSchemeEncrypt oaep.encrypt
  simp only [res_bind, res_ofRes, oaepEncrypt_res, fromBeSlice_res, rsaEncrypt_res, uintToBePad_res]

theorem oaepSchemeEncryptDigest_res {σ : Type} (R : RngImpl σ) (D MGD : HashFn) (s : σ) (k : PublicKey) (msg : Bytes)
    (label : Option Bytes) :
    (oaepSchemeEncryptDigest R D MGD s k msg label).res = oaep.encryptDigest R D MGD s k msg label := by
  unfold oaepSchemeEncryptDigest oaep.encryptDigest
  simp only [res_bind, res_ofRes, oaepEncryptDigest_res, fromBeSlice_res, rsaEncrypt_res, uintToBePad_res]

/-! ### Two runs -/

theorem setIdx_rel {l l' : Bytes} (h : SL l l') (i : Nat) (b b' : UInt8) : Rel SL (setIdx l i b) (setIdx l' i b') := by
  have h' : l.length = l'.length := h
  refine Rel.emit (by rw [h']) (Rel.ofRes ?_)
  unfold RSA.setIdx
  rw [h']
  split
  · simpa [ResRel, SL] using h'
  · exact rfl

theorem newVec_rel (n : Nat) (b : UInt8) : Rel SL (newVec n b) (newVec n b) :=
  Rel.refl (R := SL) (fun _ => by unfold SL; rfl) _

theorem fromBeSlice_rel {b b' : Bytes} (h : SL b b') (k k' : PublicKey) (hk : k.Coherent) (hk' : k'.Coherent)
    (hw : k.n.nlimbs = k'.n.nlimbs) :
    Rel (fun x y => x.nlimbs = k.n.nlimbs ∧ y.nlimbs = k'.n.nlimbs) (fromBeSlice b k.nBitsPrecision) (fromBeSlice b' k'.nBitsPrecision) := by
  have h' : b.length = b'.length := h
  have hp : k.nBitsPrecision = k'.nBitsPrecision := by unfold PublicKey.nBitsPrecision prec; rw [hw]
  refine Rel.emit (by rw [h', hp]) (Rel.ofRes ?_)
  rw [fromBeSlice_nprec _ hk, fromBeSlice_nprec _ hk', h', hw]
  split
  · exact ⟨rfl, rfl⟩
  · exact rfl

/-- The generators succeed alike on a request. -/
theorem tryFill_rel {σ σ' : Type} (R : RngImpl σ) (R' : RngImpl σ') (s : σ) (s' : σ') (n : Nat)
    (h : (R.fill s n).1.isSome = (R'.fill s' n).1.isSome) :
    Rel (fun p q => SL p.1 q.1 ∧ p.2 = (R.fill s n).2 ∧ q.2 = (R'.fill s' n).2) (tryFill R s n) (tryFill R' s' n) := by
  refine Rel.emit rfl (Rel.emit (by rw [h]) (Rel.ofRes ?_))
  have hl := R.fill_len s n
  have hl' := R'.fill_len s' n
  unfold RngImpl.tryFill
  rcases hr : R.fill s n with ⟨_ | b, t⟩ <;> rcases hr' : R'.fill s' n with ⟨_ | b', t'⟩ <;>
    rw [hr, hr'] at h <;> simp at h
  · exact rfl
  · refine ⟨?_, rfl, rfl⟩
    unfold SL
    rw [hl b (by rw [hr]), hl' b' (by rw [hr'])]

theorem eqrel {α : Type} (x : Leak α) : Rel (· = ·) x x := Rel.refl (fun _ => rfl) x

theorem pkcs1v15SignPad_rel {p p' h h' : Bytes} (hp : SL p p') (hh : SL h h') (k : Nat) :
    Rel SL (pkcs1v15SignPad p h k) (pkcs1v15SignPad p' h' k) := by
  have hp' : p.length = p'.length := hp
  have hh' : h.length = h'.length := hh
  unfold pkcs1v15SignPad
  simp only [hp', hh']
  refine Rel.emit rfl ?_
  split
  · exact Rel.err _
  refine Rel.bind (newVec_rel _ _) fun a a' ha => ?_
  refine Rel.bind (setIdx_rel ha _ _ _) fun a a' ha => ?_
  refine Rel.bind (setIdx_rel ha _ _ _) fun a a' ha => ?_
  refine Rel.bind (eqrel _) fun o o' ho => ?_
  subst ho
  refine Rel.bind (eqrel _) fun o1 o1' ho => ?_
  subst ho
  refine Rel.bind (setIdx_rel ha _ _ _) fun a a' ha => ?_
  refine Rel.bind (eqrel _) fun oh oh' ho => ?_
  subst ho
  refine Rel.bind (copyInto_rel ha hp _ _) fun a a' ha => ?_
  refine Rel.bind (copyInto_rel ha hh _ _) fun a a' ha => ?_
  exact Rel.ok ha

theorem emsaPssEncode_rel {h h' s s' : Bytes} {d d' : DigestState} (hh : SL h h') (hs : SL s s') (hd : SD d d') (bits : Nat) :
    Rel SL (emsaPssEncode h bits s d) (emsaPssEncode h' bits s' d') := by
  have hs' : s.length = s'.length := hs
  have hh' : h.length = h'.length := hh
  have ho : d.outputSize = d'.outputSize := by unfold DigestState.outputSize; rw [hd.1]
  unfold emsaPssEncode
  simp only [hs', hh', ho]
  refine Rel.emit rfl ?_
  split
  · exact Rel.err _
  refine Rel.bind (eqrel _) fun n n' hn => ?_
  subst hn
  refine Rel.bind (eqrel _) fun n n' hn => ?_
  subst hn
  refine Rel.emit rfl ?_
  split
  · exact Rel.err _
  refine Rel.bind (newVec_rel _ _) fun a a' ha => ?_
  refine Rel.bind (eqrel _) fun n n' hn => ?_
  subst hn
  refine Rel.bind (eqrel _) fun n n' hn => ?_
  subst hn
  refine Rel.bind (splitAt_rel ha _) fun p p' hp => ?_
  have hp1 : p.1.length = p'.1.length := hp.1
  refine Rel.bind (eqrel _) fun n n' hn => ?_
  subst hn
  simp only [hp1]
  refine Rel.bind (eqrel _) fun hl hl' hn => ?_
  subst hn
  refine Rel.bind (slice_rel hp.2 _ _) fun x x' hx => ?_
  refine Rel.bind (update_rel hd rfl) fun d d' hd => ?_
  refine Rel.bind (update_rel hd hh) fun d d' hd => ?_
  refine Rel.bind (update_rel hd hs) fun d d' hd => ?_
  refine Rel.bind (finalizeReset_rel hd) fun q q' hq => ?_
  refine Rel.bind (copyInto_rel hp.2 hq.1 _ _) fun b b' hb => ?_
  refine Rel.bind (eqrel _) fun n n' hn => ?_
  subst hn
  refine Rel.bind (eqrel _) fun n n' hn => ?_
  subst hn
  refine Rel.bind (eqrel _) fun o2 n' hn => ?_
  subst hn
  refine Rel.bind (setIdx_rel hp.1 _ _ _) fun e e' he => ?_
  have he1 : e.length = e'.length := he
  refine Rel.bind (eqrel _) fun o1 n' hn => ?_
  subst hn
  simp only [he1]
  refine Rel.bind (copyInto_rel he hs _ _) fun f f' hf => ?_
  refine Rel.bind (slice_rel hb _ _) fun g g' hg => ?_
  refine Rel.bind (mgf1Xor_rel hf hq.2 hg) fun m m' hm => ?_
  refine Rel.bind (eqrel _) fun sh n' hn => ?_
  subst hn
  refine Rel.bind (eqrel _) fun mask n' hn => ?_
  subst hn
  refine Rel.bind (idx_rel hm.1 _) fun d0 d0' _ => ?_
  refine Rel.bind (setIdx_rel hm.1 _ _ _) fun w w' hw => ?_
  refine Rel.bind (eqrel _) fun last n' hn => ?_
  subst hn
  refine setIdx_rel ?_ _ _ _
  have hw' : w.length = w'.length := hw
  have hb' : b.length = b'.length := hb
  simp [SL, hw', hb']

theorem emsaPssEncodeDigest_rel {h h' s s' : Bytes} (hh : SL h h') (hs : SL s s') (D : HashFn) (bits : Nat) :
    Rel SL (emsaPssEncodeDigest h bits s D) (emsaPssEncodeDigest h' bits s' D) := by
  have hs' : s.length = s'.length := hs
  have hh' : h.length = h'.length := hh
  unfold emsaPssEncodeDigest
  simp only [hs', hh']
  refine Rel.emit rfl ?_
  split
  · exact Rel.err _
  refine Rel.bind (eqrel _) fun n n' hn => ?_
  subst hn
  refine Rel.bind (eqrel _) fun n n' hn => ?_
  subst hn
  refine Rel.emit rfl ?_
  split
  · exact Rel.err _
  refine Rel.bind (newVec_rel _ _) fun a a' ha => ?_
  refine Rel.bind (eqrel _) fun n n' hn => ?_
  subst hn
  refine Rel.bind (eqrel _) fun n n' hn => ?_
  subst hn
  refine Rel.bind (splitAt_rel ha _) fun p p' hp => ?_
  have hp1 : p.1.length = p'.1.length := hp.1
  refine Rel.bind (eqrel _) fun n n' hn => ?_
  subst hn
  simp only [hp1]
  refine Rel.bind (eqrel _) fun hl hl' hn => ?_
  subst hn
  refine Rel.bind (slice_rel hp.2 _ _) fun x x' hx => ?_
  refine Rel.bind (update_rel ⟨rfl, rfl⟩ rfl) fun d d' hd => ?_
  refine Rel.bind (update_rel hd hh) fun d d' hd => ?_
  refine Rel.bind (update_rel hd hs) fun d d' hd => ?_
  refine Rel.bind (finalizeReset_rel hd) fun q q' hq => ?_
  refine Rel.bind (copyInto_rel hp.2 hq.1 _ _) fun b b' hb => ?_
  refine Rel.bind (eqrel _) fun n n' hn => ?_
  subst hn
  refine Rel.bind (eqrel _) fun n n' hn => ?_
  subst hn
  refine Rel.bind (eqrel _) fun o2 n' hn => ?_
  subst hn
  refine Rel.bind (setIdx_rel hp.1 _ _ _) fun e e' he => ?_
  have he1 : e.length = e'.length := he
  refine Rel.bind (eqrel _) fun o1 n' hn => ?_
  subst hn
  simp only [he1]
  refine Rel.bind (copyInto_rel he hs _ _) fun f f' hf => ?_
  refine Rel.bind (slice_rel hb _ _) fun g g' hg => ?_
  refine Rel.bind (mgf1XorDigest_rel hf hq.2 hg) fun m m' hm => ?_
  refine Rel.bind (eqrel _) fun sh n' hn => ?_
  subst hn
  refine Rel.bind (eqrel _) fun mask n' hn => ?_
  subst hn
  refine Rel.bind (idx_rel hm.1 _) fun d0 d0' _ => ?_
  refine Rel.bind (setIdx_rel hm.1 _ _ _) fun w w' hw => ?_
  refine Rel.bind (eqrel _) fun last n' hn => ?_
  subst hn
  refine setIdx_rel ?_ _ _ _
  have hw' : w.length = w'.length := hw
  have hb' : b.length = b'.length := hb
  simp [SL, hw', hb']

/-- The same generator in the same state, two messages of the same length. -/
theorem pkcs1v15EncryptPad_rel {σ : Type} (R : RngImpl σ) (fuel : Nat) (s : σ) {m m' : Bytes} (hm : SL m m') (k : Nat) :
    Rel (fun p q => SL p.1 q.1 ∧ p.2 = q.2) (pkcs1v15EncryptPad R fuel s m k) (pkcs1v15EncryptPad R fuel s m' k) := by
  have hm' : m.length = m'.length := hm
  unfold pkcs1v15EncryptPad
  simp only [hm']
  refine Rel.emit rfl ?_
  split
  · exact Rel.err _
  refine Rel.bind (eqrel _) fun a a' ha => ?_
  subst ha
  refine Rel.bind (eqrel _) fun a a' ha => ?_
  subst ha
  refine Rel.bind (eqrel _) fun a1 a' ha => ?_
  subst ha
  refine Rel.bind (eqrel _) fun a2 a' ha => ?_
  subst ha
  refine Rel.bind (eqrel _) fun a3 a' ha => ?_
  subst ha
  refine Rel.bind (eqrel _) fun a4 a' ha => ?_
  subst ha
  refine Rel.bind (eqrel _) fun a5 a' ha => ?_
  subst ha
  refine Rel.bind (eqrel _) fun a6 a' ha => ?_
  subst ha
  refine Rel.bind (copyInto_rel rfl hm _ _) fun a a' ha => ?_
  exact Rel.ok ⟨ha, rfl⟩

theorem oaepEncryptInternal_rel {σ σ' : Type} (R : RngImpl σ) (R' : RngImpl σ') (s : σ) (s' : σ') {m m' : Bytes}
    (hm : SL m m') (pHash : Bytes) (hSize k : Nat) (hr : (R.fill s hSize).1.isSome = (R'.fill s' hSize).1.isSome)
    {mgf mgf' : Bytes → Bytes → Leak (Bytes × Bytes)}
    (hg : ∀ s s' d d', SL s s' → SL d d' → Rel (fun p q => SL p.1 q.1 ∧ SL p.2 q.2) (mgf s d) (mgf' s' d')) :
    Rel (fun p q => SL p.1 q.1) (oaepEncryptInternal R s m pHash hSize k mgf) (oaepEncryptInternal R' s' m' pHash hSize k mgf') := by
  have hm' : m.length = m'.length := hm
  unfold oaepEncryptInternal
  simp only [hm']
  refine Rel.emit rfl ?_
  split
  · exact Rel.err _
  next hfit =>
  refine Rel.bind (R := fun a b => a = b ∧ a.length = k) ⟨rfl, rfl, by simp⟩ fun a a' ha => ?_
  obtain ⟨rfl, hal⟩ := ha
  have hs1 : RSA.splitAt a 1 = .ok (a.take 1, a.drop 1) := by unfold RSA.splitAt; rw [if_pos (by omega)]
  refine Rel.bind (R := fun p q => p = q ∧ p = (a.take 1, a.drop 1)) (Rel.emit rfl (Rel.ofRes ?_)) fun p p' hp => ?_
  · rw [hs1]; exact ⟨rfl, rfl⟩
  obtain ⟨rfl, rfl⟩ := hp
  simp only
  have hs2 : RSA.splitAt (a.drop 1) hSize = .ok ((a.drop 1).take hSize, (a.drop 1).drop hSize) := by
    unfold RSA.splitAt; rw [if_pos (by simp; omega)]
  refine Rel.bind (R := fun p q => p = q ∧ p = ((a.drop 1).take hSize, (a.drop 1).drop hSize))
    (Rel.emit rfl (Rel.ofRes ?_)) fun p p' hp => ?_
  · rw [hs2]; exact ⟨rfl, rfl⟩
  obtain ⟨rfl, rfl⟩ := hp
  simp only
  have hsl : ((a.drop 1).take hSize).length = hSize := by simp; omega
  rw [hsl]
  refine Rel.bind (tryFill_rel R R' s s' hSize hr) fun q q' hq => ?_
  refine Rel.bind (eqrel _) fun n n' hn => ?_
  subst hn
  refine Rel.bind (eqrel _) fun n n' hn => ?_
  subst hn
  refine Rel.bind (eqrel _) fun db db' hn => ?_
  subst hn
  refine Rel.bind (eqrel _) fun o n' hn => ?_
  subst hn
  refine Rel.bind (eqrel _) fun o1 n' hn => ?_
  subst hn
  refine Rel.bind (eqrel _) fun db db' hn => ?_
  subst hn
  refine Rel.bind (copyInto_rel rfl hm _ _) fun b b' hb => ?_
  refine Rel.bind (hg _ _ _ _ hq.1 hb) fun r r' hr => ?_
  refine Rel.ok ?_
  have h1 : r.1.length = r'.1.length := hr.1
  have h2 : r.2.length = r'.2.length := hr.2
  simp [SL, h1, h2]

theorem oaepEncrypt_rel {σ σ' : Type} (R : RngImpl σ) (R' : RngImpl σ') (s : σ) (s' : σ') {m m' : Bytes}
    (hm : SL m m') (dg mg : DigestState) (label : Option Bytes) (k : Nat)
    (hr : (R.fill s dg.outputSize).1.isSome = (R'.fill s' dg.outputSize).1.isSome) :
    Rel (fun p q => SL p.1 q.1) (oaepEncrypt R s m dg mg label k) (oaepEncrypt R' s' m' dg mg label k) := by
  unfold oaepEncrypt
  refine Rel.emit rfl ?_
  split
  · exact Rel.err _
  refine Rel.bind (eqrel _) fun a a' ha => ?_
  subst ha
  refine Rel.bind (eqrel _) fun a a' ha => ?_
  subst ha
  refine oaepEncryptInternal_rel R R' s s' hm _ _ k hr ?_
  intro s s' d d' hs hd
  refine Rel.bind (mgf1Xor_rel hd ⟨rfl, rfl⟩ hs) fun p p' hp => ?_
  refine Rel.bind (mgf1Xor_rel hs hp.2 hp.1) fun q q' hq => ?_
  exact Rel.ok ⟨hq.1, hp.1⟩

theorem oaepEncryptDigest_rel {σ σ' : Type} (R : RngImpl σ) (R' : RngImpl σ') (s : σ) (s' : σ') {m m' : Bytes}
    (hm : SL m m') (D MGD : HashFn) (label : Option Bytes) (k : Nat)
    (hr : (R.fill s D.outLen).1.isSome = (R'.fill s' D.outLen).1.isSome) :
    Rel (fun p q => SL p.1 q.1) (oaepEncryptDigest R s m D MGD label k) (oaepEncryptDigest R' s' m' D MGD label k) := by
  unfold oaepEncryptDigest
  refine Rel.emit rfl ?_
  split
  · exact Rel.err _
  refine Rel.emit rfl ?_
  refine oaepEncryptInternal_rel R R' s s' hm _ _ k hr ?_
  intro s s' d d' hs hd
  refine Rel.bind (mgf1XorDigest_rel hd ⟨rfl, rfl⟩ hs) fun p p' hp => ?_
  refine Rel.bind (mgf1XorDigest_rel hs hp.2 hp.1) fun q q' hq => ?_
  exact Rel.ok ⟨hq.1, hp.1⟩

/-! ### What the blinding draws reveal -/

theorem ev_bind_prefix {α β : Type} (x : Leak α) (f : α → Leak β) : ∃ t, (x >>= f).ev = x.ev ++ t := by
  rcases x with ⟨ev, X⟩
  cases X
  · exact ⟨_, rfl⟩
  all_goals exact ⟨[], (List.append_nil _).symm⟩

/-- One round of the blinding loop. -/
theorem blindLoop_ev {σ : Type} (R : RngImpl σ) {n : BoxedUint} (hn : 1 < n.val) (fuel : Nat) (s : σ) :
    (blindLoop R n (fuel + 1) s).ev = .bignum "try_random_mod" [n.nlimbs] ::
      match R.randMod s n.val with
      | (none, _) => [.branch false]
      | (some r, s) => .branch true :: .branch (decide (r = 0)) :: .bignum "inv_mod" [n.nlimbs, n.nlimbs] ::
          if r = 0 ∨ Nat.Coprime r n.val then [.branch true] else .branch false :: (blindLoop R n fuel s).ev := by
  have hl := nlimbs_pos_of_val_pos n (by omega)
  have hlt := R.randMod_lt s n.val
  rw [blindLoop]
  rcases hr : R.randMod s n.val with ⟨_ | r, t⟩
  · rfl
  have hlt := hlt r (by rw [hr]) (by omega)
  have hva : (wrap n.nlimbs r).val = r := wrap_lt_val hlt
  have hlf : limbsFor n.prec = n.nlimbs := limbsFor_prec n hl
  have h1v : (oneWithPrecision n.prec).val = 1 := by
    unfold oneWithPrecision; rw [hlf]; exact wrap_val_of_lt (Nat.one_lt_two_pow (by omega))
  have h1l : (oneWithPrecision n.prec).nlimbs = n.nlimbs := hlf
  simp only [bn, emit_bind, branch_ok_bind]
  by_cases hr0 : r = 0
  · subst hr0
    have hz : (wrap n.nlimbs 0).isZero = true := by unfold isZero; rw [hva]; rfl
    obtain ⟨y, hy⟩ := natInvMod_isSome (a := 1) (m := n.val) (by omega) (Nat.coprime_one_left _)
    simp only [hz, if_true, invMod, h1v, h1l, hy, Option.map_some, true_or]
    rfl
  · have hz : (wrap n.nlimbs r).isZero = false := by unfold isZero; rw [hva]; simp [hr0]
    by_cases hco : Nat.Coprime r n.val
    · obtain ⟨y, hy⟩ := natInvMod_isSome (a := r) (m := n.val) (by omega) hco
      simp only [hz, Bool.false_eq_true, if_false, invMod, hva, hy, Option.map_some, hr0]
      rw [if_pos (by tauto)]
      rfl
    · simp only [hz, Bool.false_eq_true, if_false, invMod, hva, hr0]
      rw [(natInvMod_none (by omega)).mpr hco, if_neg (by tauto)]
      rfl

theorem sameDraws_of_ev {σ σ' : Type} (R : RngImpl σ) (R' : RngImpl σ') {n n' : BoxedUint} (hn : 1 < n.val)
    (hn' : 1 < n'.val) : ∀ (fuel : Nat) (s : σ) (s' : σ') (t t' : List Ev),
    (blindLoop R n fuel s).ev ++ t = (blindLoop R' n' fuel s').ev ++ t' → Spec.SameDraws R R' n.val n'.val fuel s s'
  | 0, _, _, _, _, _ => trivial
  | fuel + 1, s, s', t, t', h => by
    rw [blindLoop_ev R hn, blindLoop_ev R' hn'] at h
    unfold Spec.SameDraws
    rcases hr : R.randMod s n.val with ⟨_ | r, u⟩ <;> rcases hr' : R'.randMod s' n'.val with ⟨_ | r', u'⟩ <;>
      rw [hr, hr'] at h <;> simp only [List.cons_append, List.cons.injEq, Ev.branch.injEq, Bool.false_eq_true,
        Bool.true_eq_false, false_and, and_false, true_and, decide_eq_decide] at h ⊢
    obtain ⟨-, h0, -, h⟩ := h
    by_cases hu : r = 0 ∨ Nat.Coprime r n.val <;> by_cases hu' : r' = 0 ∨ Nat.Coprime r' n'.val
    · refine ⟨h0, ?_, ?_⟩
      · by_cases hz : r = 0
        · have hz' := h0.mp hz
          subst hz hz'
          have : ∀ m, 1 < m → ¬ Nat.Coprime 0 m := by intro m hm h; simp at h; omega
          exact iff_of_false (this _ hn) (this _ hn')
        · have hz' : r' ≠ 0 := fun h => hz (h0.mpr h)
          exact iff_of_true (hu.resolve_left hz) (hu'.resolve_left hz')
      · intro h1 h2; exact absurd hu (by tauto)
    · rw [if_pos hu, if_neg hu'] at h
      simp at h
    · rw [if_neg hu, if_pos hu'] at h
      simp at h
    · rw [if_neg hu, if_neg hu'] at h
      simp only [List.cons_append, List.cons.injEq, true_and] at h
      refine ⟨h0, iff_of_false (by tauto) (by tauto), fun _ _ => sameDraws_of_ev R R' hn hn' fuel u u' t t' h⟩

/-- The start of the private operation's trace. -/
theorem rsaDecryptAndCheck_prefix {σ : Type} (R : RngImpl σ) (fuel : Nat) (rng : Option σ) {k : PrivateKey}
    (hk : k.pub.Coherent) (c : BoxedUint) (hlt : c.val < k.pub.n.val) :
    ∃ t, (rsaDecryptAndCheck R fuel k rng c).ev = .bignum "cmp" [c.nlimbs, k.pub.n.nlimbs] :: .branch false ::
      .branch rng.isSome :: match rng with
        | none => t
        | some s => .branch true :: ((blindLoop R k.pub.n fuel s).ev ++ t) := by
  have hg : c.ge k.pub.n = false := by simp [ge, BoxedUint.lt, hlt]
  have hb : k.pub.n.beq k.pub.nParams.modulus.toBoxedUint = true := by
    unfold PublicKey.Coherent at hk
    rw [hk]; simp [beq]
  unfold rsaDecryptAndCheck
  obtain ⟨t1, h1⟩ := ev_bind_prefix (rsaDecrypt R fuel rng k c) (fun p => do
    let check ← rsaEncrypt k.pub p.1
    bn "eq" [c.nlimbs, check.nlimbs]
    branch (c.beq check = false) (ofRes (.err .internal)) (ofRes (.ok (p.1, p.2))))
  rw [show _ = _ from h1]
  cases rng with
  | none =>
    unfold rsaDecrypt
    simp only [hg, bn, branch, emit_bind, Bool.false_eq_true, decide_false, if_false, List.cons_append, List.cons.injEq,
      true_and, Option.isSome_none]
    exact ⟨_, rfl⟩
  | some s =>
    unfold rsaDecrypt
    simp only [hg, bn, branch, emit_bind, Bool.false_eq_true, decide_false, if_false, List.cons_append, List.cons.injEq,
      true_and, Option.isSome_some]
    obtain ⟨t2, h2⟩ := ev_bind_prefix (blind R fuel s k.pub c k.pub.nParams) (fun p => do
      let c ← widen p.1.1 k.d.prec
      let m ← rsaPrivateExp k c
      let m ← shorten m k.pub.nParams.prec
      let res ← unblind m p.1.2 k.pub.nParams
      ofRes (.ok (res, some p.2)))
    rw [show _ = _ from h2]
    have h3 : ∃ t3, (blind R fuel s k.pub c k.pub.nParams).ev = .branch true :: ((blindLoop R k.pub.n fuel s).ev ++ t3) := by
      unfold blind debugAssert
      simp only [hb, branch, emit_bind, decide_true, if_true]
      obtain ⟨t3, h3⟩ := ev_bind_prefix (blindLoop R k.pub.n fuel s) (fun p => do
        let rpowe ← powModParams p.1.1 k.pub.e k.pub.nParams
        let blinded ← mulModParams c rpowe k.pub.nParams
        debugAssert (decide (blinded.prec = k.pub.nBitsPrecision))
        debugAssert (decide (p.1.2.prec = k.pub.nBitsPrecision))
        ofRes (.ok ((blinded, p.1.2), p.2)))
      exact ⟨t3, by rw [← h3]; rfl⟩
    obtain ⟨t3, h3⟩ := h3
    rw [h3]
    exact ⟨t3 ++ (t2 ++ t1), by simp⟩

theorem sameBlinding_of_ev {σ σ' : Type} (R : RngImpl σ) (R' : RngImpl σ') (fuel : Nat) (rng : Option σ)
    (rng' : Option σ') {k k' : PrivateKey} (hk : Spec.WellFormed k) (hk' : Spec.WellFormed k') (c c' : BoxedUint)
    (hlt : c.val < k.pub.n.val) (hlt' : c'.val < k'.pub.n.val)
    (h : (rsaDecryptAndCheck R fuel k rng c).ev = (rsaDecryptAndCheck R' fuel k' rng' c').ev) :
    Spec.SameBlinding R R' k.pub.n.val k'.pub.n.val fuel rng rng' := by
  obtain ⟨t, ht⟩ := rsaDecryptAndCheck_prefix R fuel rng hk.coherent c hlt
  obtain ⟨t', ht'⟩ := rsaDecryptAndCheck_prefix R' fuel rng' hk'.coherent c' hlt'
  rw [ht, ht'] at h
  simp only [List.cons.injEq, true_and] at h
  obtain ⟨-, h1, h2⟩ := h
  cases rng <;> cases rng' <;> simp at h1 h2
  · trivial
  · exact sameDraws_of_ev R R' (modulus_one_lt hk) (modulus_one_lt hk') fuel _ _ t t' h2

/-! ### Whole operations -/

theorem rel_iff {α β γ δ : Type} {Q : α → β → Prop} {x : Leak α} {y : Leak β} (h : Rel Q x y) {f : α → Leak γ}
    {g : β → Leak δ} {o : γ → Nat} {o' : δ → Nat}
    (hfg : ∀ a b, x.res = .ok a → y.res = .ok b → Q a b →
      ((f a).ev = (g b).ev ↔ Spec.outputOctets o (f a).res = Spec.outputOctets o' (g b).res)) :
    (x >>= f).ev = (y >>= g).ev ↔ Spec.outputOctets o (x >>= f).res = Spec.outputOctets o' (y >>= g).res := by
  obtain ⟨he, hr⟩ := h
  rcases x with ⟨ev, X⟩
  rcases y with ⟨ev', Y⟩
  simp only at he hr hfg
  subst he
  cases X <;> cases Y <;> simp only [ResRel] at hr
  · rename_i a b
    have := hfg a b rfl rfl hr
    show ev ++ (f a).ev = ev ++ (g b).ev ↔ Spec.outputOctets o (f a).res = Spec.outputOctets o' (g b).res
    rw [List.append_cancel_left_eq]
    exact this
  · subst hr
    simp [bind_def, Leak.bind, Spec.outputOctets]
  · subst hr
    simp [bind_def, Leak.bind, Spec.outputOctets]
  · simp [bind_def, Leak.bind, Spec.outputOctets]

theorem octets_beBytes (k v : Nat) (h : v < 256 ^ k) : Spec.octetLen (Spec.os2ip (beBytes k v)) = Spec.octetLen v := by
  rw [← beVal_eq_os2ip, beVal_beBytes, Nat.mod_eq_of_lt h]

/-- Private operation and conversion of its result. -/
theorem private_tail_iff {σ σ' : Type} (R : RngImpl σ) (R' : RngImpl σ') (fuel : Nat) {rng : Option σ}
    {rng' : Option σ'} {k k' : PrivateKey} (hs : Spec.SameShape k k') (hk : Spec.WellFormed k) (hk' : Spec.WellFormed k')
    (hsz : k.pub.size = k'.pub.size)
    (hb : Spec.SameBlinding R R' k.pub.n.val k'.pub.n.val fuel rng rng') {em em' : Bytes} (hl : SL em em')
    (hlt : beVal em < k.pub.n.val) (hlt' : beVal em' < k'.pub.n.val) :
    (fromBeSlice em k.pub.nBitsPrecision >>= fun em => rsaDecryptAndCheck R fuel k rng em >>= fun p =>
        uintToZeroizingBePad p.1 k.pub.size).ev =
      (fromBeSlice em' k'.pub.nBitsPrecision >>= fun em => rsaDecryptAndCheck R' fuel k' rng' em >>= fun p =>
        uintToZeroizingBePad p.1 k'.pub.size).ev ↔
    Spec.outputOctets (fun s => Spec.octetLen (Spec.os2ip s))
        (fromBeSlice em k.pub.nBitsPrecision >>= fun em => rsaDecryptAndCheck R fuel k rng em >>= fun p =>
          uintToZeroizingBePad p.1 k.pub.size).res =
      Spec.outputOctets (fun s => Spec.octetLen (Spec.os2ip s))
        (fromBeSlice em' k'.pub.nBitsPrecision >>= fun em => rsaDecryptAndCheck R' fuel k' rng' em >>= fun p =>
          uintToZeroizingBePad p.1 k'.pub.size).res := by
  have hco : k.pub.Coherent := hk.coherent
  have hco' : k'.pub.Coherent := hk'.coherent
  have hn := coherent_pos hco
  have hn' := coherent_pos hco'
  refine rel_iff (fromBeSlice_rel hl k.pub k'.pub hco hco' hs.n) ?_
  rintro x y hx hy ⟨hxw, hyw⟩
  rw [fromBeSlice_res, fromBeSlice_nprec _ hco] at hx
  rw [fromBeSlice_res, fromBeSlice_nprec _ hco'] at hy
  split at hx
  swap; · cases hx
  split at hy
  swap; · cases hy
  injection hx with hx
  injection hy with hy
  have hxv : x.val < k.pub.n.val := by rw [← hx, wrap_lt_val hlt]; exact hlt
  have hyv : y.val < k'.pub.n.val := by rw [← hy, wrap_lt_val hlt']; exact hlt'
  refine rel_iff (rsaDecryptAndCheck_rel R R' fuel hs hk hk' hb hxw hyw hxv hyv) ?_
  intro p q hp hq hpq
  have key : ∀ {τ : Type} (T : RngImpl τ) (rng : Option τ) {k : PrivateKey}, Spec.WellFormed k → ∀ x : BoxedUint,
      x.nlimbs = k.pub.n.nlimbs → x.val < k.pub.n.val → ∀ p, RSA.rsaDecryptAndCheck T fuel k rng x = .ok p →
      p.1.val < 256 ^ k.pub.size := by
    intro τ T rng k hk x hxw hxv p hp
    have hn := coherent_pos hk.coherent
    rcases rsaDecryptAndCheck_cases T fuel rng hk x hxw hxv with ⟨r, h⟩ | ⟨_, h⟩ | ⟨_, h⟩
    · rw [h] at hp
      injection hp with hp
      rw [← hp, wrap_mod_val _ hn]
      exact mod_lt_pow_size _ hn _
    · rw [h] at hp; cases hp
    · rw [h] at hp; cases hp
  rw [rsaDecryptAndCheck_res] at hp hq
  have h1 := key R rng hk x hxw hxv p hp
  have h2 := key R' rng' hk' y hyw hyv q hq
  rw [uintToZeroizingBePad_res, uintToZeroizingBePad_res, uintToZeroizingBePad_eq, uintToZeroizingBePad_eq, if_pos h1,
    if_pos h2]
  rw [← hsz] at h2 ⊢
  rw [uintToZeroizingBePad_iff hpq h1 h2]
  simp only [Spec.outputOctets, Res.ok.injEq, octets_beBytes _ _ h1, octets_beBytes _ _ h2]

theorem uintToBePad_ev (x : BoxedUint) (k : Nat) : (uintToBePad x k).ev = (uintToZeroizingBePad x k).ev := rfl

/-- Public operation and conversion of its result. -/
theorem public_tail_iff {σ σ' : Type} {k : PublicKey} (hk : k.Coherent) (s : σ) (s' : σ') {em em' : Bytes}
    (hl : SL em em') :
    (fromBeSlice em k.nBitsPrecision >>= fun x => rsaEncrypt k x >>= fun c => uintToBePad c k.size >>= fun c =>
        ofRes (.ok (c, s))).ev =
      (fromBeSlice em' k.nBitsPrecision >>= fun x => rsaEncrypt k x >>= fun c => uintToBePad c k.size >>= fun c =>
        ofRes (.ok (c, s'))).ev ↔
    Spec.outputOctets (fun p : Bytes × σ => Spec.octetLen (Spec.os2ip p.1))
        (fromBeSlice em k.nBitsPrecision >>= fun x => rsaEncrypt k x >>= fun c => uintToBePad c k.size >>= fun c =>
          ofRes (.ok (c, s))).res =
      Spec.outputOctets (fun p : Bytes × σ' => Spec.octetLen (Spec.os2ip p.1))
        (fromBeSlice em' k.nBitsPrecision >>= fun x => rsaEncrypt k x >>= fun c => uintToBePad c k.size >>= fun c =>
          ofRes (.ok (c, s'))).res := by
  have hn := coherent_pos hk
  refine rel_iff (fromBeSlice_rel hl k k hk hk rfl) ?_
  rintro x y - - ⟨hxw, hyw⟩
  refine rel_iff (powModParams_rel (show SW x y by unfold SW; rw [hxw, hyw]) (show SW k.e k.e from rfl) rfl) ?_
  rintro p q hp hq ⟨hpw, hqw⟩
  have hp' : RSA.rsaEncrypt k x = .ok p := by rw [← rsaEncrypt_res]; exact hp
  have hq' : RSA.rsaEncrypt k y = .ok q := by rw [← rsaEncrypt_res]; exact hq
  rw [rsaEncrypt_eq _ hk] at hp' hq'
  injection hp' with hp'
  injection hq' with hq'
  have h1 : p.val < 256 ^ k.size := by rw [← hp', wrap_mod_val _ hn]; exact mod_lt_pow_size _ hn _
  have h2 : q.val < 256 ^ k.size := by rw [← hq', wrap_mod_val _ hn]; exact mod_lt_pow_size _ hn _
  have e1 : (uintToBePad p k.size).res = .ok (beBytes k.size p.val) := by
    rw [uintToBePad_res, uintToBePad_eq, if_pos h1]
  have e2 : (uintToBePad q k.size).res = .ok (beBytes k.size q.val) := by
    rw [uintToBePad_res, uintToBePad_eq, if_pos h2]
  rw [ev_bind_ok e1, ev_bind_ok e2, res_bind, res_bind, e1, e2]
  simp only [Res.ok_bind, ev_ofRes, List.append_nil, res_ofRes, uintToBePad_ev]
  rw [uintToZeroizingBePad_iff (hpw.trans hqw.symm) h1 h2]
  simp only [Spec.outputOctets, Res.ok.injEq, octets_beBytes _ _ h1, octets_beBytes _ _ h2]

end leak
end RSA
