import Verif.Proof.Trace
import Verif.Proof.LeakOps

/- Lemmas for C82: encoding, signing and encryption. -/
namespace RSA
open BoxedUint
namespace leak
open Leak

theorem Run.tr {α : Type} {x : Leak α} {E : List Ev} {P : α → Prop} (h : Run x E P) : Tr x E P := by
  obtain ⟨a, rfl, ha⟩ := h
  intro b hb
  cases hb
  exact ⟨rfl, ha⟩

theorem setIdx_tr (l : Bytes) (i : Nat) (b : UInt8) : Tr (setIdx l i b) [.write l.length i] (fun r => r.length = l.length) := by
  refine Tr.emit (Tr.ofRes ?_)
  intro a ha
  unfold RSA.setIdx at ha
  split at ha <;> cases ha
  simp

theorem subU_tr (a b : Nat) : Tr (subU a b) [.branch true] (fun r => r = a - b ∧ b ≤ a) := by
  unfold subU
  by_cases h : b ≤ a
  · exact Tr.branch_pos h (Tr.ok ⟨rfl, h⟩)
  · rw [branch_neg h]; intro a ha; cases ha

theorem addU_tr (a b : Nat) : Tr (addU a b) [.branch true] (fun r => r = a + b) := by
  unfold addU
  by_cases h : a + b < 2 ^ 64
  · exact Tr.branch_pos h (Tr.ok rfl)
  · rw [branch_neg h]; intro a ha; cases ha

theorem newVec_tr (n : Nat) (b : UInt8) : Tr (newVec n b) [.alloc n] (fun r => r.length = n) :=
  Tr.emit (Tr.ok (by simp))

theorem slice_tr (l : Bytes) (lo hi : Nat) :
    Tr (slice l lo hi) [.range l.length lo hi] (fun r => r.length = hi - lo ∧ lo ≤ hi ∧ hi ≤ l.length) := by
  refine Tr.emit (Tr.ofRes ?_)
  intro a ha
  unfold RSA.slice at ha
  split at ha <;> cases ha
  simp; omega

theorem copyInto_tr (d : Bytes) (lo hi : Nat) (s : Bytes) :
    Tr (copyInto d lo hi s) [.range d.length lo hi, .copy s.length] (fun r => r.length = d.length) := by
  refine Tr.emit (Tr.emit (Tr.ofRes ?_))
  intro a ha
  unfold RSA.copyInto at ha
  split at ha
  · split at ha <;> cases ha
    simp; omega
  · cases ha

theorem splitAt_tr (l : Bytes) (i : Nat) :
    Tr (splitAt l i) [.range l.length 0 i] (fun p => p.1.length = i ∧ p.2.length = l.length - i ∧ i ≤ l.length) := by
  refine Tr.emit (Tr.ofRes ?_)
  intro a ha
  unfold RSA.splitAt at ha
  split at ha <;> cases ha
  simp; omega

theorem tryFill_tr {σ : Type} (R : RngImpl σ) (s : σ) (n : Nat) :
    Tr (tryFill R s n) (Spec.requestTrace n) (fun p => p.1.length = n ∧ R.fill s n = (some p.1, p.2)) := by
  unfold tryFill Spec.requestTrace
  rcases h : R.fill s n with ⟨_ | b, t⟩
  · intro a ha
    simp only [res_bind, res_emit, Res.ok_bind, res_ofRes, RngImpl.tryFill, h] at ha
    cases ha
  · refine Tr.emit (Tr.emit (Tr.ofRes ?_))
    intro a ha
    simp only [RngImpl.tryFill, h] at ha
    cases ha
    exact ⟨R.fill_len s n b (by rw [h]), rfl⟩

theorem idx_tr (l : Bytes) (i : Nat) : Tr (idx l i) [.read l.length i] (fun b => l[i]? = some b) := by
  refine Tr.emit (Tr.ofRes ?_)
  intro a ha
  unfold RSA.idx at ha
  cases h : l[i]? <;> rw [h] at ha <;> cases ha
  rfl

theorem fromBeSlice_tr (b : Bytes) {n : Nat} (hn : 1 ≤ n) :
    Tr (fromBeSlice b (64 * n)) [.bignum "from_be_slice" [b.length, 64 * n]] (fun x => x.nlimbs = n) := by
  refine Tr.emit (Tr.ofRes ?_)
  intro a ha
  unfold BoxedUint.fromBeSlice at ha
  split at ha
  · cases ha
  · dsimp only at ha
    split at ha <;> cases ha
    exact limbsFor_mul hn

/-! ### PKCS#1 v1.5 -/

theorem pkcs1v15SignPad_tr (pfx hashed : Bytes) (k : Nat) :
    Tr (pkcs1v15SignPad pfx hashed k) (Spec.pkcs1v15SignPadTrace pfx.length hashed.length k) (fun em => em.length = k) := by
  unfold pkcs1v15SignPad Spec.pkcs1v15SignPadTrace
  dsimp only
  by_cases h : k < pfx.length + hashed.length + 11
  · rw [branch_pos h]; intro a ha; cases ha
  refine Tr.branch_neg h ?_
  refine Tr.cast (E := [.alloc k] ++ ([.write k 0] ++ ([.write k 1] ++ ([.branch true] ++ ([.branch true] ++
    ([.write k (k - (pfx.length + hashed.length) - 1)] ++ ([.branch true] ++
    ([.range k (k - (pfx.length + hashed.length)) (k - hashed.length), .copy pfx.length] ++
    ([.range k (k - hashed.length) k, .copy hashed.length] ++ []))))))))) ?_ rfl
  refine Tr.bind (newVec_tr k _) fun e0 h0 => ?_
  refine Tr.bind (Tr.cast (setIdx_tr e0 0 _) (by rw [h0])) fun e1 h1 => ?_
  refine Tr.bind (Tr.cast (setIdx_tr e1 1 _) (by rw [h1, h0])) fun e2 h2 => ?_
  refine Tr.bind (subU_tr _ _) fun o ho => Tr.bind (subU_tr _ _) fun o1 ho1 => ?_
  rw [ho1.1, ho.1]
  refine Tr.bind (Tr.cast (setIdx_tr e2 _ _) (by rw [h2, h1, h0])) fun e3 h3 => ?_
  refine Tr.bind (subU_tr _ _) fun oh hoh => ?_
  rw [hoh.1]
  refine Tr.bind (Tr.cast (copyInto_tr e3 _ _ _) (by rw [h3, h2, h1, h0])) fun e4 h4 => ?_
  refine Tr.bind (Tr.cast (copyInto_tr e4 _ _ _) (by rw [h4, h3, h2, h1, h0])) fun e5 h5 => ?_
  exact Tr.ok (by rw [h5, h4, h3, h2, h1, h0])

theorem rerollByte_tr {σ : Type} (R : RngImpl σ) : ∀ (fuel : Nat) (s : σ),
    Tr (rerollByte R fuel s) (Spec.redrawTrace R fuel s).1 (fun p => p.2 = (Spec.redrawTrace R fuel s).2)
  | 0, _ => by intro a ha; cases ha
  | fuel + 1, s => by
    unfold rerollByte
    rcases hf : R.fill s 1 with ⟨_ | b, t⟩
    · intro a ha
      simp only [tryFill, res_bind, res_emit, Res.ok_bind, res_ofRes, RngImpl.tryFill, hf] at ha
      cases ha
    obtain ⟨x, rfl⟩ : ∃ x, b = [x] := List.length_eq_one_iff.mp (R.fill_len s 1 b (by rw [hf]))
    have he : Spec.redrawTrace R (fuel + 1) s =
      (Spec.requestTrace 1 ++ [.read 1 0, .branch (decide (x = 0))] ++
          (if x = 0 then Spec.redrawTrace R fuel t else ([], t)).1,
        (if x = 0 then Spec.redrawTrace R fuel t else ([], t)).2) := by
      rw [Spec.redrawTrace, hf]
      simp
    rw [he]
    refine Tr.cast (E := Spec.requestTrace 1 ++ ([.read 1 0] ++ (.branch (decide (x = 0)) ::
      (if x = 0 then Spec.redrawTrace R fuel t else ([], t)).1))) ?_ (by simp)
    refine Tr.bind (tryFill_tr R s 1) ?_
    rintro ⟨b, t'⟩ ⟨hb, ht⟩
    dsimp only at hb ht ⊢
    rw [hf] at ht
    obtain ⟨rfl, rfl⟩ : [x] = b ∧ t = t' := by simpa using ht
    refine Tr.bind (idx_tr _ 0) ?_
    intro y hy
    obtain rfl : x = y := by simpa using hy
    by_cases hx : x = 0
    · rw [if_pos hx, decide_eq_true hx]
      exact Tr.branch_pos hx (rerollByte_tr R fuel t)
    · rw [if_neg hx, decide_eq_false hx]
      exact Tr.branch_neg hx (Tr.ok rfl)

theorem fixZeros_tr {σ : Type} (R : RngImpl σ) (fuel : Nat) : ∀ (l : Bytes) (s : σ),
    Tr (fixZeros R fuel l s) (Spec.replaceTrace R fuel l s) (fun p => p.1.length = l.length)
  | [], s => Tr.ok rfl
  | b :: bs, s => by
    unfold fixZeros Spec.replaceTrace
    by_cases hb : b = 0
    · rw [if_pos hb, branch_pos hb, Leak.bind_assoc]
      refine Tr.emit ?_
      refine Tr.bind (rerollByte_tr R fuel s) ?_
      rintro ⟨el, t⟩ ht
      dsimp only at ht ⊢
      rw [← ht]
      refine Tr.cast (Tr.bind (E' := []) (fixZeros_tr R fuel bs t) ?_) (by simp)
      rintro ⟨rest, t'⟩ hr
      exact Tr.ok (by simpa using hr)
    · rw [if_neg hb, branch_neg hb, Leak.bind_assoc]
      refine Tr.emit ?_
      rw [ofRes_ok_bind]
      refine Tr.cast (Tr.bind (E' := []) (fixZeros_tr R fuel bs s) ?_) (by simp)
      rintro ⟨rest, t'⟩ hr
      exact Tr.ok (by simpa using hr)

theorem nonZeroRandomBytes_tr {σ : Type} (R : RngImpl σ) (fuel : Nat) (s : σ) (n : Nat) :
    Tr (nonZeroRandomBytes R fuel s n) (Spec.nonZeroTrace R fuel s n) (fun p => p.1.length = n) := by
  unfold nonZeroRandomBytes Spec.nonZeroTrace
  refine Tr.bind (tryFill_tr R s n) ?_
  rintro ⟨b, t⟩ ⟨hb, ht⟩
  dsimp only at hb ht ⊢
  rw [ht]
  exact Tr.mono (fixZeros_tr R fuel b t) fun p hp => by rw [hp, hb]

theorem pkcs1v15EncryptPad_tr {σ : Type} (R : RngImpl σ) (fuel : Nat) (s : σ) (msg : Bytes) (k : Nat) :
    Tr (pkcs1v15EncryptPad R fuel s msg k) (Spec.pkcs1v15EncryptPadTrace R fuel s msg.length k) (fun p => p.1.length = k) := by
  unfold pkcs1v15EncryptPad Spec.pkcs1v15EncryptPadTrace
  by_cases h : msg.length + 11 > k
  · rw [branch_pos h]; intro a ha; cases ha
  refine Tr.cast (E := .branch false :: ([.alloc k] ++ ([.write k 1] ++ ([.branch true] ++ ([.branch true] ++
    ([.range k 2 (k - msg.length - 1)] ++ (Spec.nonZeroTrace R fuel s (k - msg.length - 3) ++
    ([.range k 2 (k - msg.length - 1), .copy (k - msg.length - 3)] ++ ([.write k (k - msg.length - 1)] ++
    ([.range k (k - msg.length) k, .copy msg.length] ++ [])))))))))) ?_ (by simp)
  refine Tr.branch_neg h ?_
  refine Tr.bind (newVec_tr k _) fun e0 h0 => ?_
  refine Tr.bind (Tr.cast (setIdx_tr e0 1 _) (by rw [h0])) fun e1 h1 => ?_
  refine Tr.bind (subU_tr _ _) fun o ho => Tr.bind (subU_tr _ _) fun o1 ho1 => ?_
  rw [ho1.1, ho.1]
  refine Tr.bind (Tr.cast (slice_tr e1 _ _) (by rw [h1, h0])) fun cur hcur => ?_
  have hcl : cur.length = k - msg.length - 3 := by rw [hcur.1]; omega
  refine Tr.bind (Tr.cast (nonZeroRandomBytes_tr R fuel s _) (by rw [hcl])) ?_
  rintro ⟨ps, t⟩ hps
  dsimp only at hps ⊢
  refine Tr.bind (Tr.cast (copyInto_tr e1 _ _ ps) (by rw [h1, h0, hps, hcl])) fun e2 h2 => ?_
  refine Tr.bind (Tr.cast (setIdx_tr e2 _ _) (by rw [h2, h1, h0])) fun e3 h3 => ?_
  refine Tr.bind (Tr.cast (copyInto_tr e3 _ _ _) (by rw [h3, h2, h1, h0])) fun e4 h4 => ?_
  exact Tr.ok (by rw [h4, h3, h2, h1, h0])

/-! ### OAEP -/

theorem oaepEncryptInternal_tr {σ : Type} (R : RngImpl σ) (s : σ) (msg pHash : Bytes) (h k : Nat) (hp : pHash.length = h)
    {mgf : Bytes → Bytes → Leak (Bytes × Bytes)} {M : List Ev}
    (hm : 2 * h + 2 ≤ k → ∀ seed db : Bytes, seed.length = h → db.length = k - 1 - h →
      Tr (mgf seed db) M (fun p => p.1.length = h ∧ p.2.length = k - 1 - h)) :
    Tr (oaepEncryptInternal R s msg pHash h k mgf)
      ([.branch false, .alloc k, .range k 0 1, .range (k - 1) 0 h] ++ Spec.requestTrace h ++
    [.branch true, .branch true, .range (k - 1 - h) 0 h, .copy h, .branch true, .branch true,
      .write (k - 1 - h) (k - 1 - h - msg.length - 1), .range (k - 1 - h) (k - 1 - h - msg.length) (k - 1 - h),
      .copy msg.length] ++ M) (fun p => p.1.length = k) := by
  unfold oaepEncryptInternal
  by_cases hl : msg.length + 2 * h + 2 > k
  · rw [branch_pos hl]; intro a ha; cases ha
  refine Tr.cast (E := .branch false :: ([.alloc k] ++ ([.range k 0 1] ++ ([.range (k - 1) 0 h] ++ (Spec.requestTrace h ++
    ([.branch true] ++ ([.branch true] ++ ([.range (k - 1 - h) 0 h, .copy h] ++ ([.branch true] ++ ([.branch true] ++
    ([.write (k - 1 - h) (k - 1 - h - msg.length - 1)] ++ ([.range (k - 1 - h) (k - 1 - h - msg.length) (k - 1 - h),
      .copy msg.length] ++ (M ++ []))))))))))))) ?_ (by simp)
  refine Tr.branch_neg hl ?_
  refine Tr.bind (newVec_tr k _) fun em hem => ?_
  refine Tr.bind (Tr.cast (splitAt_tr em 1) (by rw [hem])) ?_
  rintro ⟨first, payload⟩ ⟨hf, hpl, -⟩
  dsimp only at hf hpl ⊢
  refine Tr.bind (Tr.cast (splitAt_tr payload h) (by rw [hpl, hem])) ?_
  rintro ⟨seed, db⟩ ⟨hs, hdb, -⟩
  dsimp only at hs hdb ⊢
  rw [hpl, hem] at hdb
  refine Tr.bind (Tr.cast (tryFill_tr R s _) (by rw [hs])) ?_
  rintro ⟨seed', t⟩ ⟨hs', -⟩
  dsimp only at hs' ⊢
  refine Tr.bind (subU_tr _ _) fun o ho => Tr.bind (subU_tr _ _) fun o1 ho1 => ?_
  have ho1 : o1 = k - 1 - h := by omega
  subst ho1
  refine Tr.bind (Tr.cast (copyInto_tr db _ _ pHash) (by rw [hdb, hp])) fun d1 h1 => ?_
  refine Tr.bind (subU_tr _ _) fun o2 ho2 => Tr.bind (subU_tr _ _) fun o3 ho3 => ?_
  rw [ho3.1, ho2.1]
  refine Tr.bind (Tr.cast (setIdx_tr d1 _ _) (by rw [h1, hdb])) fun d2 h2 => ?_
  refine Tr.bind (Tr.cast (copyInto_tr d2 _ _ msg) (by rw [h2, h1, hdb])) fun d3 h3 => ?_
  refine Tr.bind (hm (by omega) seed' d3 (by rw [hs', hs]) (by rw [h3, h2, h1, hdb])) ?_
  rintro ⟨a, b⟩ ⟨ha, hb⟩
  dsimp only at ha hb ⊢
  refine Tr.ok ?_
  simp only [List.length_append]
  omega

theorem mgf1Xor_tr {out seed : Bytes} {dg : DigestState} (hpos : 0 < dg.fn.outLen) :
    Tr (mgf1Xor out dg seed) (Spec.mgfTrace (Spec.hashing seed.length dg.buf.length) dg.fn.outLen out.length)
      (fun p => p.1.length = out.length ∧ p.2.fn = dg.fn ∧ p.2.buf = if out.length = 0 then dg.buf else []) := by
  by_cases hl : out.length ≤ 2 ^ 32
  · exact Run.tr (mgf1Xor_run hpos hl)
  · unfold mgf1Xor
    rw [branch_neg hl]; intro a ha; cases ha

theorem mgf1XorDigest_tr {out seed : Bytes} {dg : DigestState} (hpos : 0 < dg.fn.outLen) :
    Tr (mgf1XorDigest out dg seed) (Spec.mgfTrace (Spec.hashingDigest seed.length dg.buf.length) dg.fn.outLen out.length)
      (fun p => p.1.length = out.length ∧ p.2.fn = dg.fn ∧ p.2.buf = if out.length = 0 then dg.buf else []) := by
  by_cases hl : out.length ≤ 2 ^ 32
  · exact Run.tr (mgf1XorDigest_run hpos hl)
  · unfold mgf1XorDigest
    rw [branch_neg hl]; intro a ha; cases ha

theorem oaepEncrypt_tr {σ : Type} (R : RngImpl σ) (s : σ) (msg : Bytes) (dg mg : DigestState) (label : Option Bytes)
    (k : Nat) (hpos' : 0 < mg.fn.outLen) :
    Tr (oaepEncrypt R s msg dg mg label k)
      (Spec.oaepPadTrace [.absorb (label.getD []).length, .finalize (dg.buf.length + (label.getD []).length)]
        (Spec.oaepPadMaskTrace dg.fn.outLen mg.fn.outLen k mg.buf.length) dg.fn.outLen msg.length k)
      (fun p => p.1.length = k) := by
  unfold oaepEncrypt Spec.oaepPadTrace
  dsimp only
  by_cases hl : (label.getD []).length ≥ maxLabelLen
  · rw [branch_pos hl]; intro a ha; cases ha
  refine Tr.branch_neg hl ?_
  have hp : ((dg.update (label.getD [])).finalizeReset).1.length = dg.fn.outLen := (dg.update _).fn.hash_len _
  have hb : (dg.update (label.getD [])).buf.length = dg.buf.length + (label.getD []).length := by
    unfold DigestState.update; simp
  rw [show DigestState.outputSize dg = dg.fn.outLen from rfl]
  refine Tr.cast (E := [.absorb (label.getD []).length] ++ ([.finalize (dg.buf.length + (label.getD []).length)] ++
    ([.branch false, .alloc k, .range k 0 1, .range (k - 1) 0 dg.fn.outLen] ++ Spec.requestTrace dg.fn.outLen ++
    [.branch true, .branch true, .range (k - 1 - dg.fn.outLen) 0 dg.fn.outLen, .copy dg.fn.outLen, .branch true, .branch true,
      .write (k - 1 - dg.fn.outLen) (k - 1 - dg.fn.outLen - msg.length - 1),
      .range (k - 1 - dg.fn.outLen) (k - 1 - dg.fn.outLen - msg.length) (k - 1 - dg.fn.outLen),
      .copy msg.length] ++ (Spec.mgfTrace (Spec.hashing dg.fn.outLen mg.buf.length) mg.fn.outLen (k - 1 - dg.fn.outLen) ++
        (Spec.mgfTrace (Spec.hashing (k - 1 - dg.fn.outLen) 0) mg.fn.outLen dg.fn.outLen ++ []))))) ?_
    (by unfold Spec.oaepPadMaskTrace; simp)
  refine Tr.bind (Run.tr (update_run dg _)) ?_
  rintro d rfl
  refine Tr.bind (Tr.cast (Run.tr (finalizeReset_run _)) (by rw [hb])) ?_
  rintro p rfl
  refine oaepEncryptInternal_tr R s msg _ _ k hp ?_
  intro hk seed db hs hd
  refine Tr.bind (Tr.cast (mgf1Xor_tr hpos') (by rw [hs, hd])) ?_
  rintro ⟨x, g⟩ ⟨h1, h2, h3⟩
  dsimp only at h1 h2 h3 ⊢
  rw [if_neg (by omega)] at h3
  refine Tr.bind (Tr.cast (mgf1Xor_tr (by rw [h2]; exact hpos')) (by rw [h1, h2, h3, hs, hd]; rfl)) ?_
  rintro ⟨y, g'⟩ ⟨h4, -, -⟩
  exact Tr.ok ⟨by rw [h4, hs], by rw [h1, hd]⟩

theorem oaepEncryptDigest_tr {σ : Type} (R : RngImpl σ) (s : σ) (msg : Bytes) (D MGD : HashFn) (label : Option Bytes)
    (k : Nat) (hpos' : 0 < MGD.outLen) :
    Tr (oaepEncryptDigest R s msg D MGD label k)
      (Spec.oaepPadTrace [.absorb (label.getD []).length]
        (Spec.oaepPadMaskTraceDigest D.outLen MGD.outLen k) D.outLen msg.length k)
      (fun p => p.1.length = k) := by
  unfold oaepEncryptDigest Spec.oaepPadTrace
  dsimp only
  by_cases hl : (label.getD []).length ≥ maxLabelLen
  · rw [branch_pos hl]; intro a ha; cases ha
  refine Tr.branch_neg hl ?_
  refine Tr.cast (E := .absorb (label.getD []).length ::
    ([.branch false, .alloc k, .range k 0 1, .range (k - 1) 0 D.outLen] ++ Spec.requestTrace D.outLen ++
    [.branch true, .branch true, .range (k - 1 - D.outLen) 0 D.outLen, .copy D.outLen, .branch true, .branch true,
      .write (k - 1 - D.outLen) (k - 1 - D.outLen - msg.length - 1),
      .range (k - 1 - D.outLen) (k - 1 - D.outLen - msg.length) (k - 1 - D.outLen),
      .copy msg.length] ++ (Spec.mgfTrace (Spec.hashingDigest D.outLen 0) MGD.outLen (k - 1 - D.outLen) ++
        (Spec.mgfTrace (Spec.hashingDigest (k - 1 - D.outLen) 0) MGD.outLen D.outLen ++ [])))) ?_
    (by unfold Spec.oaepPadMaskTraceDigest; simp)
  refine Tr.emit ?_
  refine oaepEncryptInternal_tr R s msg _ _ k (D.hash_len _) ?_
  intro hk seed db hs hd
  refine Tr.bind (Tr.cast (mgf1XorDigest_tr hpos') (by rw [hs, hd]; rfl)) ?_
  rintro ⟨x, g⟩ ⟨h1, h2, h3⟩
  dsimp only at h1 h2 h3 ⊢
  rw [if_neg (by omega)] at h3
  refine Tr.bind (Tr.cast (mgf1XorDigest_tr (by rw [h2]; exact hpos')) (by rw [h1, h2, h3, hs, hd]; rfl)) ?_
  rintro ⟨y, g'⟩ ⟨h4, -, -⟩
  exact Tr.ok ⟨by rw [h4, hs], by rw [h1, hd]⟩

/-! ### PSS -/

theorem emsaPssEncode_tr (mHash : Bytes) (emBits : Nat) (salt : Bytes) (dg : DigestState) (hpos : 0 < dg.fn.outLen) :
    Tr (emsaPssEncode mHash emBits salt dg)
      (Spec.pssPadTrace (Spec.mgfTrace (Spec.hashing dg.fn.outLen 0) dg.fn.outLen (divCeil emBits 8 - dg.fn.outLen - 1))
        dg.fn.outLen salt.length (divCeil emBits 8) dg.buf.length) (fun em => em.length = divCeil emBits 8) := by
  unfold emsaPssEncode Spec.pssPadTrace
  rw [show DigestState.outputSize dg = dg.fn.outLen from rfl]
  dsimp only
  generalize divCeil emBits 8 = len
  generalize hh : dg.fn.outLen = h at *
  by_cases hm : mHash.length ≠ h
  · rw [branch_pos hm]; intro a ha; cases ha
  have hm' : mHash.length = h := by omega
  simp only [List.cons_append, List.nil_append, List.append_assoc]
  refine Tr.branch_neg hm ?_
  refine Tr.bind (E := [_]) (addU_tr _ _) fun n1 hn1 => ?_
  refine Tr.bind (E := [_]) (addU_tr _ _) fun n2 hn2 => ?_
  by_cases hlen : len < n2
  · rw [branch_pos hlen]; intro a ha; cases ha
  refine Tr.branch_neg hlen ?_
  refine Tr.bind (E := [_]) (newVec_tr len _) fun em hem => ?_
  refine Tr.bind (E := [_]) (subU_tr _ _) fun c1 hc1 => ?_
  refine Tr.bind (E := [_]) (subU_tr _ _) fun c2 hc2 => ?_
  have hcut : c2 = len - h - 1 := by omega
  subst hcut
  refine Tr.bind (E := [_]) (Tr.cast (splitAt_tr em _) (by rw [hem])) ?_
  rintro ⟨db, hb⟩ ⟨hd, hhb, -⟩
  dsimp only at hd hhb ⊢
  refine Tr.bind (E := [_]) (subU_tr _ _) fun l1 hl1 => ?_
  refine Tr.bind (E := [_]) (subU_tr _ _) fun l2 hl2 => ?_
  have hl : l2 = h := by omega
  have hhb' : hb.length = h + 1 := by omega
  subst hl
  refine Tr.bind (E := [_]) (Tr.cast (slice_tr hb _ _) (by rw [hhb'])) fun _ _ => ?_
  refine Tr.bind (E := [_]) (Tr.cast (Run.tr (update_run dg _)) rfl) ?_
  rintro d1 rfl
  refine Tr.bind (E := [_]) (Tr.cast (Run.tr (update_run _ mHash)) (by rw [hm'])) ?_
  rintro d2 rfl
  refine Tr.bind (E := [_]) (Run.tr (update_run _ salt)) ?_
  rintro d3 rfl
  refine Tr.bind (E := [.finalize (dg.buf.length + 8 + l2 + salt.length)]) (Tr.cast (Run.tr (finalizeReset_run _)) (by
    simp [DigestState.update, hm', Nat.add_assoc]; omega)) ?_
  rintro p rfl
  have hfl : (((dg.update (List.replicate 8 0)).update mHash).update salt).finalizeReset.1.length = l2 := by
    rw [← hh]; exact (((dg.update (List.replicate 8 0)).update mHash).update salt).fn.hash_len _
  refine Tr.bind (E := [_, _]) (Tr.cast (copyInto_tr hb _ _ _) (by rw [hhb', hfl])) fun hb1 hhb1 => ?_
  refine Tr.bind (E := [_]) (subU_tr _ _) fun o1 ho1 => ?_
  refine Tr.bind (E := [_]) (subU_tr _ _) fun o2 ho2 => ?_
  refine Tr.bind (E := [_]) (subU_tr _ _) fun o3 ho3 => ?_
  rw [ho3.1, ho2.1, ho1.1]
  refine Tr.bind (E := [_]) (Tr.cast (setIdx_tr db _ _) (by rw [hd])) fun db1 hdb1 => ?_
  refine Tr.bind (E := [_]) (subU_tr _ _) fun o4 ho4 => ?_
  rw [ho4.1]
  refine Tr.bind (E := [_, _]) (Tr.cast (copyInto_tr db1 _ _ salt) (by rw [hdb1, hd])) fun db2 hdb2 => ?_
  refine Tr.bind (E := [_]) (Tr.cast (slice_tr hb1 _ _) (by rw [hhb1, hhb'])) fun hv hhv => ?_
  have hhv' : hv.length = l2 := by rw [hhv.1]; rfl
  have hmg := mgf1Xor_tr (out := db2) (seed := hv)
    (dg := (((dg.update (List.replicate 8 0)).update mHash).update salt).finalizeReset.2) (by rw [← hh] at hpos; exact hpos)
  rw [show (((dg.update (List.replicate 8 0)).update mHash).update salt).finalizeReset.2.fn.outLen = l2 from hh, hhv', hdb2,
    hdb1, hd] at hmg
  refine Tr.bind hmg ?_
  rintro ⟨db3, g⟩ ⟨hdb3, -, -⟩
  dsimp only at hdb3 ⊢
  have hdl : db3.length = len - l2 - 1 := hdb3
  refine Tr.bind (E := [_]) (subU_tr _ _) fun sh hsh => ?_
  refine Tr.bind (E := []) (P := fun _ => True) (Tr.ofRes fun _ _ => trivial) fun mask _ => ?_
  refine Tr.bind (E := [_]) (Tr.cast (idx_tr db3 0) (by rw [hdl])) fun d0 _ => ?_
  refine Tr.bind (E := [_]) (Tr.cast (setIdx_tr db3 0 _) (by rw [hdl])) fun db4 hdb4 => ?_
  refine Tr.bind (E := [_]) (subU_tr _ _) fun last hlast => ?_
  rw [hlast.1]
  have hlen' : (db4 ++ hb1).length = len := by rw [List.length_append, hdb4, hdl, hhb1, hhb']; omega
  exact Tr.mono (Tr.cast (setIdx_tr _ _ _) (by rw [hlen'])) fun a ha => by rw [ha, hlen']

theorem emsaPssEncodeDigest_tr (mHash : Bytes) (emBits : Nat) (salt : Bytes) (D : HashFn) (hpos : 0 < D.outLen) :
    Tr (emsaPssEncodeDigest mHash emBits salt D)
      (Spec.pssPadTrace (Spec.mgfTrace (Spec.hashingDigest D.outLen 0) D.outLen (divCeil emBits 8 - D.outLen - 1))
        D.outLen salt.length (divCeil emBits 8) 0) (fun em => em.length = divCeil emBits 8) := by
  unfold emsaPssEncodeDigest Spec.pssPadTrace
  dsimp only
  generalize divCeil emBits 8 = len
  generalize hh : D.outLen = h at *
  by_cases hm : mHash.length ≠ h
  · rw [branch_pos hm]; intro a ha; cases ha
  have hm' : mHash.length = h := by omega
  simp only [List.cons_append, List.nil_append, List.append_assoc]
  refine Tr.branch_neg hm ?_
  refine Tr.bind (E := [_]) (addU_tr _ _) fun n1 hn1 => ?_
  refine Tr.bind (E := [_]) (addU_tr _ _) fun n2 hn2 => ?_
  by_cases hlen : len < n2
  · rw [branch_pos hlen]; intro a ha; cases ha
  refine Tr.branch_neg hlen ?_
  refine Tr.bind (E := [_]) (newVec_tr len _) fun em hem => ?_
  refine Tr.bind (E := [_]) (subU_tr _ _) fun c1 hc1 => ?_
  refine Tr.bind (E := [_]) (subU_tr _ _) fun c2 hc2 => ?_
  have hcut : c2 = len - h - 1 := by omega
  subst hcut
  refine Tr.bind (E := [_]) (Tr.cast (splitAt_tr em _) (by rw [hem])) ?_
  rintro ⟨db, hb⟩ ⟨hd, hhb, -⟩
  dsimp only at hd hhb ⊢
  refine Tr.bind (E := [_]) (subU_tr _ _) fun l1 hl1 => ?_
  refine Tr.bind (E := [_]) (subU_tr _ _) fun l2 hl2 => ?_
  have hl : l2 = h := by omega
  have hhb' : hb.length = h + 1 := by omega
  subst hl
  refine Tr.bind (E := [_]) (Tr.cast (slice_tr hb _ _) (by rw [hhb'])) fun _ _ => ?_
  refine Tr.bind (E := [_]) (Tr.cast (Run.tr (update_run (DigestState.new D) _)) rfl) ?_
  rintro d1 rfl
  refine Tr.bind (E := [_]) (Tr.cast (Run.tr (update_run _ mHash)) (by rw [hm'])) ?_
  rintro d2 rfl
  refine Tr.bind (E := [_]) (Run.tr (update_run _ salt)) ?_
  rintro d3 rfl
  refine Tr.bind (E := [.finalize (0 + 8 + l2 + salt.length)]) (Tr.cast (Run.tr (finalizeReset_run _)) (by
    simp [DigestState.new, DigestState.update, hm', Nat.add_assoc]; omega)) ?_
  rintro p rfl
  have hfl : ((((DigestState.new D).update (List.replicate 8 0)).update mHash).update salt).finalizeReset.1.length = l2 := by
    rw [← hh]; exact ((((DigestState.new D).update (List.replicate 8 0)).update mHash).update salt).fn.hash_len _
  refine Tr.bind (E := [_, _]) (Tr.cast (copyInto_tr hb _ _ _) (by rw [hhb', hfl])) fun hb1 hhb1 => ?_
  refine Tr.bind (E := [_]) (subU_tr _ _) fun o1 ho1 => ?_
  refine Tr.bind (E := [_]) (subU_tr _ _) fun o2 ho2 => ?_
  refine Tr.bind (E := [_]) (subU_tr _ _) fun o3 ho3 => ?_
  rw [ho3.1, ho2.1, ho1.1]
  refine Tr.bind (E := [_]) (Tr.cast (setIdx_tr db _ _) (by rw [hd])) fun db1 hdb1 => ?_
  refine Tr.bind (E := [_]) (subU_tr _ _) fun o4 ho4 => ?_
  rw [ho4.1]
  refine Tr.bind (E := [_, _]) (Tr.cast (copyInto_tr db1 _ _ salt) (by rw [hdb1, hd])) fun db2 hdb2 => ?_
  refine Tr.bind (E := [_]) (Tr.cast (slice_tr hb1 _ _) (by rw [hhb1, hhb'])) fun hv hhv => ?_
  have hhv' : hv.length = l2 := by rw [hhv.1]; rfl
  have hmg := mgf1XorDigest_tr (out := db2) (seed := hv)
    (dg := ((((DigestState.new D).update (List.replicate 8 0)).update mHash).update salt).finalizeReset.2) (by rw [← hh] at hpos; exact hpos)
  rw [show ((((DigestState.new D).update (List.replicate 8 0)).update mHash).update salt).finalizeReset.2.fn.outLen = l2 from hh, hhv', hdb2,
    hdb1, hd] at hmg
  refine Tr.bind hmg ?_
  rintro ⟨db3, g⟩ ⟨hdb3, -, -⟩
  dsimp only at hdb3 ⊢
  have hdl : db3.length = len - l2 - 1 := hdb3
  refine Tr.bind (E := [_]) (subU_tr _ _) fun sh hsh => ?_
  refine Tr.bind (E := []) (P := fun _ => True) (Tr.ofRes fun _ _ => trivial) fun mask _ => ?_
  refine Tr.bind (E := [_]) (Tr.cast (idx_tr db3 0) (by rw [hdl])) fun d0 _ => ?_
  refine Tr.bind (E := [_]) (Tr.cast (setIdx_tr db3 0 _) (by rw [hdl])) fun db4 hdb4 => ?_
  refine Tr.bind (E := [_]) (subU_tr _ _) fun last hlast => ?_
  rw [hlast.1]
  have hlen' : (db4 ++ hb1).length = len := by rw [List.length_append, hdb4, hdl, hhb1, hhb']; omega
  exact Tr.mono (Tr.cast (setIdx_tr _ _ _) (by rw [hlen'])) fun a ha => by rw [ha, hlen']

/-! ### Whole operations -/

theorem Tr.of_ok {α : Type} {x : Leak α} {E : List Ev} {P : α → Prop} {a : α} (h : Tr x E P) (ha : x.res = .ok a) :
    x = ⟨E, .ok a⟩ := by
  obtain ⟨h1, -⟩ := h a ha
  rcases x with ⟨ev, r⟩
  simp only at h1 ha
  rw [h1, ha]

theorem toOctets_tr (x : BoxedUint) (k : Nat) :
    Tr (uintToZeroizingBePad x k) (Spec.toOctetsTrace x.nlimbs (Spec.octetLen x.val) k)
      (fun b => Spec.os2ip b = x.val) := by
  intro a ha
  by_cases h : x.val < 256 ^ k
  · refine ⟨uintToZeroizingBePad_ev x k h, ?_⟩
    rw [uintToZeroizingBePad_res, uintToZeroizingBePad_eq, if_pos h] at ha
    cases ha
    rw [← beVal_eq_os2ip, beVal_beBytes, Nat.mod_eq_of_lt h]
  · rw [uintToZeroizingBePad_res, uintToZeroizingBePad_eq, if_neg h] at ha
    cases ha

/-- A block given to the private operation and the result converted back. -/
theorem private_tr {σ : Type} (R : RngImpl σ) (fuel : Nat) {k : PrivateKey} (hk : Spec.Sized k) (hn : 1 < k.pub.n.val)
    (rng : Option σ) (em : Bytes) {sig : Bytes}
    (h : (fromBeSlice em k.pub.nBitsPrecision >>= fun x => rsaDecryptAndCheck R fuel k rng x >>= fun p =>
      uintToZeroizingBePad p.1 k.pub.size : Leak Bytes).res = .ok sig) :
    (fromBeSlice em k.pub.nBitsPrecision >>= fun x => rsaDecryptAndCheck R fuel k rng x >>= fun p =>
      uintToZeroizingBePad p.1 k.pub.size : Leak Bytes).ev =
    .bignum "from_be_slice" [em.length, 64 * k.pub.n.nlimbs] ::
      (Spec.privateTrace R fuel k.pub.n.val (Spec.sizes k) rng ++
        Spec.toOctetsTrace k.pub.n.nlimbs (Spec.octetLen (Spec.os2ip sig)) k.pub.size) := by
  have hL := nlimbs_pos_of_val_pos k.pub.n (by omega)
  rw [show k.pub.nBitsPrecision = 64 * k.pub.n.nlimbs from rfl] at h ⊢
  rw [res_bind] at h
  obtain ⟨x, hx, h⟩ := Res.bind_eq_ok.mp h
  rw [res_bind] at h
  obtain ⟨p, hp, h⟩ := Res.bind_eq_ok.mp h
  obtain ⟨e1, hxl⟩ := fromBeSlice_tr em hL x hx
  obtain ⟨e2, hpl⟩ := rsaDecryptAndCheck_tr' R fuel hk hn rng hxl p hp
  obtain ⟨e3, hv⟩ := toOctets_tr _ _ sig h
  rw [ev_bind_ok hx, ev_bind_ok hp, e1, e2, e3, hpl, hv]
  rfl

/-- A block given to the public operation and the result converted back. -/
theorem public_tr {σ : Type} {k : PublicKey} (hk : k.Coherent) (hn : 0 < k.n.val) (em : Bytes) (rng : σ) {c : Bytes × σ}
    (h : (fromBeSlice em k.nBitsPrecision >>= fun x => rsaEncrypt k x >>= fun c => uintToBePad c k.size >>= fun c =>
      ofRes (.ok (c, rng)) : Leak (Bytes × σ)).res = .ok c) :
    (fromBeSlice em k.nBitsPrecision >>= fun x => rsaEncrypt k x >>= fun c => uintToBePad c k.size >>= fun c =>
      ofRes (.ok (c, rng)) : Leak (Bytes × σ)).ev =
    Spec.publicTrace k.n.nlimbs k.e.nlimbs em.length (Spec.octetLen (Spec.os2ip c.1)) k.size := by
  have hL := nlimbs_pos_of_val_pos k.n (by omega)
  have hp : limbsOf k.nParams = k.n.nlimbs := by
    unfold limbsOf; unfold PublicKey.Coherent at hk; rw [hk]
  rw [show k.nBitsPrecision = 64 * k.n.nlimbs from rfl] at h ⊢
  rw [res_bind] at h
  obtain ⟨x, hx, h⟩ := Res.bind_eq_ok.mp h
  rw [res_bind] at h
  obtain ⟨y, hy, h⟩ := Res.bind_eq_ok.mp h
  rw [res_bind] at h
  obtain ⟨z, hz, h⟩ := Res.bind_eq_ok.mp h
  cases h
  obtain ⟨e1, hxl⟩ := fromBeSlice_tr em hL x hx
  obtain ⟨e2, hyl⟩ := powModParams_tr x k.e k.nParams hL hp y hy
  have hz' : (uintToZeroizingBePad y k.size).res = .ok z := hz
  obtain ⟨e3, hv⟩ := toOctets_tr y k.size z hz'
  rw [ev_bind_ok hx, ev_bind_ok hy, ev_bind_ok hz, e1, uintToBePad_ev, e3, show (rsaEncrypt k x).ev = _ from e2, hxl, hyl, hv]
  unfold Spec.publicTrace
  simp

/-- The decrypted integer converted to octets and given to the padding removal. -/
theorem decrypt_ev {σ : Type} (R : RngImpl σ) (fuel : Nat) (rng : Option σ) {k : PrivateKey} (hk : Spec.WellFormed k)
    (hb : Spec.BlindingOk R k.pub.n.val fuel rng) (ct : Bytes) (hl : ct.length ≤ 8 * k.pub.n.nlimbs)
    (hv : beVal ct < k.pub.n.val) (f : Bytes → Leak Bytes) :
    (ofRes (BoxedUint.fromBeSlice ct k.pub.nBitsPrecision) >>= fun c => rsaDecryptAndCheck R fuel k rng c >>= fun p =>
      uintToZeroizingBePad p.1 k.pub.size >>= f : Leak Bytes) =
    ⟨Spec.privateTrace R fuel k.pub.n.val (Spec.sizes k) rng ++
      Spec.toOctetsTrace k.pub.n.nlimbs (Spec.octetLen (beVal ct ^ k.d.val % k.pub.n.val)) k.pub.size ++
      (f (beBytes k.pub.size (beVal ct ^ k.d.val % k.pub.n.val))).ev,
      (f (beBytes k.pub.size (beVal ct ^ k.d.val % k.pub.n.val))).res⟩ := by
  have hn := modulus_one_lt hk
  have hsz : Spec.Sized k := ⟨hk.coherent, by simpa using hk.numbers.two, hk.width, fun pre h =>
    ⟨(hk.cache pre h).qinv_params, (hk.cache pre h).p_width, (hk.cache pre h).q_width⟩⟩
  have hwv : (wrap k.pub.n.nlimbs (beVal ct)).val = beVal ct := wrap_lt_val hv
  have hlt : (wrap k.pub.n.nlimbs (beVal ct)).val < k.pub.n.val := by rw [hwv]; exact hv
  obtain ⟨r, hr⟩ := rsaDecryptAndCheck_ok R fuel rng hk (wrap k.pub.n.nlimbs (beVal ct)) rfl hlt hb
  rw [← rsaDecryptAndCheck_res] at hr
  have hX := Tr.of_ok (rsaDecryptAndCheck_tr' R fuel hsz hn rng (c := wrap k.pub.n.nlimbs (beVal ct)) rfl) hr
  have hm : beVal ct ^ k.d.val % k.pub.n.val < 256 ^ k.pub.size := mod_lt_pow_size _ (by omega) _
  have hmv : (wrap k.pub.n.nlimbs (beVal ct ^ k.d.val % k.pub.n.val)).val = beVal ct ^ k.d.val % k.pub.n.val :=
    wrap_mod_val _ (by omega) _
  have hconv : (uintToZeroizingBePad (wrap k.pub.n.nlimbs (beVal ct ^ k.d.val % k.pub.n.val)) k.pub.size).res =
      .ok (beBytes k.pub.size (beVal ct ^ k.d.val % k.pub.n.val)) := by
    rw [uintToZeroizingBePad_res, uintToZeroizingBePad_eq, hmv, if_pos hm]
  have hY := Tr.of_ok (toOctets_tr _ _) hconv
  rw [hmv] at hY
  rw [fromBeSlice_nprec _ hk.coherent, if_pos hl, ofRes_ok_bind, hX]
  simp only [hwv]
  show Leak.bind _ _ = _
  unfold Leak.bind
  simp only [hY]
  show Leak.mk (_ ++ (Leak.bind _ _).ev) (Leak.bind _ _).res = _
  unfold Leak.bind
  simp

end leak
end RSA
