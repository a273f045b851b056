import Verif.Proof.Oaep
import Verif.Proof.Pss
import Verif.Proof.Pkcs1v15
import Verif.Proof.Encoding
import Verif.Proof.FromPrimes

/-! Which calls come back with `Ok` or `Err`, for arbitrary digest objects and arbitrary (not only well-formed) keys. -/
namespace RSA
open BoxedUint

theorem Res.Returns.bind_ok {α β : Type} {x : Res α} {f : α → Res β} {a : α} (hx : x = .ok a) (hf : (f a).Returns) :
    (x >>= f).Returns := by
  rw [hx]; exact hf

theorem mgf1XorLoop_any (seed : Bytes) : ∀ (fuel : Nat) (out : Bytes) (dg : DigestState) (ctr : Counter),
    0 < dg.fn.outLen → out.length ≤ fuel →
    ∃ x dg', mgf1XorLoop fuel out dg seed ctr = .ok (x, dg') ∧ x.length = out.length ∧ dg'.fn = dg.fn := by
  intro fuel
  induction fuel with
  | zero =>
    intro out dg ctr _ hl
    cases out with
    | nil => exact ⟨[], dg, rfl, rfl, rfl⟩
    | cons o os => simp at hl
  | succ fuel ih =>
    intro out dg ctr hpos hl
    cases out with
    | nil => exact ⟨[], dg, rfl, rfl, rfl⟩
    | cons o os =>
      have hin := digestInput_eq seed ctr.bytes rfl
      rw [Res.bind_eq_ok] at hin
      obtain ⟨x, hx, hy⟩ := hin
      simp only [mgf1XorLoop, hx, hy, Res.ok_bind, DigestState.update, DigestState.finalizeReset, xorInto_eq]
      have hlen : (dg.fn.hash (dg.buf ++ (seed ++ ctr.bytes))).length = dg.fn.outLen := dg.fn.hash_len _
      obtain ⟨t, dg', h, hlt, hfn⟩ := ih ((o :: os).drop (dg.fn.hash (dg.buf ++ (seed ++ ctr.bytes))).length)
        ⟨dg.fn, []⟩ (incCounter ctr) hpos (by rw [List.length_drop, hlen]; simp at hl ⊢; omega)
      rw [h]
      refine ⟨_, _, rfl, ?_, hfn⟩
      rw [List.length_append, hlt, xorBytes_length, List.length_drop]
      omega

theorem mgf1Xor_any (out : Bytes) (dg : DigestState) (seed : Bytes) (hpos : 0 < dg.fn.outLen)
    (hl : out.length ≤ 2 ^ 32) :
    ∃ x dg', mgf1Xor out dg seed = .ok (x, dg') ∧ x.length = out.length ∧ dg'.fn = dg.fn := by
  unfold mgf1Xor
  rw [if_pos hl]
  exact mgf1XorLoop_any seed _ _ _ _ hpos (le_refl _)

theorem emsaPssVerify_ret (mHash em : Bytes) (sLen : Nat) (dg : DigestState) (hpos : 0 < dg.fn.outLen) (keyBits : Nat)
    (hkb : 0 < keyBits) (hkb32 : keyBits < 2 ^ 32) (hem : em.length = (keyBits + 7) / 8)
    (hadd : dg.fn.outLen + sLen + 2 < 2 ^ 64) :
    emsaPssVerify mHash em sLen dg keyBits = .ok () ∨ emsaPssVerify mHash em sLen dg keyBits = .err .verification := by
  have hdc : ∀ n, divCeil n 8 = (n + 7) / 8 := fun _ => rfl
  generalize hX : emsaPssVerify mHash em sLen dg keyBits = X
  unfold emsaPssVerify emsaPssVerifyPre emsaPssVerifySalt at hX
  dsimp only [DigestState.outputSize] at hX
  revert hX
  rw [subU_of_le (by omega), Res.ok_bind, hdc, hdc, subU_of_le (by omega), Res.ok_bind, sliceFrom_of_le (by omega), Res.ok_bind]
  generalize hE : em.drop ((keyBits + 7) / 8 - (keyBits - 1 + 7) / 8) = E
  have hEl : E.length = (keyBits - 1 + 7) / 8 := by rw [← hE, List.length_drop, hem]; omega
  by_cases hm : mHash.length ≠ dg.fn.outLen
  · rw [if_pos hm]; exact fun h => Or.inr h.symm
  rw [if_neg hm, addU_of_lt (by omega), Res.ok_bind, addU_of_lt (by omega), Res.ok_bind]
  by_cases hlt : E.length < dg.fn.outLen + sLen + 2
  · rw [if_pos hlt]; exact fun h => Or.inr h.symm
  rw [if_neg hlt, subU_of_le (by omega), Res.ok_bind, idx_of_lt (by omega), Res.ok_bind]
  by_cases hbc : E[E.length - 1] ≠ 188
  · rw [if_pos hbc]; exact fun h => Or.inr h.symm
  rw [if_neg hbc, subU_of_le (by omega), Res.ok_bind, subU_of_le (by omega), Res.ok_bind, splitAt_of_le (by omega),
    Res.ok_bind]
  dsimp only
  rw [slice_of_le (by omega) (by rw [List.length_drop]; omega), Res.ok_bind,
    idx_of_lt (by rw [List.length_take]; omega), Res.ok_bind, subU_of_le (by omega), Res.ok_bind, subU_of_le (by omega),
    Res.ok_bind]
  split
  · exact fun h => Or.inr h.symm
  rw [Res.ok_bind]
  dsimp only
  obtain ⟨x, dg', hx, hxl, hfn⟩ := mgf1Xor_any (E.take (E.length - dg.fn.outLen - 1)) dg
    (List.drop 0 (List.take dg.fn.outLen (E.drop (E.length - dg.fn.outLen - 1)))) hpos
    (by rw [List.length_take]; omega)
  rw [hx, Res.ok_bind]
  dsimp only
  rw [List.length_take] at hxl
  rw [subU_of_le (by omega), Res.ok_bind, shrFF_eq (by omega), Res.ok_bind, idx_of_lt (by omega), Res.ok_bind,
    setIdx_of_lt (by omega), Res.ok_bind, subU_of_le (by omega), Res.ok_bind, subU_of_le (by omega), Res.ok_bind,
    subU_of_le (by omega), Res.ok_bind, splitAt_of_le (by rw [List.length_set]; omega), Res.ok_bind]
  dsimp only
  rw [idx_of_lt (by rw [List.length_drop, List.length_set]; omega), Res.ok_bind, Res.ok_bind,
    subU_of_le (by rw [List.length_set]; omega), Res.ok_bind, sliceFrom_of_le (by rw [List.length_set]; omega),
    Res.ok_bind]
  split
  · exact fun h => Or.inl h.symm
  · exact fun h => Or.inr h.symm

theorem oaepFold_cases (l : Bytes) : (l.zipIdx.foldl oaepStep (true, 0, false)).2.2 = true ∨
    (l.zipIdx.foldl oaepStep (true, 0, false)).1 = true ∨
    ∃ j < l.length, l.zipIdx.foldl oaepStep (true, 0, false) = (false, UInt32.ofNat j, false) := by
  rcases zeros_split l with ⟨j, rfl⟩ | ⟨j, b, m, hb, rfl⟩
  · right; left
    have := oaepFold_zeros j 0 0
    rw [this]
  · by_cases h1 : b = 1
    · right; right
      subst h1
      refine ⟨j, by simp, ?_⟩
      have := oaepFold_found j 0 m 0
      rw [this, Nat.zero_add]
    · exact Or.inl (oaepFold_other j 0 b hb h1 m 0)

theorem oaepDecryptInner_ret (em : Bytes) (hSize : Nat) (pHash : Bytes) (k : Nat)
    (mgf : Bytes → Bytes → Res (Bytes × Bytes)) (hem : em.length = k) (hk32 : k < 2 ^ 32)
    (hm : ∀ seed db, seed.length = hSize → db.length = k - hSize - 1 → hSize ≤ k →
      ∃ seed' db', mgf seed db = .ok (seed', db') ∧ seed'.length = hSize ∧ db'.length = k - hSize - 1) :
    oaepDecryptInner em hSize pHash k mgf = .err .decryption ∨
    ∃ valid out index, oaepDecryptInner em hSize pHash k mgf = .ok (valid, out, index) ∧
      (valid = true → index.toNat ≤ out.length) := by
  unfold oaepDecryptInner
  by_cases h1 : k < 11
  · rw [if_pos h1]; exact Or.inl rfl
  by_cases h2 : k < hSize * 2 + 2
  · rw [if_neg h1, if_pos h2]; exact Or.inl rfl
  right
  rw [if_neg h1, if_neg h2, idx_of_lt (by omega), Res.ok_bind, splitAt_of_le (by omega), Res.ok_bind]
  dsimp only
  rw [splitAt_of_le (by rw [List.length_drop]; omega), Res.ok_bind]
  dsimp only
  obtain ⟨seed', db', hmg, hs, hd⟩ := hm ((em.drop 1).take hSize) ((em.drop 1).drop hSize)
    (by rw [List.length_take, List.length_drop]; omega) (by rw [List.length_drop, List.length_drop]; omega) (by omega)
  rw [hmg, Res.ok_bind]
  dsimp only
  rw [slice_of_le (by omega) (by omega), Res.ok_bind]
  refine ⟨_, _, _, rfl, ?_⟩
  intro hv
  rcases oaepFold_cases (db'.drop hSize) with h | h | ⟨j, hj, h⟩
  · simp [h] at hv
  · simp [h] at hv
  · rw [h]
    rw [List.length_drop] at hj
    simp only [List.length_append, List.length_take, hs, hd]
    rw [UInt32.toNat_add, UInt32.toNat_add, UInt32.toNat_ofNat', UInt32.toNat_ofNat']
    have : (2 : UInt32).toNat = 2 := rfl
    rw [this]
    omega

theorem oaepDecrypt_ret (em : Bytes) (dg mg : DigestState) (hpos : 0 < mg.fn.outLen) (label : Option Bytes) (k : Nat)
    (hem : em.length = k) (hk32 : k < 2 ^ 32) : (oaepDecrypt em dg mg label k).Returns := by
  unfold oaepDecrypt
  dsimp only
  split
  · trivial
  have hin := oaepDecryptInner_ret em dg.outputSize (dg.update (label.getD [])).finalizeReset.1 k (fun seed db => do
      let (seed, mgfDigest) ← mgf1Xor seed mg db
      let (db, _) ← mgf1Xor db mgfDigest seed
      .ok (seed, db)) hem hk32 (by
    intro seed db hs hd hle
    obtain ⟨x, mg', hx, hxl, hfn⟩ := mgf1Xor_any seed mg db hpos (by omega)
    obtain ⟨y, mg'', hy, hyl, _⟩ := mgf1Xor_any db mg' x (by rw [hfn]; exact hpos) (by omega)
    refine ⟨x, y, ?_, by omega, by omega⟩
    dsimp only
    rw [hx, Res.ok_bind]
    dsimp only
    rw [hy]
    rfl)
  rcases hin with h | ⟨v, out, ix, h, hv⟩
  · rw [h]; trivial
  · refine Res.Returns.bind_ok h ?_
    dsimp only
    by_cases hvv : v = true
    · subst hvv
      rw [if_neg (by simp), sliceFrom_of_le (hv rfl)]
      trivial
    · rw [if_pos (by simpa using hvv)]
      trivial

theorem oaepDecryptDigest_ret (em : Bytes) (D MGD : HashFn) (hpos : 0 < MGD.outLen) (label : Option Bytes) (k : Nat)
    (hem : em.length = k) (hk32 : k < 2 ^ 32) : (oaepDecryptDigest em D MGD label k).Returns := by
  by_cases hl : (label.getD []).length < maxLabelLen
  · rw [oaepDecryptDigest_agree em D MGD label k hl]
    exact oaepDecrypt_ret _ _ _ hpos _ _ hem hk32
  · unfold oaepDecryptDigest
    dsimp only
    rw [if_pos (by omega)]
    trivial

/-! Private-key operations on keys that need not be correct. -/

theorem rsaPrivateExp_total {k : PrivateKey} (hk : Spec.Sized k) (c : BoxedUint) (hc : c.nlimbs = k.d.nlimbs) :
    ∃ m, rsaPrivateExp k c = .ok m ∧ k.pub.n.nlimbs ≤ m.nlimbs := by
  have hpow : ∃ m, powModParams c k.d k.pub.nParams = .ok m ∧ k.pub.n.nlimbs ≤ m.nlimbs :=
    ⟨_, powModParams_eq _ _ _, by rw [coherent_nlimbs hk.coherent]; exact le_refl _⟩
  unfold rsaPrivateExp
  dsimp only
  cases hpre : k.precomputed with
  | none => exact hpow
  | some pre =>
    by_cases hm : k.primes.length > 2
    · rw [decide_eq_true hm]; exact hpow
    · rw [decide_eq_false hm]
      obtain ⟨h1, h2, h3⟩ := hk.cache pre hpre
      have hl : k.primes.length = 2 := le_antisymm (by omega) hk.two
      obtain ⟨p, q, hpq⟩ := List.length_eq_two.mp hl
      have hP : c.prec = pre.pParams.prec := by
        show 64 * c.nlimbs = 64 * pre.pParams.modulus.toBoxedUint.nlimbs
        rw [hc, h2]
      have hQ : c.prec = pre.qParams.prec := by
        show 64 * c.nlimbs = 64 * pre.qParams.modulus.toBoxedUint.nlimbs
        rw [hc, h3]
      have e0 : primeAt k.primes 0 = .ok p := by rw [hpq]; rfl
      have e1 : primeAt k.primes 1 = .ok q := by rw [hpq]; rfl
      dsimp only
      rw [e0, Res.ok_bind, e1, Res.ok_bind, MontyForm.new_eq hP, Res.ok_bind, MontyForm.new_eq hQ, Res.ok_bind,
        MontyForm.new_eq (by
          show 64 * pre.qParams.modulus.toBoxedUint.nlimbs = 64 * pre.pParams.modulus.toBoxedUint.nlimbs
          rw [h2, h3]), Res.ok_bind, MontyForm.sub_eq (by rfl), Res.ok_bind, MontyForm.mul_eq h1, Res.ok_bind]
      refine ⟨_, rfl, ?_⟩
      show k.pub.n.nlimbs ≤ max pre.qinv.params.modulus.toBoxedUint.nlimbs pre.qParams.modulus.toBoxedUint.nlimbs
      rw [h1, h2, h3, Nat.max_self]
      exact hk.width

/-- The private operation on a key of the right shape either finishes or is held up by the generator. -/
theorem rsaDecrypt_total {σ : Type} (R : RngImpl σ) (fuel : Nat) (rng : Option σ) {k : PrivateKey} (hk : Spec.Sized k)
    (c : BoxedUint) (hw : c.nlimbs = k.pub.n.nlimbs) :
    (∃ m rng', rsaDecrypt R fuel rng k c = .ok (m, rng') ∧ m.nlimbs = k.pub.n.nlimbs) ∨
    (∃ e, rsaDecrypt R fuel rng k c = .err e) ∨
    (rsaDecrypt R fuel rng k c = .loop ∧ ¬ Spec.Settles R k.pub.n.val fuel rng) := by
  by_cases hc : k.pub.n.val ≤ c.val
  · exact Or.inr (Or.inl ⟨_, rsaDecrypt_ge R fuel rng k c hc⟩)
  have hge : ¬ c.ge k.pub.n = true := by
    simpa [BoxedUint.ge, BoxedUint.lt] using hc
  have hwd : ∀ x : BoxedUint, x.nlimbs = k.pub.n.nlimbs → ∃ y, x.widen k.d.prec = .ok y ∧ y.nlimbs = k.d.nlimbs := by
    intro x hx
    have h1 : 1 ≤ k.d.nlimbs := le_trans (coherent_nlimbs_pos hk.coherent) hk.width
    obtain ⟨y, hy, _, hl⟩ := widen_self (x := x) (limbsFor_prec k.d h1) (by
      show 64 * x.nlimbs ≤ 64 * k.d.nlimbs
      have := hk.width; omega)
    exact ⟨y, hy, hl⟩
  have hsh : ∀ m : BoxedUint, k.pub.n.nlimbs ≤ m.nlimbs → ∃ y, m.shorten k.pub.nParams.prec = .ok y ∧
      y.nlimbs = k.pub.n.nlimbs := by
    intro m hm
    rw [coherent_prec hk.coherent]
    refine ⟨_, shorten_of_le (by show 64 * k.pub.n.nlimbs ≤ 64 * m.nlimbs; omega), ?_⟩
    exact limbsFor_prec k.pub.n (coherent_nlimbs_pos hk.coherent)
  unfold rsaDecrypt
  dsimp only
  rw [if_neg hge]
  cases rng with
  | none =>
    obtain ⟨y, hy, hyl⟩ := hwd c hw
    obtain ⟨m, hm, hml⟩ := rsaPrivateExp_total hk y hyl
    obtain ⟨z, hz, hzl⟩ := hsh m hml
    left
    dsimp only
    rw [hy, Res.ok_bind, hm, Res.ok_bind, hz, Res.ok_bind]
    exact ⟨z, none, rfl, hzl⟩
  | some s =>
    dsimp only
    rw [blind_eq R fuel s k.pub hk.coherent c (by show 64 * c.nlimbs = 64 * k.pub.n.nlimbs; rw [hw])]
    rcases blindLoop_outcomes R k.pub.n fuel s with ⟨r, ir, s', h⟩ | h | h
    · left
      obtain ⟨_, hirl, _, _⟩ := blindLoop_ok R k.pub.n (coherent_nlimbs_pos hk.coherent) fuel s r ir s' h
      rw [h, Res.ok_bind, Res.ok_bind]
      dsimp only
      obtain ⟨y, hy, hyl⟩ := hwd (wrap k.pub.n.nlimbs (c.val * (r.val ^ k.pub.e.val % k.pub.n.val) % k.pub.n.val)) rfl
      obtain ⟨m, hm, hml⟩ := rsaPrivateExp_total hk y hyl
      obtain ⟨z, hz, hzl⟩ := hsh m hml
      rw [hy, Res.ok_bind, hm, Res.ok_bind, hz, Res.ok_bind]
      have hzp : z.prec = k.pub.nParams.prec := by
        rw [coherent_prec hk.coherent]; show 64 * z.nlimbs = 64 * k.pub.n.nlimbs; rw [hzl]
      have hip : ir.prec = k.pub.nParams.prec := by
        rw [coherent_prec hk.coherent]; show 64 * ir.nlimbs = 64 * k.pub.n.nlimbs; rw [hirl]
      unfold unblind
      rw [if_neg (by rw [hzp, hip]; simp), if_neg (by rw [hzp]; simp), mulModParams_eq _ _ _ hzp hip, Res.ok_bind]
      exact ⟨_, _, rfl, coherent_nlimbs hk.coherent⟩
    · rw [h]; exact Or.inr (Or.inl ⟨_, rfl⟩)
    · right; right
      refine ⟨by rw [h]; rfl, ?_⟩
      rintro ⟨o, j, hd, hj⟩
      obtain ⟨h1, h2⟩ := blindLoop_draws R k.pub.n (coherent_pos hk.coherent) hd fuel hj
      cases o with
      | none => have := h2 rfl; rw [h] at this; cases this
      | some s' => obtain ⟨_, _, h3⟩ := h1 s' rfl; rw [h] at h3; cases h3

theorem rsaDecryptAndCheck_total {σ : Type} (R : RngImpl σ) (fuel : Nat) (rng : Option σ) {k : PrivateKey}
    (hk : Spec.Sized k) (c : BoxedUint) (hw : c.nlimbs = k.pub.n.nlimbs) :
    (∃ m rng', rsaDecryptAndCheck R fuel k rng c = .ok (m, rng')) ∨
    (∃ e, rsaDecryptAndCheck R fuel k rng c = .err e) ∨
    (rsaDecryptAndCheck R fuel k rng c = .loop ∧ ¬ Spec.Settles R k.pub.n.val fuel rng) := by
  unfold rsaDecryptAndCheck
  rcases rsaDecrypt_total R fuel rng hk c hw with ⟨m, rng', h, hm⟩ | ⟨e, h⟩ | ⟨h, hs⟩
  · rw [h, Res.ok_bind]
    dsimp only
    rw [rsaEncrypt_eq _ hk.coherent, Res.ok_bind]
    split
    · exact Or.inr (Or.inl ⟨_, rfl⟩)
    · exact Or.inl ⟨_, _, rfl⟩
  · rw [h]; exact Or.inr (Or.inl ⟨_, rfl⟩)
  · rw [h]; exact Or.inr (Or.inr ⟨rfl, hs⟩)

/-- The call comes back unless the generator keeps it waiting. -/
def ReturnsOr {α : Type} (x : Res α) (stuck : Prop) : Prop := x.Returns ∨ (x = .loop ∧ stuck)

theorem ReturnsOr.not_panics {α : Type} {x : Res α} {p : Prop} (h : ReturnsOr x p) : ¬ x.Panics := by
  rcases h with h | ⟨h, _⟩
  · cases x <;> simp_all
  · rw [h]; exact id

theorem ReturnsOr.returns {α : Type} {x : Res α} {p : Prop} (h : ReturnsOr x p) (hp : ¬ p) : x.Returns :=
  h.resolve_right fun h => hp h.2

theorem ReturnsOr.bind_left {α β : Type} {x : Res α} {f : α → Res β} {p : Prop} (hx : x.Returns)
    (hf : ∀ a, x = .ok a → ReturnsOr (f a) p) : ReturnsOr (x >>= f) p := by
  cases x with
  | ok a => exact hf a rfl
  | err e => exact Or.inl trivial
  | panic _ => exact absurd hx id
  | loop => exact absurd hx id

theorem ReturnsOr.private {σ β : Type} (R : RngImpl σ) (fuel : Nat) (rng : Option σ) {k : PrivateKey}
    (hk : Spec.Sized k) (c : BoxedUint) (hw : c.nlimbs = k.pub.n.nlimbs) (f : BoxedUint × Option σ → Res β)
    (hf : ∀ x, (f x).Returns) :
    ReturnsOr (rsaDecryptAndCheck R fuel k rng c >>= f) (¬ Spec.Settles R k.pub.n.val fuel rng) := by
  rcases rsaDecryptAndCheck_total R fuel rng hk c hw with ⟨m, rng', h⟩ | ⟨e, h⟩ | ⟨h, hs⟩
  · rw [h]; exact Or.inl (hf _)
  · rw [h]; exact Or.inl trivial
  · rw [h]; exact Or.inr ⟨rfl, hs⟩

theorem fromBeSlice_sized (k : PublicKey) (hk : k.Coherent) (b : Bytes) :
    (fromBeSlice b k.nBitsPrecision).Returns ∧
      ∀ c, fromBeSlice b k.nBitsPrecision = .ok c → c.nlimbs = k.n.nlimbs := by
  rw [fromBeSlice_nprec k hk]
  split
  · exact ⟨trivial, fun c h => by cases h; rfl⟩
  · exact ⟨trivial, fun c h => by cases h⟩

theorem bePad_ret (x : BoxedUint) (len : Nat) : (uintToZeroizingBePad x len).Returns ∧ (uintToBePad x len).Returns := by
  rw [uintToZeroizingBePad_eq, uintToBePad_eq]
  constructor <;> split <;> trivial

theorem bePad_length {x : BoxedUint} {len : Nat} {b : Bytes} (h : uintToZeroizingBePad x len = .ok b) :
    b.length = len := by
  rw [uintToZeroizingBePad_eq] at h
  split at h
  · cases h; exact beBytes_length _ _
  · cases h

theorem checkPublic_ret (k : PublicKey) : (checkPublic k).Returns := by
  rcases checkPublic_cases k with h | ⟨e, h⟩ <;> rw [h] <;> trivial

theorem size_lt32 (k : PublicKey) (hp : k.n.prec < 2 ^ 32) : k.size < 2 ^ 29 := by
  have h1 := size_le_bytes k
  have h2 : k.n.prec = 64 * k.n.nlimbs := rfl
  omega

theorem emsaPssEncode_ret (mHash : Bytes) (emBits : Nat) (salt : Bytes) (dg : DigestState) (hpos : 0 < dg.fn.outLen)
    (hadd : dg.fn.outLen + salt.length + 2 < 2 ^ 64) (hb : emBits < 2 ^ 32) :
    (emsaPssEncode mHash emBits salt dg).Returns ∧
      ∀ em, emsaPssEncode mHash emBits salt dg = .ok em → em.length = (emBits + 7) / 8 := by
  have hdc : ∀ n, divCeil n 8 = (n + 7) / 8 := fun _ => rfl
  generalize hX : emsaPssEncode mHash emBits salt dg = X
  unfold emsaPssEncode at hX
  dsimp only [DigestState.outputSize] at hX
  rw [hdc] at hX
  revert hX
  by_cases hm : mHash.length ≠ dg.fn.outLen
  · rw [if_pos hm]; rintro rfl; exact ⟨trivial, fun _ h => by cases h⟩
  rw [if_neg hm, addU_of_lt (by omega), Res.ok_bind, addU_of_lt (by omega), Res.ok_bind]
  by_cases hlt : (emBits + 7) / 8 < dg.fn.outLen + salt.length + 2
  · rw [if_pos hlt]; rintro rfl; exact ⟨trivial, fun _ h => by cases h⟩
  rw [if_neg hlt, subU_of_le (by omega), Res.ok_bind, subU_of_le (by omega), Res.ok_bind,
    splitAt_of_le (by rw [List.length_replicate]; omega), Res.ok_bind]
  dsimp only
  rw [List.take_replicate, List.drop_replicate, List.length_replicate, Nat.min_eq_left (by omega),
    subU_of_le (by omega), Res.ok_bind, subU_of_le (by omega), Res.ok_bind,
    slice_of_le (by omega) (by rw [List.length_replicate]; omega), Res.ok_bind,
    copyInto_of_le (by omega) (by rw [List.length_replicate]; omega) (by
      dsimp only [DigestState.finalizeReset, DigestState.update]; rw [dg.fn.hash_len]; omega), Res.ok_bind,
    subU_of_le (by omega), Res.ok_bind, subU_of_le (by omega), Res.ok_bind, subU_of_le (by omega), Res.ok_bind,
    setIdx_of_lt (by rw [List.length_replicate]; omega), Res.ok_bind, subU_of_le (by omega), Res.ok_bind,
    copyInto_of_le (by rw [List.length_set, List.length_replicate]; omega) (le_refl _)
      (by rw [List.length_set, List.length_replicate]; omega), Res.ok_bind]
  have hhash : (((((dg.update (List.replicate 8 0)).update mHash).update salt).finalizeReset).1).length =
      dg.fn.outLen := by
    dsimp only [DigestState.finalizeReset, DigestState.update]; rw [dg.fn.hash_len]
  have hfn : ((((dg.update (List.replicate 8 0)).update mHash).update salt).finalizeReset).2.fn = dg.fn := rfl
  generalize ((((dg.update (List.replicate 8 0)).update mHash).update salt).finalizeReset) = F at hhash hfn
  obtain ⟨hv, dg1⟩ := F
  dsimp only at hhash hfn ⊢
  rw [slice_of_le (by omega) (by
    simp only [List.length_append, List.length_take, List.length_drop, List.length_replicate]; omega), Res.ok_bind]
  generalize hdb : (List.take _ ((List.replicate ((emBits + 7) / 8 - dg.fn.outLen - 1) (0 : UInt8)).set _ 1) ++ salt ++
    List.drop _ ((List.replicate ((emBits + 7) / 8 - dg.fn.outLen - 1) (0 : UInt8)).set _ 1)) = db
  have hdbl : db.length = (emBits + 7) / 8 - dg.fn.outLen - 1 := by
    rw [← hdb]
    simp only [List.length_append, List.length_take, List.length_drop, List.length_replicate, List.length_set]
    omega
  obtain ⟨x, dg', hx, hxl, _⟩ := mgf1Xor_any db dg1 (List.drop 0 (List.take ((emBits + 7) / 8 - 1 -
    ((emBits + 7) / 8 - dg.fn.outLen - 1)) (List.take 0 (List.replicate ((emBits + 7) / 8 -
      ((emBits + 7) / 8 - dg.fn.outLen - 1)) (0 : UInt8)) ++ hv ++ List.drop ((emBits + 7) / 8 - 1 -
    ((emBits + 7) / 8 - dg.fn.outLen - 1)) (List.replicate ((emBits + 7) / 8 -
      ((emBits + 7) / 8 - dg.fn.outLen - 1)) (0 : UInt8))))) (by rw [hfn]; exact hpos) (by omega)
  rw [hx, Res.ok_bind]
  dsimp only
  rw [subU_of_le (by omega), Res.ok_bind, shrFF_eq (by omega), Res.ok_bind, idx_of_lt (by omega), Res.ok_bind,
    setIdx_of_lt (by omega), Res.ok_bind, Res.ok_bind, setIdx_of_lt (by
      simp only [List.length_append, List.length_take, List.length_drop, List.length_replicate, List.length_set]
      omega)]
  rintro rfl
  refine ⟨trivial, ?_⟩
  intro em he
  cases he
  simp only [List.length_append, List.length_take, List.length_drop, List.length_replicate, List.length_set]
  omega

theorem tryFill_ret {σ : Type} (R : RngImpl σ) (s : σ) (n : Nat) : (R.tryFill s n).Returns := by
  unfold RngImpl.tryFill
  split <;> trivial

theorem tryFill_length {σ : Type} {R : RngImpl σ} {s s' : σ} {n : Nat} {b : Bytes} (h : R.tryFill s n = .ok (b, s')) :
    b.length = n := by
  unfold RngImpl.tryFill at h
  split at h
  · next b1 s1 hf =>
    cases h
    exact R.fill_len s n b (by rw [hf])
  · cases h

theorem oaepEncryptInternal_ret {σ : Type} (R : RngImpl σ) (s : σ) (msg pHash : Bytes) (hSize k : Nat)
    (mgf : Bytes → Bytes → Res (Bytes × Bytes)) (hp : pHash.length = hSize)
    (hm : ∀ seed db, seed.length = hSize → db.length = k - hSize - 1 → hSize ≤ k →
      ∃ seed' db', mgf seed db = .ok (seed', db') ∧ seed'.length = hSize ∧ db'.length = k - hSize - 1) :
    (oaepEncryptInternal R s msg pHash hSize k mgf).Returns ∧
      ∀ em s', oaepEncryptInternal R s msg pHash hSize k mgf = .ok (em, s') → em.length = k := by
  unfold oaepEncryptInternal
  by_cases h : msg.length + 2 * hSize + 2 > k
  · rw [if_pos h]; exact ⟨trivial, fun _ _ h => by cases h⟩
  rw [if_neg h]
  dsimp only
  rw [splitAt_of_le (by rw [List.length_replicate]; omega), Res.ok_bind]
  dsimp only
  rw [splitAt_of_le (by rw [List.length_drop, List.length_replicate]; omega), Res.ok_bind]
  dsimp only
  have hsl : ((List.replicate k (0 : UInt8)).drop 1 |>.take hSize).length = hSize := by
    rw [List.length_take, List.length_drop, List.length_replicate]; omega
  have hdl : ((List.replicate k (0 : UInt8)).drop 1 |>.drop hSize).length = k - hSize - 1 := by
    rw [List.length_drop, List.length_drop, List.length_replicate]; omega
  rw [hsl]
  rcases hf : R.tryFill s hSize with ⟨seed, s1⟩ | _ | _ | _
  · have hseed := tryFill_length hf
    rw [Res.ok_bind]
    dsimp only
    rw [subU_of_le (by omega), Res.ok_bind, subU_of_le (by omega), Res.ok_bind,
      copyInto_of_le (by omega) (by omega) (by omega), Res.ok_bind, subU_of_le (by omega), Res.ok_bind,
      subU_of_le (by omega), Res.ok_bind, setIdx_of_lt (by
        simp only [List.length_append, List.length_take, List.length_drop, List.length_replicate]; omega), Res.ok_bind,
      copyInto_of_le (by
        simp only [List.length_append, List.length_take, List.length_drop, List.length_replicate, List.length_set]
        omega) (le_refl _) (by
        simp only [List.length_append, List.length_take, List.length_drop, List.length_replicate, List.length_set]
        omega), Res.ok_bind]
    generalize hdb : (List.take _ _ ++ msg ++ List.drop _ _) = db
    have hdbl : db.length = k - hSize - 1 := by
      rw [← hdb]
      simp only [List.length_append, List.length_take, List.length_drop, List.length_replicate, List.length_set]
      omega
    obtain ⟨seed', db', hmg, hs', hd'⟩ := hm seed db hseed hdbl (by omega)
    rw [hmg, Res.ok_bind]
    refine ⟨trivial, ?_⟩
    intro em s' he
    cases he
    simp only [List.length_append, List.length_take, List.length_replicate, hs', hd']
    omega
  · exact ⟨trivial, fun _ _ h => by cases h⟩
  · have := tryFill_ret R s hSize; rw [hf] at this; exact absurd this id
  · have := tryFill_ret R s hSize; rw [hf] at this; exact absurd this id

theorem oaepEncrypt_ret {σ : Type} (R : RngImpl σ) (s : σ) (msg : Bytes) (dg mg : DigestState)
    (hpos : 0 < mg.fn.outLen) (label : Option Bytes) (k : Nat) (hk : k < 2 ^ 32) :
    (oaepEncrypt R s msg dg mg label k).Returns ∧
      ∀ em s', oaepEncrypt R s msg dg mg label k = .ok (em, s') → em.length = k := by
  unfold oaepEncrypt
  dsimp only
  split
  · exact ⟨trivial, fun _ _ h => by cases h⟩
  · refine oaepEncryptInternal_ret R s msg _ _ k _ (dg.fn.hash_len _) ?_
    intro seed db hs hd hle
    obtain ⟨x, mg', hx, hxl, hfn⟩ := mgf1Xor_any db mg seed hpos (by omega)
    obtain ⟨y, mg'', hy, hyl, _⟩ := mgf1Xor_any seed mg' x (by rw [hfn]; exact hpos) (by omega)
    refine ⟨y, x, ?_, by omega, by omega⟩
    rw [hx, Res.ok_bind]
    dsimp only
    rw [hy]
    rfl

theorem rerollByte_settles {σ : Type} (R : RngImpl σ) {s : σ} {j : Nat} (h : Spec.ByteSettles R s j) :
    ∀ fuel, j ≤ fuel → (rerollByte R fuel s).Returns := by
  induction h with
  | fail s h =>
    intro fuel hf
    obtain ⟨f, rfl⟩ : ∃ f, fuel = f + 1 := ⟨fuel - 1, by omega⟩
    rcases hx : R.fill s 1 with ⟨o, s'⟩
    rw [hx] at h
    dsimp only at h
    subst h
    simp only [rerollByte, RngImpl.tryFill, hx]
    trivial
  | good s b h hb =>
    intro fuel hf
    obtain ⟨f, rfl⟩ : ∃ f, fuel = f + 1 := ⟨fuel - 1, by omega⟩
    rcases hx : R.fill s 1 with ⟨o, s'⟩
    rw [hx] at h
    dsimp only at h
    subst h
    simp only [rerollByte, RngImpl.tryFill, hx, Res.ok_bind, idx, List.getElem?_cons_zero, if_neg hb]
    trivial
  | again s j h _ ih =>
    intro fuel hf
    obtain ⟨f, rfl⟩ : ∃ f, fuel = f + 1 := ⟨fuel - 1, by omega⟩
    have := ih f (by omega)
    rcases hx : R.fill s 1 with ⟨o, s'⟩
    rw [hx] at h this
    dsimp only at h this
    subst h
    simp only [rerollByte, RngImpl.tryFill, hx, Res.ok_bind, idx, List.getElem?_cons_zero, if_true]
    exact this

theorem nonZeroRandomBytes_settles {σ : Type} (R : RngImpl σ) (fuel : Nat)
    (hR : ∀ s, ∃ j, j ≤ fuel ∧ Spec.ByteSettles R s j) (s : σ) (len : Nat) :
    (nonZeroRandomBytes R fuel s len).Returns := by
  have hfix : ∀ (l : Bytes) (s : σ), (fixZeros R fuel l s).Returns := by
    intro l
    induction l with
    | nil => intro s; trivial
    | cons el rest ih =>
      intro s
      rw [fixZeros]
      split
      · obtain ⟨j, hj, h⟩ := hR s
        exact (rerollByte_settles R h fuel hj).bind fun _ _ => (ih _).bind fun _ _ => trivial
      · exact (ih _).bind fun _ _ => trivial
  unfold nonZeroRandomBytes
  exact (tryFill_ret R s len).bind fun _ _ => hfix _ _

end RSA
