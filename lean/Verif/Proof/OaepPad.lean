import Verif.Model.OaepPad
import Verif.Proof.Mgf
import Verif.Proof.Pkcs1v15Pad

namespace RSA
open BoxedUint

/-! ## Encoding -/

theorem emeOaep_length (pHash : Bytes) (g : Bytes → Nat → Bytes) (hLen k : Nat) (seed m : Bytes)
    (hp : pHash.length = hLen) (hs : seed.length = hLen) (hg : ∀ z l, (g z l).length = l)
    (hk : m.length + 2 * hLen + 2 ≤ k) : (Spec.emeOaep pHash g hLen k seed m).length = k := by
  simp [Spec.emeOaep, hg, hp, hs]
  omega

theorem oaepEncryptInternal_eq {σ : Type} (R : RngImpl σ) (s : σ) (msg pHash : Bytes) (hSize k : Nat)
    (mgf : Bytes → Bytes → Res (Bytes × Bytes)) (g : Bytes → Nat → Bytes) (hp : pHash.length = hSize)
    (hm : ∀ seed db, seed.length = hSize → db.length = k - hSize - 1 →
      mgf seed db = .ok (Spec.xorBytes seed (g (Spec.xorBytes db (g seed (k - hSize - 1))) hSize),
        Spec.xorBytes db (g seed (k - hSize - 1)))) :
    oaepEncryptInternal R s msg pHash hSize k mgf =
      if msg.length + 2 * hSize + 2 > k then .err .messageTooLong
      else R.tryFill s hSize >>= fun x => .ok (Spec.emeOaep pHash g hSize k x.1 msg, x.2) := by
  unfold oaepEncryptInternal
  split
  · rfl
  · next hl =>
    simp only
    rw [splitAt_of_le (by simp; omega), Res.ok_bind]
    simp only
    rw [splitAt_of_le (by simp; omega), Res.ok_bind]
    simp only
    rw [show (List.take hSize (List.drop 1 (List.replicate k (0 : UInt8)))).length = hSize by simp; omega]
    rcases tryFill_cases R s hSize with ⟨seed, s', hf⟩ | hf
    · rw [hf, Res.ok_bind, Res.ok_bind]
      have hsl := tryFill_ok hf
      simp only
      rw [subU_of_le (by omega), Res.ok_bind, subU_of_le (by omega), Res.ok_bind,
        copyInto_of_le (by omega) (by simp; omega) (by omega), Res.ok_bind, subU_of_le (by omega), Res.ok_bind,
        subU_of_le (by omega), Res.ok_bind, setIdx_of_lt (by simp; omega), Res.ok_bind,
        copyInto_of_le (by simp; omega) (by simp) (by simp; omega), Res.ok_bind]
      have hdb : List.take (k - hSize - 1 - msg.length)
            ((List.take 0 (List.drop hSize (List.drop 1 (List.replicate k (0 : UInt8)))) ++ pHash ++
              List.drop hSize (List.drop hSize (List.drop 1 (List.replicate k 0)))).set
              (k - hSize - 1 - msg.length - 1) 1) ++ msg ++
          List.drop ((List.take 0 (List.drop hSize (List.drop 1 (List.replicate k (0 : UInt8)))) ++ pHash ++
              List.drop hSize (List.drop hSize (List.drop 1 (List.replicate k 0)))).set
              (k - hSize - 1 - msg.length - 1) 1).length
            ((List.take 0 (List.drop hSize (List.drop 1 (List.replicate k (0 : UInt8)))) ++ pHash ++
              List.drop hSize (List.drop hSize (List.drop 1 (List.replicate k 0)))).set
              (k - hSize - 1 - msg.length - 1) 1) =
          pHash ++ List.replicate (k - msg.length - 2 * hSize - 2) 0x00 ++ [0x01] ++ msg := by
        simp only [List.take_zero, List.nil_append, List.drop_replicate, List.drop_length, List.append_nil]
        rw [List.set_append_right _ _ (by omega)]
        congr 1
        rw [List.take_append, List.take_of_length_le (by omega), hp, List.append_assoc]
        congr 1
        apply List.ext_getElem
        · simp; omega
        · intro i h1 h2
          simp only [List.length_take, List.length_set, List.length_replicate] at h1
          rw [List.getElem_take, List.getElem_set, List.getElem_append]
          simp only [List.getElem_replicate, List.length_replicate, List.getElem_singleton]
          split <;> split <;> first | rfl | omega
      rw [hdb, hm _ _ hsl (by simp; omega)]
      simp only [Res.ok_bind, Res.ok.injEq, Prod.mk.injEq, and_true]
      unfold Spec.emeOaep
      have h1 : List.take 1 (List.replicate k (0 : UInt8)) = [0] := by
        rw [List.take_replicate, Nat.min_eq_left (by omega)]; rfl
      simp only [h1, List.append_assoc]
    · rw [hf]; rfl

/-! ## Decoding -/

theorem oaepFold_done (l : List (UInt8 × Nat)) (x : UInt32) (b : Bool) :
    l.foldl oaepStep (false, x, b) = (false, x, b) := by
  induction l with
  | nil => rfl
  | cons e es ih =>
    rw [List.foldl_cons]
    have : oaepStep (false, x, b) e = (false, x, b) := by simp [oaepStep]
    rw [this, ih]

theorem oaepFold_bad (l : List (UInt8 × Nat)) (lk : Bool) (x : UInt32) :
    (l.foldl oaepStep (lk, x, true)).2.2 = true := by
  induction l generalizing lk x with
  | nil => rfl
  | cons e es ih =>
    rw [List.foldl_cons]
    simp only [oaepStep, Bool.true_or]
    exact ih _ _

theorem oaepFold_found (j i : Nat) (m : Bytes) (x : UInt32) :
    ((List.replicate j (0 : UInt8) ++ 1 :: m).zipIdx i).foldl oaepStep (true, x, false) =
      (false, UInt32.ofNat (i + j), false) := by
  induction j generalizing i with
  | zero =>
    simp only [List.replicate_zero, List.nil_append, List.zipIdx_cons, List.foldl_cons]
    have : oaepStep (true, x, false) (1, i) = (false, UInt32.ofNat i, false) := by simp [oaepStep]
    rw [this, oaepFold_done, Nat.add_zero]
  | succ j ih =>
    rw [List.replicate_succ, List.cons_append, List.zipIdx_cons, List.foldl_cons]
    have : oaepStep (true, x, false) (0, i) = (true, x, false) := by simp [oaepStep]
    rw [this, ih]
    congr 3; omega

theorem oaepFold_zeros (j i : Nat) (x : UInt32) :
    ((List.replicate j (0 : UInt8)).zipIdx i).foldl oaepStep (true, x, false) = (true, x, false) := by
  induction j generalizing i with
  | zero => rfl
  | succ j ih =>
    rw [List.replicate_succ, List.zipIdx_cons, List.foldl_cons]
    have : oaepStep (true, x, false) (0, i) = (true, x, false) := by simp [oaepStep]
    rw [this, ih]

theorem oaepFold_other (j i : Nat) (b : UInt8) (h0 : b ≠ 0) (h1 : b ≠ 1) (m : Bytes) (x : UInt32) :
    (((List.replicate j (0 : UInt8) ++ b :: m).zipIdx i).foldl oaepStep (true, x, false)).2.2 = true := by
  induction j generalizing i with
  | zero =>
    simp only [List.replicate_zero, List.nil_append, List.zipIdx_cons, List.foldl_cons]
    have : oaepStep (true, x, false) (b, i) = (true, x, true) := by simp [oaepStep, h0, h1]
    rw [this, oaepFold_bad]
  | succ j ih =>
    rw [List.replicate_succ, List.cons_append, List.zipIdx_cons, List.foldl_cons]
    have : oaepStep (true, x, false) (0, i) = (true, x, false) := by simp [oaepStep]
    rw [this, ih]

theorem zeros_split (l : Bytes) : (∃ j, l = List.replicate j 0) ∨ ∃ j b m, b ≠ 0 ∧ l = List.replicate j 0 ++ b :: m := by
  induction l with
  | nil => exact Or.inl ⟨0, rfl⟩
  | cons x xs ih =>
    by_cases hx : x = 0
    · subst hx
      rcases ih with ⟨j, rfl⟩ | ⟨j, b, m, hb, rfl⟩
      · exact Or.inl ⟨j + 1, rfl⟩
      · exact Or.inr ⟨j + 1, b, m, hb, rfl⟩
    · exact Or.inr ⟨0, x, xs, hx, rfl⟩

/-- What both decryption functions do after computing the expected label hash. -/
def oaepDecryptCore (em : Bytes) (hSize : Nat) (pHash : Bytes) (k : Nat)
    (mgf : Bytes → Bytes → Res (Bytes × Bytes)) : Res Bytes := do
  let (valid, out, index) ← oaepDecryptInner em hSize pHash k mgf
  if !valid then .err .decryption else sliceFrom out index.toNat

theorem xor_swap {a b m : Bytes} (hl : b.length ≤ m.length) (h : a = Spec.xorBytes b m) : Spec.xorBytes a m = b := by
  rw [h, xorBytes_cancel b m hl]

theorem oaepDecryptCore_small (em : Bytes) (hSize : Nat) (pHash : Bytes) (k : Nat)
    (mgf : Bytes → Bytes → Res (Bytes × Bytes)) (h : k < 11 ∨ k < hSize * 2 + 2) :
    oaepDecryptCore em hSize pHash k mgf = .err .decryption := by
  unfold oaepDecryptCore oaepDecryptInner
  by_cases h1 : k < 11
  · simp only [h1, if_true]; rfl
  · have h2 := h.resolve_left h1
    simp only [h1, if_false, h2, if_true]; rfl

/-- Acceptance of a block, given what the masking closure computes. -/
theorem oaepDecryptCore_spec (em : Bytes) (hSize : Nat) (pHash : Bytes) (k : Nat)
    (mgf : Bytes → Bytes → Res (Bytes × Bytes)) (g : Bytes → Nat → Bytes) (hp : pHash.length = hSize)
    (hg : ∀ z l, (g z l).length = l) (hem : em.length = k) (hk11 : 11 ≤ k) (hk2 : 2 * hSize + 2 ≤ k) (hk32 : k < 2 ^ 32)
    (hm : ∀ seed db, seed.length = hSize → db.length = k - hSize - 1 →
      mgf seed db = .ok (Spec.xorBytes seed (g db hSize),
        Spec.xorBytes db (g (Spec.xorBytes seed (g db hSize)) (k - hSize - 1)))) :
    (∀ seed m, seed.length = hSize → m.length + 2 * hSize + 2 ≤ k → em = Spec.emeOaep pHash g hSize k seed m →
      oaepDecryptCore em hSize pHash k mgf = .ok m) ∧
    ((¬ ∃ seed m, seed.length = hSize ∧ m.length + 2 * hSize + 2 ≤ k ∧ em = Spec.emeOaep pHash g hSize k seed m) →
      oaepDecryptCore em hSize pHash k mgf = .err .decryption) := by
  match em, hem with
  | [], h => simp at h; omega
  | b0 :: payload, hem =>
    simp only [List.length_cons] at hem
    have hpl : payload.length = k - 1 := by omega
    set mSeed := payload.take hSize with hmSeed
    set mDb := payload.drop hSize with hmDb
    have hmsl : mSeed.length = hSize := by simp [hmSeed]; omega
    have hmdl : mDb.length = k - hSize - 1 := by simp [hmDb]; omega
    have hpay : payload = mSeed ++ mDb := (List.take_append_drop hSize payload).symm
    set seed := Spec.xorBytes mSeed (g mDb hSize) with hseed
    set db := Spec.xorBytes mDb (g seed (k - hSize - 1)) with hdb
    have hsl : seed.length = hSize := by simp [hseed, hg, hmsl]
    have hdl : db.length = k - hSize - 1 := by simp [hdb, hg, hmdl]
    have hrun : oaepDecryptInner (b0 :: payload) hSize pHash k mgf =
        .ok ((b0 == 0) && (db.take hSize == pHash) &&
            !((db.drop hSize).zipIdx.foldl oaepStep (true, 0, false)).2.2 &&
            !((db.drop hSize).zipIdx.foldl oaepStep (true, 0, false)).1,
          [b0] ++ (seed ++ db),
          ((db.drop hSize).zipIdx.foldl oaepStep (true, 0, false)).2.1 + 2 + UInt32.ofNat (hSize * 2)) := by
      unfold oaepDecryptInner
      rw [if_neg (by omega), if_neg (by omega), idx_of_lt (by simp), Res.ok_bind]
      dsimp only
      rw [splitAt_of_le (by simp), Res.ok_bind]
      dsimp only
      rw [show List.take 1 (b0 :: payload) = [b0] from rfl, show List.drop 1 (b0 :: payload) = payload from rfl]
      rw [splitAt_of_le (by omega), Res.ok_bind]
      dsimp only
      rw [← hmSeed, ← hmDb, hm _ _ hmsl hmdl, Res.ok_bind]
      dsimp only
      rw [← hseed, ← hdb, slice_of_le (by omega) (by omega), Res.ok_bind]
      rw [List.drop_zero]; rfl
    -- the block is an encoding exactly when the pieces match
    have hchar : ∀ seed' m, seed'.length = hSize → m.length + 2 * hSize + 2 ≤ k →
        ((b0 :: payload = Spec.emeOaep pHash g hSize k seed' m) ↔
          b0 = 0 ∧ seed' = seed ∧
            db = pHash ++ (List.replicate (k - m.length - 2 * hSize - 2) 0x00 ++ 1 :: m)) := by
      intro seed' m hs' hml
      unfold Spec.emeOaep
      set db' := pHash ++ List.replicate (k - m.length - 2 * hSize - 2) 0x00 ++ [0x01] ++ m with hdb'
      have hdb'2 : pHash ++ (List.replicate (k - m.length - 2 * hSize - 2) 0x00 ++ 1 :: m) = db' := by
        rw [hdb']; simp
      rw [hdb'2]
      have hdl' : db'.length = k - hSize - 1 := by rw [hdb']; simp; omega
      simp only [List.cons_append, List.nil_append, List.cons.injEq]
      constructor
      · rintro ⟨h0, h⟩
        refine ⟨h0, ?_⟩
        rw [hpay] at h
        have hl : mSeed.length = (Spec.xorBytes seed' (g (Spec.xorBytes db' (g seed' (k - hSize - 1))) hSize)).length := by
          simp [hg, hs', hmsl]
        obtain ⟨e1, e2⟩ := List.append_inj h hl
        rw [← e2] at e1
        have e3 : seed' = seed := by
          rw [hseed]
          exact (xor_swap (by rw [hg]; omega) e1).symm
        refine ⟨e3, ?_⟩
        rw [e3] at e2
        rw [hdb]
        exact xor_swap (by rw [hg]; omega) e2
      · rintro ⟨h0, rfl, e⟩
        refine ⟨h0, ?_⟩
        have e2 : Spec.xorBytes db' (g seed (k - hSize - 1)) = mDb := by
          rw [← e, hdb]; exact xorBytes_cancel _ _ (by rw [hg]; omega)
        rw [e2]
        have e1 : Spec.xorBytes seed (g mDb hSize) = mSeed := by
          rw [hseed]; exact xorBytes_cancel _ _ (by rw [hg]; omega)
        rw [e1, hpay]
    constructor
    · intro seed' m hs' hml he
      obtain ⟨h0, -, hdbe⟩ := (hchar seed' m hs' hml).mp he
      unfold oaepDecryptCore
      have hdrop : db.drop hSize = List.replicate (k - m.length - 2 * hSize - 2) 0x00 ++ 1 :: m := by
        rw [hdbe, ← hp, List.drop_left]
      have htake : db.take hSize = pHash := by rw [hdbe, ← hp, List.take_left]
      rw [hrun, Res.ok_bind]
      dsimp only
      rw [hdrop, oaepFold_found, htake, h0]
      simp only [beq_self_eq_true, Bool.not_false, Bool.and_true, Bool.not_true, Bool.false_eq_true, if_false]
      have hidx : (UInt32.ofNat (0 + (k - m.length - 2 * hSize - 2)) + 2 + UInt32.ofNat (hSize * 2)).toNat
          = k - m.length := by
        simp only [UInt32.toNat_add, UInt32.toNat_ofNat']
        simp
        omega
      rw [hidx, sliceFrom_of_le (by simp; omega)]
      congr 1
      rw [hdbe]
      have : ([(0 : UInt8)] ++ (seed ++ (pHash ++ (List.replicate (k - m.length - 2 * hSize - 2) 0x00 ++ 1 :: m)))) =
          ([(0 : UInt8)] ++ seed ++ pHash ++ List.replicate (k - m.length - 2 * hSize - 2) 0x00 ++ [1]) ++ m := by simp
      rw [this]
      have hl : ([(0 : UInt8)] ++ seed ++ pHash ++ List.replicate (k - m.length - 2 * hSize - 2) 0x00 ++ [1]).length
          = k - m.length := by simp; omega
      exact List.drop_left' hl
    · intro hno
      unfold oaepDecryptCore
      rw [hrun, Res.ok_bind]
      dsimp only
      have hdbsplit : db = db.take hSize ++ db.drop hSize := (List.take_append_drop hSize db).symm
      have hinvalid : ((b0 == 0) && (db.take hSize == pHash) &&
            !((db.drop hSize).zipIdx.foldl oaepStep (true, 0, false)).2.2 &&
            !((db.drop hSize).zipIdx.foldl oaepStep (true, 0, false)).1) = false := by
        by_cases h0 : b0 = 0
        swap
        · simp [h0]
        by_cases hh : db.take hSize = pHash
        swap
        · simp [hh]
        rcases zeros_split (db.drop hSize) with ⟨j, hj⟩ | ⟨j, b, m, hb, hj⟩
        · rw [hj, oaepFold_zeros]; simp
        · by_cases hb1 : b = 1
          · subst hb1
            exfalso
            apply hno
            have hl := congrArg List.length hj
            simp only [List.length_drop, List.length_append, List.length_replicate, List.length_cons] at hl
            refine ⟨seed, m, hsl, by omega, (hchar seed m hsl (by omega)).mpr ⟨h0, rfl, ?_⟩⟩
            rw [hdbsplit, hh, hj]
            congr 3
            omega
          · rw [hj, oaepFold_other _ _ _ hb hb1]; simp
      rw [hinvalid]; rfl

end RSA
