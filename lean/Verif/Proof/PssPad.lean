import Verif.Model.PssPad
import Verif.Proof.Oaep

namespace RSA
open BoxedUint

/-! ## Bit masks -/

/-- `0xFF >> z`. -/
def mask8 (z : Nat) : UInt8 := 0xFF >>> UInt8.ofNat z

theorem shrFF_eq {z : Nat} (h : z < 8) : shrFF z = .ok (mask8 z) := by simp [shrFF, h, mask8]

theorem mask8_toNat {z : Nat} (h : z < 8) : (mask8 z).toNat = 2 ^ (8 - z) - 1 := by
  interval_cases z <;> decide

theorem clear_eq {z : Nat} (h : z < 8) (b : UInt8) : UInt8.ofNat (b.toNat % 2 ^ (8 - z)) = b &&& mask8 z := by
  rw [← UInt8.toNat_inj, UInt8.toNat_and, mask8_toNat h, Nat.and_two_pow_sub_one_eq_mod, UInt8.toNat_ofNat']
  apply Nat.mod_eq_of_lt
  have h1 : b.toNat < 2 ^ 8 := b.toNat_lt
  exact lt_of_le_of_lt (Nat.mod_le _ _) h1

theorem forall_uint8 {p : UInt8 → Prop} (h : ∀ i : Fin 256, p (UInt8.ofFin i)) (b : UInt8) : p b := by
  have := h b.toFin
  simpa using this

theorem topbits_iff {z : Nat} (h : z < 8) (b : UInt8) : b &&& checkedShlFF (8 - z) = 0 ↔ b &&& mask8 z = b := by
  revert b
  apply forall_uint8
  interval_cases z <;> decide +kernel

theorem and_xor_right (a b m : UInt8) : (a ^^^ b) &&& m = (a &&& m) ^^^ (b &&& m) := by
  rw [← UInt8.toNat_inj]
  simp only [UInt8.toNat_and, UInt8.toNat_xor]
  apply Nat.eq_of_testBit_eq
  intro i
  simp only [Nat.testBit_and, Nat.testBit_xor]
  cases Nat.testBit a.toNat i <;> cases Nat.testBit b.toNat i <;> cases Nat.testBit m.toNat i <;> rfl

/-- Unmasking after clearing. -/
theorem clear_xor_clear (a m k : UInt8) : (((a ^^^ m) &&& k) ^^^ m) &&& k = a &&& k := by
  rw [and_xor_right, UInt8.and_assoc, UInt8.and_self, and_xor_right, UInt8.xor_assoc, UInt8.xor_self, UInt8.xor_zero]

theorem one_and_mask {z : Nat} (h : z < 8) : (1 : UInt8) &&& mask8 z = 1 := by interval_cases z <;> decide
theorem zero_and_mask (z : Nat) : (0 : UInt8) &&& mask8 z = 0 := by simp

theorem clearLeft_cons {z : Nat} (h : z < 8) (b : UInt8) (bs : Bytes) :
    Spec.clearLeftBits z (b :: bs) = (b &&& mask8 z) :: bs := by
  simp [Spec.clearLeftBits, clear_eq h]

@[simp] theorem clearLeft_length (z : Nat) (b : Bytes) : (Spec.clearLeftBits z b).length = b.length := by
  cases b <;> simp [Spec.clearLeftBits]

/-- Clear, mask, clear again: back to the cleared original. -/
theorem clearLeft_unmask {z : Nat} (h : z < 8) (db m : Bytes) (hl : db.length ≤ m.length) :
    Spec.clearLeftBits z (Spec.xorBytes (Spec.clearLeftBits z (Spec.xorBytes db m)) m) = Spec.clearLeftBits z db := by
  cases db with
  | nil => simp [Spec.xorBytes, Spec.clearLeftBits]
  | cons x xs =>
    cases m with
    | nil => simp at hl
    | cons y ys =>
      have hc := xorBytes_cancel xs ys (by simpa using hl)
      simp only [Spec.xorBytes, List.zipWith_cons_cons, clearLeft_cons h] at *
      rw [hc, clear_xor_clear]

/-! ## Encoding -/

theorem emsaPss_length {H : HashFn} (hpos : 0 < H.outLen) {mHash salt em : Bytes} {emBits : Nat}
    (h : Spec.emsaPss H.hash H.mgf H.outLen mHash salt emBits = some em) :
    em.length = (emBits + 7) / 8 ∧ H.outLen + salt.length + 2 ≤ (emBits + 7) / 8 := by
  unfold Spec.emsaPss at h
  dsimp only at h
  split at h
  · cases h
  · next hl =>
    obtain rfl := Option.some.inj h
    have := H.mgf_length hpos
    simp [this, H.hash_len]
    omega

theorem emsaPssEncode_eq (mHash : Bytes) (emBits : Nat) (salt : Bytes) (D : HashFn) (hpos : 0 < D.outLen)
    (hh : mHash.length = D.outLen) (hadd : D.outLen + salt.length + 2 < 2 ^ 64) (hb : emBits < 2 ^ 32) :
    emsaPssEncode mHash emBits salt (DigestState.new D) =
      match Spec.emsaPss D.hash D.mgf D.outLen mHash salt emBits with
      | some em => .ok em
      | none => .err .internal := by
  have hdc : divCeil emBits 8 = (emBits + 7) / 8 := rfl
  unfold emsaPssEncode Spec.emsaPss
  dsimp only [DigestState.outputSize, DigestState.new, DigestState.update, DigestState.finalizeReset]
  rw [if_neg (by simp [hh]), addU_of_lt (by omega), Res.ok_bind, addU_of_lt (by omega), Res.ok_bind, hdc]
  set emLen := (emBits + 7) / 8 with hemLen
  by_cases hlt : emLen < D.outLen + salt.length + 2
  · rw [if_pos hlt, if_pos hlt]
  · rw [if_neg hlt, if_neg hlt, subU_of_le (by omega), Res.ok_bind, subU_of_le (by omega), Res.ok_bind,
      splitAt_of_le (by simp; omega), Res.ok_bind]
    dsimp only
    rw [List.take_replicate, List.drop_replicate, List.length_replicate, Nat.min_eq_left (by omega),
      subU_of_le (by omega), Res.ok_bind, subU_of_le (by omega), Res.ok_bind,
      slice_of_le (by omega) (by simp; omega), Res.ok_bind]
    have hhl : emLen - 1 - (emLen - D.outLen - 1) = D.outLen := by omega
    have hhr : emLen - (emLen - D.outLen - 1) = D.outLen + 1 := by omega
    rw [hhl, hhr, copyInto_of_le (by omega) (by simp) (by rw [D.hash_len]; omega), Res.ok_bind]
    rw [subU_of_le (by omega), Res.ok_bind, subU_of_le (by omega), Res.ok_bind, subU_of_le (by omega), Res.ok_bind,
      setIdx_of_lt (by simp; omega), Res.ok_bind, subU_of_le (by omega), Res.ok_bind,
      copyInto_of_le (by simp; omega) (by simp) (by simp; omega), Res.ok_bind]
    have hdb : List.take (emLen - salt.length - D.outLen - 1)
          ((List.replicate (emLen - D.outLen - 1) (0 : UInt8)).set (emLen - salt.length - D.outLen - 2) 0x01) ++ salt ++
        List.drop ((List.replicate (emLen - D.outLen - 1) (0 : UInt8)).set (emLen - salt.length - D.outLen - 2) 0x01).length
          ((List.replicate (emLen - D.outLen - 1) (0 : UInt8)).set (emLen - salt.length - D.outLen - 2) 0x01) =
        List.replicate (emLen - salt.length - D.outLen - 2) 0x00 ++ [0x01] ++ salt := by
      rw [List.drop_length, List.append_nil]
      congr 1
      apply List.ext_getElem
      · simp; omega
      · intro i h1 h2
        rw [List.getElem_take, List.getElem_set, List.getElem_append]
        simp only [List.length_take, List.length_set, List.length_replicate] at h1
        simp only [List.getElem_replicate, List.length_replicate, List.getElem_singleton]
        split <;> split <;> first | rfl | omega
    rw [hdb]
    set H := D.hash ([] ++ List.replicate 8 0 ++ mHash ++ salt) with hH
    have hH' : D.hash (List.replicate 8 0x00 ++ mHash ++ salt) = H := by rw [hH]; simp
    have hHl : H.length = D.outLen := D.hash_len _
    have hHd : List.take 0 (List.replicate (D.outLen + 1) (0 : UInt8)) ++ H ++
        List.drop D.outLen (List.replicate (D.outLen + 1) 0) = H ++ [0] := by
      rw [List.take_zero, List.nil_append, List.drop_replicate, show D.outLen + 1 - D.outLen = 1 by omega]; rfl
    rw [hHd, slice_of_le (by omega) (by simp; omega), Res.ok_bind]
    have hHs : List.drop 0 (List.take D.outLen (H ++ [0])) = H := by rw [← hHl]; simp
    set db := List.replicate (emLen - salt.length - D.outLen - 2) (0x00 : UInt8) ++ [0x01] ++ salt with hdb2
    have hdbl : db.length = emLen - D.outLen - 1 := by rw [hdb2]; simp; omega
    rw [hHs, mgf1Xor_eq db D hpos H (by omega), Res.ok_bind, hdbl]
    dsimp only
    rw [subU_of_le (by omega), Res.ok_bind, shrFF_eq (by omega), Res.ok_bind]
    have hmask : Spec.mgf1 D.hash D.outLen H (emLen - D.outLen - 1) = D.mgf H (emLen - D.outLen - 1) := rfl
    rw [hmask, hH']
    have hml : (Spec.xorBytes db (D.mgf H (emLen - D.outLen - 1))).length = emLen - D.outLen - 1 := by
      rw [xorBytes_length, D.mgf_length hpos]; omega
    match hm : Spec.xorBytes db (D.mgf H (emLen - D.outLen - 1)), hml with
    | [], hml => simp at hml; omega
    | d0 :: ds, hml =>
      rw [idx_of_lt (by simp), Res.ok_bind, setIdx_of_lt (by simp), Res.ok_bind, Res.ok_bind]
      dsimp only [List.getElem_cons_zero, List.set_cons_zero]
      rw [setIdx_of_lt (by simp at hml ⊢; omega), clearLeft_cons (by omega)]
      congr 1
      rw [← List.append_assoc, List.set_append_right _ _ (by simp at hml ⊢; omega)]
      congr 1
      have : emLen - 1 - ((d0 &&& mask8 (8 * emLen - emBits)) :: ds ++ H).length = 0 := by simp at hml ⊢; omega
      rw [this]; rfl

/-! ## Verification -/

theorem allZero_fold (l : Bytes) : l.foldl (fun a e => a && e == 0x00) true = decide (l = List.replicate l.length 0) := by
  have key : ∀ (l : Bytes) (b : Bool), l.foldl (fun a e => a && e == 0x00) b = (b && decide (l = List.replicate l.length 0)) := by
    intro l
    induction l with
    | nil => intro b; simp
    | cons x xs ih =>
      intro b
      rw [List.foldl_cons, ih, Bool.and_assoc]
      congr 1
      by_cases hx : x = 0
      · simp [hx, List.replicate_succ]
      · simp [hx, List.replicate_succ]
  simpa using key l true

/-- The PSS check after the surplus byte was dropped, as one decision. -/
theorem emsaPssVerify_eq (mHash em : Bytes) (sLen : Nat) (D : HashFn) (hpos : 0 < D.outLen) (keyBits : Nat)
    (hkb : 0 < keyBits) (hkb32 : keyBits < 2 ^ 32) (hem : em.length = (keyBits + 7) / 8)
    (hadd : D.outLen + sLen + 2 < 2 ^ 64) :
    ((emsaPssVerify mHash em sLen (DigestState.new D) keyBits = .ok () ∧
      mHash.length = D.outLen ∧ ∃ salt, salt.length = sLen ∧
        Spec.emsaPss D.hash D.mgf D.outLen mHash salt (keyBits - 1) =
          some (em.drop ((keyBits + 7) / 8 - (keyBits - 1 + 7) / 8))) ∨
     (emsaPssVerify mHash em sLen (DigestState.new D) keyBits = .err .verification ∧
      ¬ (mHash.length = D.outLen ∧ ∃ salt, salt.length = sLen ∧
        Spec.emsaPss D.hash D.mgf D.outLen mHash salt (keyBits - 1) =
          some (em.drop ((keyBits + 7) / 8 - (keyBits - 1 + 7) / 8))))) := by
  have hdc : ∀ x, divCeil x 8 = (x + 7) / 8 := fun _ => rfl
  set emBits := keyBits - 1 with hemBits
  set emLen := (emBits + 7) / 8 with hemLen
  have hle : emLen ≤ (keyBits + 7) / 8 := by omega
  unfold emsaPssVerify
  rw [subU_of_le (by omega), Res.ok_bind, ← hemBits]
  dsimp only
  rw [hdc, hdc, subU_of_le (by omega), Res.ok_bind, sliceFrom_of_le (by omega), Res.ok_bind, ← hemLen]
  set em' := em.drop ((keyBits + 7) / 8 - emLen) with hem'
  have hel : em'.length = emLen := by rw [hem', List.length_drop]; omega
  have hos : (DigestState.new D).outputSize = D.outLen := rfl
  rw [hos]
  unfold emsaPssVerifyPre
  by_cases hmh : mHash.length = D.outLen
  swap
  · right
    rw [if_pos hmh]
    exact ⟨rfl, fun h => hmh h.1⟩
  rw [if_neg (by simp [hmh])]
  dsimp only
  rw [hel, addU_of_lt (by omega), Res.ok_bind, addU_of_lt (by omega), Res.ok_bind]
  by_cases hlt : emLen < D.outLen + sLen + 2
  · right
    rw [if_pos hlt]
    refine ⟨rfl, ?_⟩
    rintro ⟨_, salt, hs, he⟩
    have := (emsaPss_length hpos he).2
    omega
  rw [if_neg hlt, subU_of_le (by omega), Res.ok_bind, idx_of_lt (by omega), Res.ok_bind]
  -- split the block
  obtain ⟨mdb, h, lst, hsplit, hmdl, hhl⟩ : ∃ (mdb h : Bytes) (lst : UInt8), em' = mdb ++ h ++ [lst] ∧
      mdb.length = emLen - D.outLen - 1 ∧ h.length = D.outLen := by
    have h1 := List.take_append_drop (emLen - D.outLen - 1) em'
    have h2 := List.take_append_drop D.outLen (em'.drop (emLen - D.outLen - 1))
    have h3 : ((em'.drop (emLen - D.outLen - 1)).drop D.outLen).length = 1 := by simp; omega
    obtain ⟨x, hx⟩ := List.length_eq_one_iff.mp h3
    refine ⟨em'.take (emLen - D.outLen - 1), (em'.drop (emLen - D.outLen - 1)).take D.outLen, x, ?_, ?_, ?_⟩
    · rw [List.append_assoc, ← hx, h2, h1]
    · simp; omega
    · simp; omega
  obtain ⟨b0, bs, rfl⟩ : ∃ b0 bs, mdb = b0 :: bs := by
    cases mdb with
    | nil => simp at hmdl; omega
    | cons b0 bs => exact ⟨b0, bs, rfl⟩
  have hlast : em'[emLen - 1]'(by omega) = lst := by
    simp only [hsplit]
    rw [List.getElem_append_right (by rw [List.length_append]; omega)]
    simp
  rw [hlast]
  have hspec : ∀ salt : Bytes, salt.length = sLen →
      (Spec.emsaPss D.hash D.mgf D.outLen mHash salt emBits = some em' ↔
        lst = 0xBC ∧ h = D.hash (List.replicate 8 0x00 ++ mHash ++ salt) ∧
        b0 :: bs = Spec.clearLeftBits (8 * emLen - emBits) (Spec.xorBytes
          (List.replicate (emLen - sLen - D.outLen - 2) 0x00 ++ [0x01] ++ salt) (D.mgf h (emLen - D.outLen - 1)))) := by
    intro salt hs
    unfold Spec.emsaPss
    dsimp only
    rw [← hemLen, hs, if_neg hlt, Option.some.injEq, hsplit]
    have hll : (Spec.clearLeftBits (8 * emLen - emBits) (Spec.xorBytes
          (List.replicate (emLen - sLen - D.outLen - 2) 0x00 ++ [0x01] ++ salt)
          (D.mgf (D.hash (List.replicate 8 0x00 ++ mHash ++ salt)) (emLen - D.outLen - 1)))).length = (b0 :: bs).length := by
      rw [clearLeft_length, xorBytes_length, D.mgf_length hpos, hmdl]
      simp; omega
    constructor
    · intro e
      rw [List.append_assoc, List.append_assoc (b0 :: bs)] at e
      obtain ⟨e1, e2⟩ := List.append_inj e hll
      obtain ⟨e3, e4⟩ := List.append_inj e2 (by rw [hhl]; exact D.hash_len _)
      refine ⟨?_, e3.symm, ?_⟩
      · simpa using e4.symm
      · rw [← e1, ← e3]
    · rintro ⟨e1, e2, e3⟩
      rw [e3, e1, ← e2]
  by_cases hbc : lst = 0xBC
  swap
  · right
    rw [if_pos hbc]
    refine ⟨rfl, ?_⟩
    rintro ⟨_, salt, hs, he⟩
    exact hbc ((hspec salt hs).mp he).1
  rw [if_neg (by simp [hbc]), subU_of_le (by omega), Res.ok_bind, subU_of_le (by omega), Res.ok_bind,
    splitAt_of_le (by omega), Res.ok_bind]
  have htk : em'.take (emLen - D.outLen - 1) = b0 :: bs := by
    rw [hsplit, List.append_assoc, ← hmdl, List.take_left]
  have hdr : em'.drop (emLen - D.outLen - 1) = h ++ [lst] := by
    rw [hsplit, List.append_assoc, ← hmdl, List.drop_left]
  dsimp only
  rw [htk, hdr, slice_of_le (by omega) (by simp; omega), Res.ok_bind]
  have hhs : List.drop 0 (List.take D.outLen (h ++ [lst])) = h := by rw [← hhl]; simp
  rw [hhs]
  rw [idx_of_lt (by simp), Res.ok_bind, subU_of_le (by omega), Res.ok_bind, subU_of_le (by omega), Res.ok_bind]
  rw [List.getElem_cons_zero]
  set z := 8 * emLen - emBits with hz
  have hz8 : z < 8 := by omega
  by_cases htop : b0 &&& checkedShlFF (8 - z) = 0
  swap
  · right
    rw [if_pos htop]
    refine ⟨rfl, ?_⟩
    rintro ⟨_, salt, hs, he⟩
    obtain ⟨_, _, he⟩ := (hspec salt hs).mp he
    apply htop
    rw [topbits_iff hz8]
    generalize Spec.xorBytes
        (List.replicate (emLen - sLen - D.outLen - 2) 0x00 ++ [0x01] ++ salt) (D.mgf h (emLen - D.outLen - 1)) = X at he
    cases X with
    | nil => simp [Spec.clearLeftBits] at he
    | cons x xs =>
      rw [clearLeft_cons hz8] at he
      obtain ⟨rfl, _⟩ := List.cons.inj he
      rw [UInt8.and_assoc, UInt8.and_self]
  rw [if_neg (by simp [htop]), Res.ok_bind]
  dsimp only
  have hmg := mgf1Xor_eq (b0 :: bs) D hpos h (by omega)
  unfold DigestState.new
  rw [hmg, Res.ok_bind, hmdl]
  dsimp only
  rw [Res.ok_bind, shrFF_eq hz8, Res.ok_bind]
  have hgl := D.mgf_length hpos h (emLen - D.outLen - 1)
  have hmaskdef : Spec.mgf1 D.hash D.outLen h (emLen - D.outLen - 1) = D.mgf h (emLen - D.outLen - 1) := rfl
  rw [hmaskdef]
  set M := D.mgf h (emLen - D.outLen - 1) with hM
  -- the unmasked, cleared data block
  set dbc := Spec.clearLeftBits z (Spec.xorBytes (b0 :: bs) M) with hdbc
  have hxl : (Spec.xorBytes (b0 :: bs) M).length = emLen - D.outLen - 1 := by
    rw [xorBytes_length, hgl, hmdl]; omega
  have hdbl : dbc.length = emLen - D.outLen - 1 := by rw [hdbc, clearLeft_length, hxl]
  have hset : (idx (Spec.xorBytes (b0 :: bs) M) 0 >>= fun d0 =>
      setIdx (Spec.xorBytes (b0 :: bs) M) 0 (d0 &&& mask8 z)) = .ok dbc := by
    match hX : Spec.xorBytes (b0 :: bs) M, hxl with
    | [], hxl => simp at hxl; omega
    | x :: xs, hxl =>
      rw [idx_of_lt (by simp), Res.ok_bind, setIdx_of_lt (by simp)]
      rw [hX, clearLeft_cons hz8] at hdbc
      rw [hdbc]; rfl
  rw [Res.bind_eq_ok] at hset
  obtain ⟨d0, hd0, hset⟩ := hset
  rw [hd0, Res.ok_bind, hset, Res.ok_bind]
  unfold emsaPssVerifySalt
  rw [subU_of_le (by omega), Res.ok_bind, subU_of_le (by omega), Res.ok_bind, subU_of_le (by omega), Res.ok_bind,
    splitAt_of_le (by omega), Res.ok_bind]
  dsimp only
  rw [idx_of_lt (by simp; omega), Res.ok_bind, Res.ok_bind, subU_of_le (by omega), Res.ok_bind,
    sliceFrom_of_le (by omega), Res.ok_bind, allZero_fold]
  dsimp only [DigestState.update, DigestState.finalizeReset]
  set c := emLen - D.outLen - sLen - 2 with hcdef
  set salt := dbc.drop (dbc.length - sLen) with hsalt
  have hsl : salt.length = sLen := by rw [hsalt, List.length_drop]; omega
  have hr0 : (List.drop c dbc)[0]'(by simp; omega) = dbc[c]'(by omega) := by simp
  rw [hr0]
  have htl : (List.take c dbc).length = c := by simp; omega
  rw [htl]
  have hparts : dbc = List.take c dbc ++ [dbc[c]'(by omega)] ++ salt := by
    have h1 : List.drop c dbc = dbc[c]'(by omega) :: List.drop (c + 1) dbc := (List.getElem_cons_drop (by omega)).symm
    have h2 : dbc.length - sLen = c + 1 := by omega
    rw [hsalt, h2, List.append_assoc, List.singleton_append, ← h1, List.take_append_drop]
  have hnil : D.hash ([] ++ List.replicate 8 0 ++ mHash ++ salt) = D.hash (List.replicate 8 0x00 ++ mHash ++ salt) := by
    simp
  simp only [hnil]
  have hcc : emLen - sLen - D.outLen - 2 = c := by omega
  have hb0 : Spec.clearLeftBits z (b0 :: bs) = b0 :: bs := by
    rw [clearLeft_cons hz8, (topbits_iff hz8 b0).mp htop]
  -- decision
  by_cases hok : List.take c dbc = List.replicate c 0 ∧ dbc[c]'(by omega) = 1 ∧
      D.hash (List.replicate 8 0x00 ++ mHash ++ salt) = h
  · left
    obtain ⟨o1, o2, o3⟩ := hok
    have hcond : (decide (List.take c dbc = List.replicate c 0) && dbc[c]'(by omega) == 1 &&
        D.hash (List.replicate 8 0x00 ++ mHash ++ salt) == h) = true := by rw [o3]; simp [o1, o2]
    rw [if_pos hcond]
    refine ⟨rfl, hmh, salt, hsl, (hspec salt hsl).mpr ⟨hbc, o3.symm, ?_⟩⟩
    rw [hcc]
    rw [o1, o2] at hparts
    rw [← hparts, hdbc, clearLeft_unmask hz8 _ _ (by rw [hmdl, hgl]), hb0]
  · right
    have hcond : ¬ ((decide (List.take c dbc = List.replicate c 0) && dbc[c]'(by omega) == 1 &&
        D.hash (List.replicate 8 0x00 ++ mHash ++ salt) == h) = true) := by
      simp only [Bool.and_eq_true, decide_eq_true_eq, beq_iff_eq]
      rintro ⟨⟨o1, o2⟩, o3⟩; exact hok ⟨o1, o2, o3⟩
    rw [if_neg hcond]
    refine ⟨rfl, ?_⟩
    rintro ⟨_, salt', hs', he⟩
    obtain ⟨_, e2, e3⟩ := (hspec salt' hs').mp he
    rw [hcc] at e3
    apply hok
    have hDB : dbc = List.replicate c 0x00 ++ [0x01] ++ salt' := by
      rw [hdbc, e3, clearLeft_unmask hz8 _ _ (by rw [hgl]; simp; omega)]
      cases c with
      | zero =>
        rw [List.replicate_zero, List.nil_append, List.singleton_append, clearLeft_cons hz8, one_and_mask hz8]
      | succ c =>
        rw [List.replicate_succ, List.cons_append, List.cons_append, clearLeft_cons hz8, zero_and_mask]
    have q1 : List.take c dbc = List.replicate c 0 := by
      rw [hDB, List.append_assoc]
      exact List.take_left' (by simp)
    have q2 : dbc[c]'(by omega) = 1 := by
      have : dbc[c]? = some 1 := by
        rw [hDB, List.append_assoc, List.getElem?_append_right (by simp)]; simp
      rw [List.getElem?_eq_getElem (by omega)] at this
      exact Option.some.inj this
    have q3 : salt = salt' := by
      rw [q1, q2] at hparts
      rw [hDB] at hparts
      exact (List.append_cancel_left hparts).symm
    exact ⟨q1, q2, by rw [q3]; exact e2.symm⟩

/-- The generic-digest PSS functions are the trait-object ones on a fresh digest. -/
theorem emsaPssEncodeDigest_agree (mHash : Bytes) (emBits : Nat) (salt : Bytes) (D : HashFn) :
    emsaPssEncodeDigest mHash emBits salt D = emsaPssEncode mHash emBits salt (DigestState.new D) := by
  unfold emsaPssEncodeDigest emsaPssEncode
  dsimp only [DigestState.outputSize, DigestState.new, DigestState.update, DigestState.finalizeReset]
  simp only [mgf1XorDigest_eq]

theorem emsaPssVerifyDigest_agree (mHash em : Bytes) (sLen : Nat) (D : HashFn) (keyBits : Nat) :
    emsaPssVerifyDigest mHash em sLen D keyBits = emsaPssVerify mHash em sLen (DigestState.new D) keyBits := by
  unfold emsaPssVerifyDigest emsaPssVerify
  dsimp only [DigestState.outputSize, DigestState.new]
  simp only [mgf1XorDigest_eq]

end RSA
