import Verif.Model.Mgf
import Verif.Proof.Bytes
import Verif.Proof.Res
import Verif.Spec.Rfc8017

namespace RSA
open BoxedUint

/-- The counter holding `c` modulo 2^32. -/
theorem beBytes4 (c : Nat) : beBytes 4 c = [UInt8.ofNat (c / 256 / 256 / 256 % 256), UInt8.ofNat (c / 256 / 256 % 256),
    UInt8.ofNat (c / 256 % 256), UInt8.ofNat (c % 256)] := by
  simp [beBytes]

theorem ofNat_add_one_eq_zero (x : Nat) : (UInt8.ofNat (x % 256) + 1 = 0) ↔ x % 256 = 255 := by
  rw [← UInt8.toNat_inj]
  simp [UInt8.toNat_add]
  omega

theorem ofNat_add_one (x y : Nat) (h : (x % 256 + 1) % 256 = y % 256) : UInt8.ofNat (x % 256) + 1 = UInt8.ofNat (y % 256) := by
  rw [← UInt8.toNat_inj]
  simp [UInt8.toNat_add]
  omega

theorem incCounter_bytes (ctr : Counter) (c : Nat) (h : ctr.bytes = beBytes 4 c) :
    (incCounter ctr).bytes = beBytes 4 (c + 1) := by
  rcases ctr with ⟨b0, b1, b2, b3⟩
  rw [beBytes4] at h
  simp only [Counter.bytes, List.cons.injEq, and_true] at h
  obtain ⟨rfl, rfl, rfl, rfl⟩ := h
  rw [beBytes4]
  simp only [incCounter]
  by_cases h3 : c % 256 = 255
  · have z3 := (ofNat_add_one_eq_zero c).mpr h3
    by_cases h2 : c / 256 % 256 = 255
    · have z2 := (ofNat_add_one_eq_zero (c / 256)).mpr h2
      by_cases h1 : c / 256 / 256 % 256 = 255
      · have z1 := (ofNat_add_one_eq_zero (c / 256 / 256)).mpr h1
        simp only [z3, z2, z1, ne_eq, not_true, if_false, Counter.bytes, List.cons.injEq, and_true]
        refine ⟨ofNat_add_one _ _ (by omega), ?_, ?_, ?_⟩
        · rw [show (c + 1) / 256 / 256 % 256 = 0 by omega]; rfl
        · rw [show (c + 1) / 256 % 256 = 0 by omega]; rfl
        · rw [show (c + 1) % 256 = 0 by omega]; rfl
      · have z1 : ¬ UInt8.ofNat (c / 256 / 256 % 256) + 1 = 0 := fun h => h1 ((ofNat_add_one_eq_zero _).mp h)
        simp only [z3, z2, z1, ne_eq, not_true, not_false_iff, if_true, if_false, Counter.bytes, List.cons.injEq,
          and_true]
        refine ⟨?_, ofNat_add_one _ _ (by omega), ?_, ?_⟩
        · rw [show (c + 1) / 256 / 256 / 256 % 256 = c / 256 / 256 / 256 % 256 by omega]
        · rw [show (c + 1) / 256 % 256 = 0 by omega]; rfl
        · rw [show (c + 1) % 256 = 0 by omega]; rfl
    · have z2 : ¬ UInt8.ofNat (c / 256 % 256) + 1 = 0 := fun h => h2 ((ofNat_add_one_eq_zero _).mp h)
      simp only [z3, z2, ne_eq, not_true, not_false_iff, if_true, if_false, Counter.bytes, List.cons.injEq, and_true]
      refine ⟨?_, ?_, ofNat_add_one _ _ (by omega), ?_⟩
      · rw [show (c + 1) / 256 / 256 / 256 % 256 = c / 256 / 256 / 256 % 256 by omega]
      · rw [show (c + 1) / 256 / 256 % 256 = c / 256 / 256 % 256 by omega]
      · rw [show (c + 1) % 256 = 0 by omega]; rfl
  · have z3 : ¬ UInt8.ofNat (c % 256) + 1 = 0 := fun h => h3 ((ofNat_add_one_eq_zero _).mp h)
    simp only [z3, ne_eq, not_false_iff, if_true, Counter.bytes, List.cons.injEq, and_true]
    refine ⟨?_, ?_, ?_, ofNat_add_one _ _ (by omega)⟩
    · rw [show (c + 1) / 256 / 256 / 256 % 256 = c / 256 / 256 / 256 % 256 by omega]
    · rw [show (c + 1) / 256 / 256 % 256 = c / 256 / 256 % 256 by omega]
    · rw [show (c + 1) / 256 % 256 = c / 256 % 256 by omega]

theorem xorInto_eq (d o : Bytes) : xorInto d o = (Spec.xorBytes o d, o.drop d.length) := by
  induction d generalizing o with
  | nil => cases o <;> simp [xorInto, Spec.xorBytes]
  | cons x xs ih =>
    cases o with
    | nil => simp [xorInto, Spec.xorBytes]
    | cons y ys => simp [xorInto, ih, Spec.xorBytes]

theorem xorBytes_append_right (o a b : Bytes) :
    Spec.xorBytes o (a ++ b) = Spec.xorBytes o a ++ Spec.xorBytes (o.drop a.length) b := by
  induction a generalizing o with
  | nil => cases o <;> simp [Spec.xorBytes]
  | cons x xs ih =>
    cases o with
    | nil => simp [Spec.xorBytes]
    | cons y ys =>
      have := ih ys
      simp only [Spec.xorBytes] at this
      simp [Spec.xorBytes, this]

@[simp] theorem xorBytes_length (a b : Bytes) : (Spec.xorBytes a b).length = min a.length b.length := by
  simp [Spec.xorBytes]

theorem xorBytes_take (o m : Bytes) : Spec.xorBytes o (m.take o.length) = Spec.xorBytes o m := by
  induction o generalizing m with
  | nil => simp [Spec.xorBytes]
  | cons y ys ih =>
    cases m with
    | nil => rfl
    | cons x xs =>
      have := ih xs
      simp only [Spec.xorBytes] at this
      simp [Spec.xorBytes, this]

/-- Masking twice with the same mask is the identity. -/
theorem xorBytes_cancel (o m : Bytes) (h : o.length ≤ m.length) : Spec.xorBytes (Spec.xorBytes o m) m = o := by
  induction o generalizing m with
  | nil => simp [Spec.xorBytes]
  | cons y ys ih =>
    cases m with
    | nil => simp at h
    | cons x xs =>
      have := ih xs (by simpa using h)
      simp only [Spec.xorBytes] at this
      simp [Spec.xorBytes, this, UInt8.xor_assoc]

/-- `n` blocks of the MGF1 stream starting at counter `c`. -/
def mgfBlocks (H : Bytes → Bytes) (seed : Bytes) (c n : Nat) : Bytes :=
  ((List.range n).map (fun i => H (seed ++ beBytes 4 (c + i)))).flatten

theorem mgfBlocks_succ (H : Bytes → Bytes) (seed : Bytes) (c n : Nat) :
    mgfBlocks H seed c (n + 1) = H (seed ++ beBytes 4 c) ++ mgfBlocks H seed (c + 1) n := by
  unfold mgfBlocks
  rw [List.range_succ_eq_map]
  simp only [List.map_cons, List.flatten_cons, Nat.add_zero, List.map_map]
  congr 2
  apply List.map_congr_left
  intro i _
  simp only [Function.comp_apply, Nat.succ_eq_add_one]
  rw [show c + (i + 1) = c + 1 + i by omega]

theorem mgfBlocks_length (h : HashFn) (seed : Bytes) (c n : Nat) : (mgfBlocks h.hash seed c n).length = n * h.outLen := by
  induction n generalizing c with
  | zero => simp [mgfBlocks]
  | succ n ih => rw [mgfBlocks_succ, List.length_append, ih, h.hash_len]; ring

theorem digestInput_eq (seed ctr : Bytes) (hc : ctr.length = 4) :
    (copyInto (List.replicate (seed.length + 4) 0) 0 seed.length seed >>= fun x =>
      copyInto x seed.length (seed.length + 4) ctr) = .ok (seed ++ ctr) := by
  rw [copyInto_of_le (by omega) (by simp) (by omega), Res.ok_bind, copyInto_of_le (by omega) (by simp) (by omega)]
  simp

theorem mgf1XorLoop_eq (h : HashFn) (hpos : 0 < h.outLen) (seed : Bytes) :
    ∀ (fuel : Nat) (out : Bytes) (ctr : Counter) (c n : Nat), out.length ≤ fuel → ctr.bytes = beBytes 4 c →
      out.length ≤ n * h.outLen →
      mgf1XorLoop fuel out ⟨h, []⟩ seed ctr = .ok (Spec.xorBytes out (mgfBlocks h.hash seed c n), ⟨h, []⟩) := by
  intro fuel
  induction fuel with
  | zero =>
    intro out ctr c n hf _ _
    cases out with
    | nil => rfl
    | cons o os => simp at hf
  | succ fuel ih =>
    intro out ctr c n hf hctr hn
    cases out with
    | nil => rfl
    | cons o os =>
      cases n with
      | zero => simp at hn
      | succ n =>
        have hin := digestInput_eq seed ctr.bytes rfl
        rw [Res.bind_eq_ok] at hin
        obtain ⟨x, hx, hy⟩ := hin
        simp only [mgf1XorLoop, hx, hy, Res.ok_bind, DigestState.update, DigestState.finalizeReset, List.nil_append,
          xorInto_eq]
        have hlen : (h.hash (seed ++ ctr.bytes)).length = h.outLen := h.hash_len _
        rw [ih _ _ (c + 1) n (by rw [List.length_drop, hlen, List.length_cons]; simp at hf; omega)
          (incCounter_bytes _ _ hctr)
          (by rw [List.length_drop, hlen]; rw [Nat.succ_mul] at hn; omega)]
        simp only [Res.ok_bind]
        rw [mgfBlocks_succ, xorBytes_append_right, ← hctr]

theorem mgf1XorDigestLoop_eq (h : HashFn) (seed : Bytes) :
    ∀ (fuel : Nat) (out : Bytes) (ctr : Counter),
      mgf1XorDigestLoop fuel out ⟨h, []⟩ seed ctr = mgf1XorLoop fuel out ⟨h, []⟩ seed ctr := by
  intro fuel
  induction fuel with
  | zero => intro out ctr; cases out <;> rfl
  | succ fuel ih =>
    intro out ctr
    cases out with
    | nil => rfl
    | cons o os =>
      have hin := digestInput_eq seed ctr.bytes rfl
      rw [Res.bind_eq_ok] at hin
      obtain ⟨x, hx, hy⟩ := hin
      simp only [mgf1XorLoop, mgf1XorDigestLoop, hx, hy, Res.ok_bind, DigestState.update, DigestState.finalizeReset,
        List.nil_append, ih]

/-- The two masking functions agree on a fresh digest. -/
theorem mgf1XorDigest_eq (out : Bytes) (h : HashFn) (seed : Bytes) :
    mgf1XorDigest out ⟨h, []⟩ seed = mgf1Xor out ⟨h, []⟩ seed := by
  unfold mgf1XorDigest mgf1Xor
  rw [mgf1XorDigestLoop_eq]

theorem mgf1_spec_eq (h : HashFn) (hpos : 0 < h.outLen) (seed : Bytes) (len : Nat) (hlen : len ≤ 2 ^ 32) :
    Spec.mgf1 h.hash h.outLen seed len = (mgfBlocks h.hash seed 0 ((len + h.outLen - 1) / h.outLen)).take len := by
  unfold Spec.mgf1 mgfBlocks
  congr 2
  apply List.map_congr_left
  intro i hi
  rw [List.mem_range] at hi
  have hlt : i < 256 ^ 4 := by
    have hb : (len + h.outLen - 1) / h.outLen ≤ len := by
      rcases Nat.eq_zero_or_pos len with h0 | h0
      · subst h0
        rw [Nat.div_eq_of_lt (by omega)]
      · apply Nat.div_le_of_le_mul
        have : len + h.outLen ≤ h.outLen * len + 1 := by nlinarith
        omega
    have : (256 : Nat) ^ 4 = 2 ^ 32 := by norm_num
    omega
  rw [i2osp_eq _ _ hlt, Nat.zero_add]; rfl

theorem mgf1_length (h : HashFn) (hpos : 0 < h.outLen) (seed : Bytes) (len : Nat) :
    (Spec.mgf1 h.hash h.outLen seed len).length = len := by
  unfold Spec.mgf1
  rw [List.length_take, List.length_flatten, List.map_map]
  have : (List.length ∘ fun c => h.hash (seed ++ (Spec.i2osp c 4).getD [])) = fun _ => h.outLen := by
    funext c; simp [h.hash_len]
  rw [this]
  simp only [List.map_const', List.length_range, List.sum_replicate_nat]
  apply Nat.min_eq_left
  have h1 := Nat.div_add_mod (len + h.outLen - 1) h.outLen
  have h2 := Nat.mod_lt (len + h.outLen - 1) hpos
  rw [mul_comm] at h1
  omega

theorem mgf1Xor_eq (out : Bytes) (h : HashFn) (hpos : 0 < h.outLen) (seed : Bytes) (hl : out.length ≤ 2 ^ 32) :
    mgf1Xor out ⟨h, []⟩ seed =
      .ok (Spec.xorBytes out (Spec.mgf1 h.hash h.outLen seed out.length), ⟨h, []⟩) := by
  unfold mgf1Xor
  rw [if_pos hl, mgf1_spec_eq h hpos seed _ hl, xorBytes_take]
  apply mgf1XorLoop_eq h hpos seed _ _ _ 0 _ (le_refl _) (by decide)
  have h1 := Nat.div_add_mod (out.length + h.outLen - 1) h.outLen
  have h2 := Nat.mod_lt (out.length + h.outLen - 1) hpos
  rw [mul_comm] at h1
  omega

theorem mgf1XorDigest_ok (out : Bytes) (h : HashFn) (hpos : 0 < h.outLen) (seed : Bytes) (hl : out.length ≤ 2 ^ 32) :
    mgf1XorDigest out ⟨h, []⟩ seed =
      .ok (Spec.xorBytes out (Spec.mgf1 h.hash h.outLen seed out.length), ⟨h, []⟩) := by
  rw [mgf1XorDigest_eq, mgf1Xor_eq out h hpos seed hl]

end RSA
