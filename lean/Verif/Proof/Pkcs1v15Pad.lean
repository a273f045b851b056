import Verif.Model.Pkcs1v15Pad
import Verif.Spec.Rfc8017
import Verif.Spec.Key
import Verif.Proof.Res
import Mathlib.Data.List.Basic
import Mathlib.Tactic.Ring

namespace RSA

/-! ## Signature padding -/

theorem set_decomp (a b : Bytes) (x y : UInt8) : (a ++ x :: b).set a.length y = a ++ y :: b := by
  induction a with
  | nil => rfl
  | cons z zs ih => simp [ih]

theorem pkcs1v15SignPad_eq (pfx hashed : Bytes) (k : Nat) :
    pkcs1v15SignPad pfx hashed k =
      match Spec.emsaPkcs1v15 (pfx ++ hashed) k with
      | some em => .ok em
      | none => .err .messageTooLong := by
  unfold pkcs1v15SignPad Spec.emsaPkcs1v15
  simp only [List.length_append]
  by_cases h : k < pfx.length + hashed.length + 11
  · rw [if_pos h, if_neg (by omega)]
  · rw [if_neg h, if_pos (by omega)]
    have hk : pfx.length + hashed.length + 11 ≤ k := by omega
    rw [setIdx_of_lt (by simp; omega), Res.ok_bind, setIdx_of_lt (by simp; omega), Res.ok_bind,
      subU_of_le (by omega), Res.ok_bind, subU_of_le (by omega), Res.ok_bind, setIdx_of_lt (by simp; omega), Res.ok_bind,
      subU_of_le (by omega), Res.ok_bind]
    rw [copyInto_of_le (by omega) (by simp) (by omega), Res.ok_bind]
    set l := k - (pfx.length + hashed.length) - 3 with hl
    have hrep : List.replicate k (0xff : UInt8) =
        0xff :: 0xff :: (List.replicate l 0xff ++ 0xff :: List.replicate (pfx.length + hashed.length) 0xff) := by
      have : k = 2 + (l + (1 + (pfx.length + hashed.length))) := by omega
      rw [this, List.replicate_add, List.replicate_add, List.replicate_add]
      rfl
    have hset : (((List.replicate k (0xff : UInt8)).set 0 0).set 1 1).set (k - (pfx.length + hashed.length) - 1) 0 =
        ([0, 1] ++ List.replicate l 0xff ++ [0]) ++ List.replicate (pfx.length + hashed.length) 0xff := by
      rw [hrep]
      have e : k - (pfx.length + hashed.length) - 1 = ([0, 1] ++ List.replicate l 0xff : Bytes).length := by
        simp; omega
      rw [e]
      simp
    rw [hset]
    set A : Bytes := [0, 1] ++ List.replicate l 0xff ++ [0] with hA
    have hAl : A.length = k - (pfx.length + hashed.length) := by simp [hA]; omega
    have ht : (A ++ List.replicate (pfx.length + hashed.length) 0xff).take (k - (pfx.length + hashed.length)) = A := by
      rw [← hAl]; simp
    have hd : (A ++ List.replicate (pfx.length + hashed.length) (0xff : UInt8)).drop (k - hashed.length)
        = List.replicate hashed.length 0xff := by
      rw [List.drop_append, List.drop_eq_nil_of_le (by omega), List.nil_append, List.drop_replicate]
      congr 1; omega
    rw [ht, hd]
    rw [copyInto_of_le (by omega) (by simp; omega) (by omega), Res.ok_bind]
    have e2 : k - hashed.length = (A ++ pfx).length := by simp; omega
    have e3 : k = (A ++ pfx ++ List.replicate hashed.length (0xff : UInt8)).length := by simp; omega
    rw [e2, List.take_left']
    · conv_lhs => rw [e3]
      simp [hA]
    · rfl


theorem split_len (l : Bytes) {n : Nat} (h : n ≤ l.length) : ∃ a b, l = a ++ b ∧ a.length = n :=
  ⟨l.take n, l.drop n, (List.take_append_drop n l).symm, by simp [h]⟩

theorem foldl_ff (F : Bytes) : ∀ (b : Bool), F.foldl (fun ok el => ok && el == 0xff) b =
    (b && decide (F = List.replicate F.length 0xff)) := by
  induction F with
  | nil => intro b; simp
  | cons x xs ih =>
    intro b
    rw [List.foldl_cons, ih]
    simp only [List.length_cons, List.replicate_succ, List.cons.injEq]
    rw [Bool.and_assoc]
    congr 1
    by_cases hx : x = 255
    · subst hx; simp
    · simp [hx]

/-- Unpadding accepts exactly the unique encoding. -/
theorem pkcs1v15SignUnpad_eq (pfx hashed em : Bytes) (k : Nat) (hem : em.length = k) :
    pkcs1v15SignUnpad pfx hashed em k =
      if Spec.emsaPkcs1v15 (pfx ++ hashed) k = some em then .ok () else .err .verification := by
  unfold pkcs1v15SignUnpad Spec.emsaPkcs1v15
  simp only [List.length_append]
  by_cases h : k < pfx.length + hashed.length + 11
  · rw [if_pos h]
    simp [show ¬ (pfx.length + hashed.length + 11 ≤ k) by omega]
  · rw [if_neg h]
    have hk : pfx.length + hashed.length + 11 ≤ k := by omega
    simp only [hk, if_true]
    set l := k - (pfx.length + hashed.length) - 3 with hl
    obtain ⟨AB, R, e1, l1⟩ := split_len em (n := 2) (by omega)
    obtain ⟨F, R2, e2, l2⟩ := split_len R (n := l) (by simp [e1] at hem; omega)
    obtain ⟨Z, R3, e3, l3⟩ := split_len R2 (n := 1) (by simp [e1, e2] at hem; omega)
    obtain ⟨P, H, e4, l4⟩ := split_len R3 (n := pfx.length) (by simp [e1, e2, e3] at hem; omega)
    obtain ⟨b0, b1, rfl⟩ : ∃ b0 b1, AB = [b0, b1] := by
      match AB, l1 with
      | [a, b], _ => exact ⟨a, b, rfl⟩
    obtain ⟨z, rfl⟩ : ∃ z, Z = [z] := List.length_eq_one_iff.mp l3
    subst e4 e3 e2 e1
    have lH : H.length = hashed.length := by simp at hem; omega
    have i0 : idx ([b0, b1] ++ (F ++ ([z] ++ (P ++ H)))) 0 = .ok b0 := rfl
    have i1 : idx ([b0, b1] ++ (F ++ ([z] ++ (P ++ H)))) 1 = .ok b1 := rfl
    have iz : idx ([b0, b1] ++ (F ++ ([z] ++ (P ++ H)))) (k - (pfx.length + hashed.length) - 1) = .ok z := by
      rw [idx_of_lt (by omega)]
      congr 1
      have : k - (pfx.length + hashed.length) - 1 = F.length + 2 := by omega
      simp [this]
    have sH : slice ([b0, b1] ++ (F ++ ([z] ++ (P ++ H)))) (k - hashed.length) k = .ok H := by
      rw [slice_of_le (by omega) (by omega)]
      congr 1
      rw [List.take_of_length_le (by omega)]
      have : k - hashed.length = ([b0, b1] ++ F ++ [z] ++ P).length := by simp; omega
      rw [this]
      have e : [b0, b1] ++ (F ++ ([z] ++ (P ++ H))) = ([b0, b1] ++ F ++ [z] ++ P) ++ H := by simp
      rw [e, List.drop_left]
    have sP : slice ([b0, b1] ++ (F ++ ([z] ++ (P ++ H)))) (k - (pfx.length + hashed.length)) (k - hashed.length)
        = .ok P := by
      rw [slice_of_le (by omega) (by omega)]
      congr 1
      have h1 : k - hashed.length = ([b0, b1] ++ F ++ [z] ++ P).length := by simp; omega
      have h2 : k - (pfx.length + hashed.length) = ([b0, b1] ++ F ++ [z]).length := by simp; omega
      have e : [b0, b1] ++ (F ++ ([z] ++ (P ++ H))) = ([b0, b1] ++ F ++ [z] ++ P) ++ H := by simp
      rw [h1, h2, e, List.take_left, List.drop_left]
    have sF : (([b0, b1] ++ (F ++ ([z] ++ (P ++ H)))).drop 2).take l = F := by
      have : l = F.length := l2.symm
      rw [this]
      simp
    rw [i0, Res.ok_bind, i1, Res.ok_bind, subU_of_le (by omega), Res.ok_bind, sH, Res.ok_bind, subU_of_le (by omega),
      Res.ok_bind, sP, Res.ok_bind, subU_of_le (by omega), Res.ok_bind, iz, Res.ok_bind, subU_of_le (by omega), Res.ok_bind,
      sF, foldl_ff, l2]
    have key : (some ([0x00, 0x01] ++ List.replicate l 0xff ++ [0x00] ++ (pfx ++ hashed))
        = some ([b0, b1] ++ (F ++ ([z] ++ (P ++ H))))) ↔
        (b0 == 0 && b1 == 1 && H == hashed && P == pfx && z == 0 && decide (F = List.replicate l 0xff)) = true := by
      simp only [Option.some.injEq, Bool.and_eq_true, beq_iff_eq, decide_eq_true_eq]
      constructor
      · intro h
        have h1 : 0 = b0 ∧ 1 = b1 ∧ List.replicate l 0xff ++ ([0] ++ (pfx ++ hashed)) = F ++ ([z] ++ (P ++ H)) := by
          simpa using h
        obtain ⟨rfl, rfl, h1⟩ := h1
        obtain ⟨rfl, h2⟩ := List.append_inj h1 (by simp [l2])
        obtain ⟨h3, h4⟩ := List.append_inj h2 rfl
        obtain ⟨rfl, rfl⟩ := List.append_inj h4 l4.symm
        simp at h3
        simp [h3]
      · rintro ⟨⟨⟨⟨⟨rfl, rfl⟩, rfl⟩, rfl⟩, rfl⟩, rfl⟩
        simp
    by_cases hb : (b0 == 0 && b1 == 1 && H == hashed && P == pfx && z == 0 && decide (F = List.replicate l 0xff)) = true
    · rw [if_pos hb, if_pos (key.mpr hb)]
    · rw [if_neg hb, if_neg (fun h => hb (key.mp h))]

/-! ## Encryption padding -/

variable {σ : Type}

theorem tryFill_ok {R : RngImpl σ} {s : σ} {n : Nat} {b : Bytes} {s' : σ} (h : R.tryFill s n = .ok (b, s')) :
    b.length = n := by
  unfold RngImpl.tryFill at h
  split at h
  · next b' s1 heq =>
    obtain ⟨rfl, rfl⟩ : b' = b ∧ s1 = s' := by simpa using h
    exact R.fill_len s n b' (by rw [heq])
  · cases h

theorem tryFill_cases (R : RngImpl σ) (s : σ) (n : Nat) :
    (∃ b s', R.tryFill s n = .ok (b, s')) ∨ R.tryFill s n = .err .rng := by
  unfold RngImpl.tryFill
  split
  · exact Or.inl ⟨_, _, rfl⟩
  · exact Or.inr rfl

theorem rerollByte_cases (R : RngImpl σ) : ∀ (fuel : Nat) (s : σ),
    (∃ b s', rerollByte R fuel s = .ok (b, s') ∧ b ≠ 0) ∨ rerollByte R fuel s = .err .rng ∨
      rerollByte R fuel s = .loop := by
  intro fuel
  induction fuel with
  | zero => intro s; exact Or.inr (Or.inr rfl)
  | succ f ih =>
    intro s
    rw [rerollByte]
    rcases tryFill_cases R s 1 with ⟨b, s', h⟩ | h
    · have hl := tryFill_ok h
      obtain ⟨x, rfl⟩ := List.length_eq_one_iff.mp hl
      simp only [h, Res.ok_bind, idx, List.getElem?_cons_zero]
      split
      · exact ih s'
      · next h0 => exact Or.inl ⟨_, _, rfl, h0⟩
    · rw [h]; exact Or.inr (Or.inl rfl)

theorem fixZeros_cases (R : RngImpl σ) (fuel : Nat) : ∀ (l : Bytes) (s : σ),
    (∃ b s', fixZeros R fuel l s = .ok (b, s') ∧ b.length = l.length ∧ ∀ x ∈ b, x ≠ 0) ∨
      fixZeros R fuel l s = .err .rng ∨ fixZeros R fuel l s = .loop := by
  intro l
  induction l with
  | nil => intro s; exact Or.inl ⟨[], s, rfl, rfl, by simp⟩
  | cons el rest ih =>
    intro s
    rw [fixZeros]
    have step : ∀ (x : UInt8) (s1 : σ), x ≠ 0 →
        (∃ b s', (fixZeros R fuel rest s1 >>= fun y => (Res.ok (x :: y.1, y.2) : Res (Bytes × σ))) = .ok (b, s') ∧
          b.length = (el :: rest).length ∧ ∀ x ∈ b, x ≠ 0) ∨
        (fixZeros R fuel rest s1 >>= fun y => (Res.ok (x :: y.1, y.2) : Res (Bytes × σ))) = .err .rng ∨
        (fixZeros R fuel rest s1 >>= fun y => (Res.ok (x :: y.1, y.2) : Res (Bytes × σ))) = .loop := by
      intro x s1 hx
      rcases ih s1 with ⟨b, s', h, hl, hz⟩ | h | h
      · refine Or.inl ⟨x :: b, s', by rw [h]; rfl, by simp [hl], ?_⟩
        intro y hy
        rcases List.mem_cons.mp hy with rfl | hy
        · exact hx
        · exact hz y hy
      · rw [h]; exact Or.inr (Or.inl rfl)
      · rw [h]; exact Or.inr (Or.inr rfl)
    split
    · rcases rerollByte_cases R fuel s with ⟨b, s', h, hb⟩ | h | h
      · rw [h]; exact step b s' hb
      · rw [h]; exact Or.inr (Or.inl rfl)
      · rw [h]; exact Or.inr (Or.inr rfl)
    · next h0 => exact step el s h0

theorem nonZeroRandomBytes_cases (R : RngImpl σ) (fuel : Nat) (s : σ) (len : Nat) :
    (∃ b s', nonZeroRandomBytes R fuel s len = .ok (b, s') ∧ b.length = len ∧ ∀ x ∈ b, x ≠ 0) ∨
      nonZeroRandomBytes R fuel s len = .err .rng ∨ nonZeroRandomBytes R fuel s len = .loop := by
  unfold nonZeroRandomBytes
  rcases tryFill_cases R s len with ⟨b, s', h⟩ | h
  · rw [h, Res.ok_bind]
    have hl := tryFill_ok h
    have := fixZeros_cases R fuel b s'
    rw [hl] at this
    exact this
  · rw [h]; exact Or.inr (Or.inl rfl)

theorem rerollByte_good (R : RngImpl σ) {s : σ} {j : Nat} (h : Spec.ByteDraws R s j) : ∀ fuel, j ≤ fuel →
    ∃ b s', rerollByte R fuel s = .ok (b, s') := by
  induction h with
  | good s b h hb =>
    intro fuel hj
    obtain ⟨f, rfl⟩ : ∃ f, fuel = f + 1 := ⟨fuel - 1, by omega⟩
    rw [rerollByte]
    rcases hR : R.fill s 1 with ⟨o, s1⟩
    rw [hR] at h
    simp only at h
    subst h
    simp [RngImpl.tryFill, hR, idx, hb]
  | again s j h _ ih =>
    intro fuel hj
    obtain ⟨f, rfl⟩ : ∃ f, fuel = f + 1 := ⟨fuel - 1, by omega⟩
    have := ih f (by omega)
    rw [rerollByte]
    rcases hR : R.fill s 1 with ⟨o, s1⟩
    rw [hR] at h this
    simp only at h this
    subst h
    simpa [RngImpl.tryFill, hR, idx] using this

theorem fixZeros_good (R : RngImpl σ) (fuel : Nat) (hR : Spec.GoodByteRng R fuel) : ∀ (l : Bytes) (s : σ),
    ∃ b s', fixZeros R fuel l s = .ok (b, s') := by
  intro l
  induction l with
  | nil => intro s; exact ⟨[], s, rfl⟩
  | cons el rest ih =>
    intro s
    rw [fixZeros]
    split
    · obtain ⟨j, hj, hd⟩ := hR.2 s
      obtain ⟨b, s', h⟩ := rerollByte_good R hd fuel hj
      obtain ⟨b2, s2, h2⟩ := ih s'
      rw [h, Res.ok_bind]
      simp only [h2, Res.ok_bind]
      exact ⟨_, _, rfl⟩
    · obtain ⟨b2, s2, h2⟩ := ih s
      rw [Res.ok_bind]
      simp only [h2, Res.ok_bind]
      exact ⟨_, _, rfl⟩

theorem nonZeroRandomBytes_good (R : RngImpl σ) (fuel : Nat) (hR : Spec.GoodByteRng R fuel) (s : σ) (len : Nat) :
    ∃ b s', nonZeroRandomBytes R fuel s len = .ok (b, s') := by
  unfold nonZeroRandomBytes
  obtain ⟨b, hb⟩ := hR.1 s len
  rcases hf : R.fill s len with ⟨o, s1⟩
  rw [hf] at hb
  simp only at hb
  subst hb
  simp only [RngImpl.tryFill, hf, Res.ok_bind]
  exact fixZeros_good R fuel hR b s1

/-- The padded block: `00 02 PS 00 msg` with the bytes the generator produced. -/
theorem pkcs1v15EncryptPad_eq (R : RngImpl σ) (fuel : Nat) (s : σ) (msg : Bytes) (k : Nat) :
    pkcs1v15EncryptPad R fuel s msg k =
      if msg.length + 11 > k then .err .messageTooLong
      else nonZeroRandomBytes R fuel s (k - msg.length - 3) >>= fun x =>
        .ok ([0x00, 0x02] ++ x.1 ++ [0x00] ++ msg, x.2) := by
  unfold pkcs1v15EncryptPad
  by_cases h : msg.length + 11 > k
  · rw [if_pos h, if_pos h]
  · rw [if_neg h, if_neg h]
    set l := k - msg.length - 3 with hl
    have hrep : (List.replicate k (0 : UInt8)).set 1 2 = [0, 2] ++ (List.replicate l 0 ++ ([0] ++ List.replicate msg.length 0)) := by
      have : k = 2 + (l + (1 + msg.length)) := by omega
      rw [this, List.replicate_add, List.replicate_add, List.replicate_add]
      rfl
    dsimp only
    rw [setIdx_of_lt (by simp; omega), Res.ok_bind, hrep, subU_of_le (by omega), Res.ok_bind, subU_of_le (by omega),
      Res.ok_bind, slice_of_le (by omega) (by simp; omega), Res.ok_bind]
    have hlen : (([0, 2] ++ (List.replicate l (0 : UInt8) ++ ([0] ++ List.replicate msg.length 0))).take
        (k - msg.length - 1) |>.drop 2).length = l := by simp; omega
    rw [hlen]
    rcases nonZeroRandomBytes_cases R fuel s l with ⟨ps, s', hps, hpl, _⟩ | h' | h'
    · rw [hps, Res.ok_bind, Res.ok_bind]
      simp only
      rw [copyInto_of_le (by omega) (by simp; omega) (by omega), Res.ok_bind]
      have ht : ([0, 2] ++ (List.replicate l (0 : UInt8) ++ ([0] ++ List.replicate msg.length 0))).take 2 = [0, 2] := rfl
      have hd : ([0, 2] ++ (List.replicate l (0 : UInt8) ++ ([0] ++ List.replicate msg.length 0))).drop (k - msg.length - 1)
          = [0] ++ List.replicate msg.length 0 := by
        have : k - msg.length - 1 = ([0, 2] ++ List.replicate l (0 : UInt8)).length := by simp; omega
        rw [this, ← List.append_assoc, List.drop_left]
      rw [ht, hd]
      have e1 : k - msg.length - 1 = ([0, 2] ++ ps).length := by simp; omega
      rw [setIdx_of_lt (by simp; omega), Res.ok_bind, e1]
      have e2 : ([0, 2] ++ ps ++ ([0] ++ List.replicate msg.length (0 : UInt8))).set ([0, 2] ++ ps).length 0
          = [0, 2] ++ ps ++ [0] ++ List.replicate msg.length 0 := by simp
      rw [e2, copyInto_of_le (by omega) (by simp; omega) (by omega), Res.ok_bind]
      have e3 : k - msg.length = ([0, 2] ++ ps ++ [0]).length := by simp; omega
      have e4 : k = ([0, 2] ++ ps ++ [0] ++ List.replicate msg.length (0 : UInt8)).length := by simp; omega
      rw [e3, List.take_left]
      conv_lhs => rw [e4, List.drop_length, List.append_nil]
    · rw [h']; rfl
    · rw [h']; rfl

/-! ## Decryption unpadding -/

theorem pkcs1v15Step_done (l : List (UInt8 × Nat)) (ix : UInt32) : l.foldl pkcs1v15Step (0, ix) = (0, ix) := by
  induction l with
  | nil => rfl
  | cons e es ih =>
    rw [List.foldl_cons]
    have : pkcs1v15Step (0, ix) e = (0, ix) := by
      unfold pkcs1v15Step
      simp
    rw [this, ih]

theorem pkcs1v15Step_nozero (l : Bytes) : ∀ (i : Nat) (ix : UInt32), (∀ b ∈ l, b ≠ 0) →
    (l.zipIdx i).foldl pkcs1v15Step (1, ix) = (1, ix) := by
  induction l with
  | nil => intro i ix _; rfl
  | cons b bs ih =>
    intro i ix h
    rw [List.zipIdx_cons, List.foldl_cons]
    have hb : b ≠ 0 := h b (by simp)
    have : pkcs1v15Step (1, ix) (b, i) = (1, ix) := by
      simp [pkcs1v15Step, hb]
    rw [this]
    exact ih _ _ (fun x hx => h x (by simp [hx]))

theorem pkcs1v15Step_zero (ps m : Bytes) (i : Nat) (ix : UInt32) (h : ∀ b ∈ ps, b ≠ 0) :
    ((ps ++ 0 :: m).zipIdx i).foldl pkcs1v15Step (1, ix) = (0, UInt32.ofNat (i + ps.length)) := by
  rw [List.zipIdx_append, List.foldl_append, pkcs1v15Step_nozero ps i ix h, List.zipIdx_cons, List.foldl_cons]
  have : pkcs1v15Step (1, ix) (0, i + ps.length) = (0, UInt32.ofNat (i + ps.length)) := by
    simp [pkcs1v15Step]
  rw [this, pkcs1v15Step_done]

/-- A byte string has no zero byte, or splits at the first one. -/
theorem first_zero (l : Bytes) : (∀ b ∈ l, b ≠ 0) ∨ ∃ ps m, l = ps ++ 0 :: m ∧ ∀ b ∈ ps, b ≠ 0 := by
  induction l with
  | nil => left; simp
  | cons b bs ih =>
    by_cases hb : b = 0
    · subst hb; exact Or.inr ⟨[], bs, rfl, by simp⟩
    · rcases ih with h | ⟨ps, m, rfl, h⟩
      · left; intro x hx
        rcases List.mem_cons.mp hx with rfl | hx
        · exact hb
        · exact h x hx
      · right
        refine ⟨b :: ps, m, rfl, ?_⟩
        intro x hx
        rcases List.mem_cons.mp hx with rfl | hx
        · exact hb
        · exact h x hx

theorem sign_bit (x : BitVec 32) : ((x.sshiftRight 31 &&& 1#32) == 1#32) = decide (2 ^ 31 ≤ x.toNat) := by
  have h1 : (x.sshiftRight 31 &&& 1#32) = if x.msb then 1#32 else 0#32 := by
    apply BitVec.eq_of_getLsbD_eq
    intro i hi
    by_cases h0 : i = 0
    · subst h0
      rw [BitVec.getLsbD_and, BitVec.getLsbD_sshiftRight]
      cases hm : x.msb
      · simp [BitVec.msb_eq_getLsbD_last] at hm ⊢
        exact hm
      · simp [BitVec.msb_eq_getLsbD_last] at hm ⊢
        exact hm
    · rw [BitVec.getLsbD_and]
      have : (1#32).getLsbD i = false := by simp [BitVec.getLsbD_one, h0]
      rw [this]
      cases x.msb <;> simp [BitVec.getLsbD_one, h0]
  have h2 : decide (2 ^ 31 ≤ x.toNat) = x.msb := (BitVec.msb_eq_decide x).symm
  rw [h1, h2]
  cases x.msb <;> decide

theorem validPs_iff (i : Nat) (hi : i < 2 ^ 31) :
    (((2#32 + 8#32 - (UInt32.ofNat i).toBitVec - 1#32).sshiftRight 31 &&& 1#32) == 1#32) = decide (10 ≤ i) := by
  rw [sign_bit]
  have : (UInt32.ofNat i).toBitVec = BitVec.ofNat 32 i := rfl
  rw [this]
  have e : (2#32 + 8#32 - BitVec.ofNat 32 i - 1#32).toNat = (2 ^ 32 + 9 - i) % 2 ^ 32 := by
    simp [BitVec.toNat_sub, BitVec.toNat_ofNat]
    omega
  rw [e]
  by_cases h : 10 ≤ i
  · simp only [h, decide_true, decide_eq_true_eq]; omega
  · simp only [h, decide_false, decide_eq_false_iff_not]; omega

/-- Unpadding of a block of length `k < 2^31`: the message of a correct encoding, the Decryption error otherwise. -/
theorem pkcs1v15EncryptUnpad_spec (em : Bytes) (k : Nat) (hem : em.length = k) (hk : k < 2 ^ 31) :
    (∀ m, Spec.IsEmePkcs1v15 k m em → pkcs1v15EncryptUnpad em k = .ok m) ∧
    ((¬ ∃ m, Spec.IsEmePkcs1v15 k m em) → pkcs1v15EncryptUnpad em k = .err .decryption) := by
  by_cases hk11 : k < 11
  · constructor
    · rintro m ⟨ps, rfl, h8, _, hl⟩
      simp at hl; omega
    · intro _
      unfold pkcs1v15EncryptUnpad pkcs1v15DecryptInner
      rw [if_pos hk11]; rfl
  · obtain ⟨b0, b1, rest, rfl⟩ : ∃ b0 b1 rest, em = b0 :: b1 :: rest := by
      match em, hem with
      | [], h => simp at h; omega
      | [a], h => simp at h; omega
      | a :: b :: r, _ => exact ⟨a, b, r, rfl⟩
    have hz : ((b0 :: b1 :: rest).zipIdx).drop 2 = rest.zipIdx 2 := by
      simp [List.zipIdx_cons]
    have hun : pkcs1v15DecryptInner (b0 :: b1 :: rest) k =
        (let r := (rest.zipIdx 2).foldl pkcs1v15Step (1, 0)
         let v := (b0 == 0) && (b1 == 2) && ((~~~r.1 &&& 1) == 1) &&
           (((2#32 + 8#32 - r.2.toBitVec - 1#32).sshiftRight 31 &&& 1#32) == 1#32)
         .ok (if v then 1 else 0, b0 :: b1 :: rest, if v then r.2 + 1 else 0)) := by
      unfold pkcs1v15DecryptInner
      rw [if_neg hk11]
      simp only [idx, List.getElem?_cons_zero, List.getElem?_cons_succ, Res.ok_bind, hz]
    rcases first_zero rest with hnz | ⟨ps, m, rfl, hps⟩
    · -- no separator
      rw [pkcs1v15Step_nozero rest 2 0 hnz] at hun
      have hno : ¬ ∃ m, Spec.IsEmePkcs1v15 k m (b0 :: b1 :: rest) := by
        rintro ⟨m, ps, he, h8, _, _⟩
        have : rest = ps ++ 0 :: m := by simpa using (by simpa using he : b0 = 0 ∧ b1 = 2 ∧ rest = ps ++ 0 :: m).2.2
        exact hnz 0 (by simp [this]) rfl
      constructor
      · intro m hm; exact absurd ⟨m, hm⟩ hno
      · intro _
        unfold pkcs1v15EncryptUnpad
        rw [hun]
        simp
    · rw [pkcs1v15Step_zero ps m 2 0 hps] at hun
      simp only [List.length_cons, List.length_append] at hem
      have hlt : 2 + ps.length < 2 ^ 31 := by omega
      have hf : ((~~~(0 : UInt8) &&& 1) == 1) = true := by decide
      simp only [hf, validPs_iff _ hlt, Bool.and_true] at hun
      by_cases hv : ((b0 == 0) && (b1 == 2) && decide (10 ≤ 2 + ps.length)) = true
      · simp only [hv, if_true] at hun
        obtain ⟨⟨rfl, rfl⟩, h10⟩ : (b0 = 0 ∧ b1 = 2) ∧ 10 ≤ 2 + ps.length := by simpa using hv
        have hix : (UInt32.ofNat (2 + ps.length) + 1).toNat = 3 + ps.length := by
          simp [UInt32.toNat_add, UInt32.toNat_ofNat]
          omega
        have hres : pkcs1v15EncryptUnpad (0 :: 2 :: (ps ++ 0 :: m)) k = .ok m := by
          unfold pkcs1v15EncryptUnpad
          rw [hun, Res.ok_bind]
          have h10' : (1 : UInt8) ≠ 0 := by decide
          simp only [h10', if_false]
          rw [hix, sliceFrom_of_le (by simp; omega)]
          congr 1
          have : 3 + ps.length = ([0, 2] ++ ps ++ [0] : Bytes).length := by simp; omega
          rw [this]
          have e : (0 :: 2 :: (ps ++ 0 :: m) : Bytes) = ([0, 2] ++ ps ++ [0]) ++ m := by simp
          rw [e, List.drop_left]
        have hspec : Spec.IsEmePkcs1v15 k m (0 :: 2 :: (ps ++ 0 :: m)) :=
          ⟨ps, by simp, by omega, hps, by simp; omega⟩
        constructor
        · rintro m' ⟨ps', he, h8, hps', hl⟩
          have he' : ps ++ 0 :: m = ps' ++ 0 :: m' := by simpa using he
          have : ps = ps' ∧ m = m' := by
            clear * - he' hps hps'
            induction ps generalizing ps' with
            | nil =>
              match ps', he' with
              | [], h => simpa using h
              | x :: xs, h =>
                have : x = 0 := by simp at h; exact h.1.symm
                exact absurd this (hps' x (by simp))
            | cons y ys ih =>
              match ps', he' with
              | [], h =>
                have : y = 0 := by simp at h; exact h.1
                exact absurd this (hps y (by simp))
              | x :: xs, h =>
                simp at h
                obtain ⟨rfl, h⟩ := h
                obtain ⟨rfl, rfl⟩ := ih (fun b hb => hps b (by simp [hb])) xs (fun b hb => hps' b (by simp [hb])) (by simpa using h)
                exact ⟨rfl, rfl⟩
          rw [hres, this.2]
        · intro hno; exact absurd ⟨m, hspec⟩ hno
      · have hv' : ((b0 == 0) && (b1 == 2) && decide (10 ≤ 2 + ps.length)) = false := by simpa using hv
        simp only [hv', Bool.false_eq_true, if_false] at hun
        have hno : ¬ ∃ m', Spec.IsEmePkcs1v15 k m' (b0 :: b1 :: (ps ++ 0 :: m)) := by
          rintro ⟨m', ps', he, h8, hps', hl⟩
          obtain ⟨rfl, rfl, he'⟩ : b0 = 0 ∧ b1 = 2 ∧ ps ++ 0 :: m = ps' ++ 0 :: m' := by simpa using he
          apply hv
          simp only [beq_self_eq_true, Bool.true_and, decide_eq_true_eq]
          -- the first zero of the right-hand side is at position |ps'| ≥ 8
          by_contra hlt8
          have hlt8' : ps.length < ps'.length := by omega
          have hget : (ps ++ 0 :: m)[ps.length]? = some 0 := by simp
          rw [he', List.getElem?_append_left hlt8', List.getElem?_eq_getElem hlt8'] at hget
          exact hps' _ (List.getElem_mem hlt8') (Option.some.inj hget)
        constructor
        · intro m' hm'; exact absurd ⟨m', hm'⟩ hno
        · intro _
          unfold pkcs1v15EncryptUnpad
          rw [hun]; rfl

end RSA
