import Verif.Model.BoxedUint
import Verif.Spec.Rfc8017
import Verif.Proof.Res
import Mathlib.Data.Nat.Size
import Mathlib.Data.List.Induction
import Mathlib.Tactic.Ring
import Mathlib.Tactic.Linarith

namespace RSA
namespace BoxedUint

@[simp] theorem beBytes_length (len v : Nat) : (beBytes len v).length = len := by
  induction len generalizing v with
  | zero => rfl
  | succ n ih => simp [beBytes, ih]

@[simp] theorem beVal_nil : beVal [] = 0 := rfl

theorem beVal_append (a b : Bytes) : beVal (a ++ b) = beVal a * 256 ^ b.length + beVal b := by
  have key : ∀ (b : Bytes) (acc : Nat),
      b.foldl (fun acc x => acc * 256 + x.toNat) acc = acc * 256 ^ b.length + beVal b := by
    intro b
    induction b with
    | nil => intro acc; simp [beVal]
    | cons x xs ih =>
      intro acc
      have h1 := ih (acc * 256 + x.toNat)
      have h2 := ih (0 * 256 + x.toNat)
      simp only [List.foldl_cons, beVal, List.length_cons] at *
      rw [h1, h2]; ring
  unfold beVal
  rw [List.foldl_append, key]
  rfl

theorem beVal_singleton (x : UInt8) : beVal [x] = x.toNat := by simp [beVal]

theorem beVal_cons (x : UInt8) (xs : Bytes) : beVal (x :: xs) = x.toNat * 256 ^ xs.length + beVal xs := by
  have := beVal_append [x] xs
  simpa [beVal_singleton] using this

theorem beVal_eq_os2ip (b : Bytes) : beVal b = Spec.os2ip b := by
  induction b with
  | nil => rfl
  | cons x xs ih => rw [beVal_cons, ih]; rfl

theorem beVal_lt (b : Bytes) : beVal b < 256 ^ b.length := by
  induction b with
  | nil => simp [beVal]
  | cons x xs ih =>
    rw [beVal_cons, List.length_cons, pow_succ]
    have := x.toNat_lt
    have hx : x.toNat + 1 ≤ 256 := this
    calc x.toNat * 256 ^ xs.length + beVal xs < x.toNat * 256 ^ xs.length + 256 ^ xs.length := by omega
      _ = (x.toNat + 1) * 256 ^ xs.length := by ring
      _ ≤ 256 * 256 ^ xs.length := Nat.mul_le_mul_right _ hx
      _ = _ := by ring

theorem beVal_beBytes (len v : Nat) : beVal (beBytes len v) = v % 256 ^ len := by
  induction len generalizing v with
  | zero => simp [beBytes, Nat.mod_one]
  | succ n ih =>
    rw [beBytes, beVal_append, ih, beVal_singleton]
    simp only [List.length_singleton, pow_one]
    have h : (UInt8.ofNat (v % 256)).toNat = v % 256 := by
      simp
    rw [h, pow_succ, Nat.mul_comm (256 ^ n) 256, Nat.mod_mul]
    ring

theorem beBytes_beVal (b : Bytes) : beBytes b.length (beVal b) = b := by
  induction b using List.reverseRecOn with
  | nil => rfl
  | append_singleton xs x ih =>
    rw [List.length_append, List.length_singleton, beBytes, beVal_append, beVal_singleton]
    have hx := x.toNat_lt
    have hx' : x.toNat < 256 := by simpa using hx
    simp only [List.length_singleton, pow_one]
    have h1 : (beVal xs * 256 + x.toNat) / 256 = beVal xs := by omega
    have h2 : (beVal xs * 256 + x.toNat) % 256 = x.toNat := by omega
    rw [h1, h2, ih]
    simp

theorem beVal_inj {a b : Bytes} (hl : a.length = b.length) (h : beVal a = beVal b) : a = b := by
  rw [← beBytes_beVal a, ← beBytes_beVal b, hl, h]

theorem beVal_replicate_zero (n : Nat) : beVal (List.replicate n 0) = 0 := by
  induction n with
  | zero => rfl
  | succ n ih => rw [List.replicate_succ, beVal_cons, ih]; simp

theorem beVal_zeros_append (n : Nat) (b : Bytes) : beVal (List.replicate n 0 ++ b) = beVal b := by
  rw [beVal_append, beVal_replicate_zero]; simp

theorem beBytes_eq_of_lt {b : Bytes} {len v : Nat} (hl : b.length = len) (hv : beVal b = v) : beBytes len v = b := by
  subst hl; subst hv; exact beBytes_beVal b

/-- `i2osp` of the specification is `beBytes` when the value fits. -/
theorem i2osp_eq (x len : Nat) (h : x < 256 ^ len) : Spec.i2osp x len = some (beBytes len x) := by
  have key : ∀ len x, (List.range len).map (fun i => UInt8.ofNat (x / 256 ^ (len - 1 - i) % 256)) = beBytes len x := by
    intro len
    induction len with
    | zero => intro x; rfl
    | succ n ih =>
      intro x
      rw [List.range_succ, List.map_append, beBytes, ← ih (x / 256)]
      congr 1
      · apply List.map_congr_left
        intro i hi
        have hi' : i < n := List.mem_range.mp hi
        have : n + 1 - 1 - i = (n - 1 - i) + 1 := by omega
        rw [this, pow_succ, Nat.mul_comm, Nat.div_div_eq_div_mul]
      · simp
  simp [Spec.i2osp, h, key]

theorem i2osp_none (x len : Nat) (h : 256 ^ len ≤ x) : Spec.i2osp x len = none := by
  simp [Spec.i2osp, Nat.not_lt.mpr h]

theorem pow256 (len : Nat) : 256 ^ len = 2 ^ (8 * len) := by
  rw [pow_mul]; norm_num

/-! bit lengths -/

theorem bits_eq_size (x : BoxedUint) : x.bits = x.val.size := by
  unfold bits
  split
  · next h => simp [h]
  · next h =>
    apply le_antisymm
    · rw [Nat.succ_le_iff, Nat.lt_size]
      exact Nat.log2_self_le h
    · rw [Nat.size_le]; exact Nat.lt_log2_self

theorem bits_le_iff (x : BoxedUint) (b : Nat) : x.bits ≤ b ↔ x.val < 2 ^ b := by
  rw [bits_eq_size, Nat.size_le]

theorem lt_bits_iff (x : BoxedUint) (b : Nat) : b < x.bits ↔ 2 ^ b ≤ x.val := by
  rw [bits_eq_size, Nat.lt_size]

theorem bits_le_prec (x : BoxedUint) : x.bits ≤ x.prec := (bits_le_iff x _).mpr x.isLt

theorem val_lt_bits (x : BoxedUint) : x.val < 2 ^ x.bits := (bits_le_iff x _).mp le_rfl

theorem wrap_val_of_lt {l v : Nat} (h : v < 2 ^ (64 * l)) : (wrap l v).val = v := Nat.mod_eq_of_lt h

@[simp] theorem wrap_nlimbs (l v : Nat) : (wrap l v).nlimbs = l := rfl

@[simp] theorem wrap_self (x : BoxedUint) : wrap x.nlimbs x.val = x := by
  rcases x with ⟨l, v, h⟩
  simp [wrap, Nat.mod_eq_of_lt h]

theorem ext_val {x y : BoxedUint} (hl : x.nlimbs = y.nlimbs) (hv : x.val = y.val) : x = y := by
  rcases x with ⟨l, v, h⟩; rcases y with ⟨l', v', h'⟩
  simp_all

theorem limbsFor_mul {l : Nat} (h : 1 ≤ l) : limbsFor (64 * l) = l := by
  unfold limbsFor; omega

theorem limbsFor_prec (x : BoxedUint) (h : 1 ≤ x.nlimbs) : limbsFor x.prec = x.nlimbs := limbsFor_mul h

theorem nlimbs_pos_of_val_pos (x : BoxedUint) (h : 0 < x.val) : 1 ≤ x.nlimbs := by
  rcases x with ⟨l, v, hl⟩
  by_contra hc
  have : l = 0 := by simpa using hc
  subst this
  simp at hl h
  omega

theorem le_limbsFor (b : Nat) : b ≤ 64 * limbsFor b := by unfold limbsFor; omega

/-- `from_be_slice` on a string that fits the storage and the requested bits. -/
theorem fromBeSlice_ok {b : Bytes} {bits : Nat} (hl : b.length ≤ divCeil bits 8) (hv : beVal b < 2 ^ bits) :
    fromBeSlice b bits = .ok (wrap (limbsFor bits) (beVal b)) := by
  have hlt : beVal b < 2 ^ (64 * limbsFor bits) :=
    lt_of_lt_of_le hv (Nat.pow_le_pow_right (by norm_num) (le_limbsFor bits))
  have hb : (wrap (limbsFor bits) (beVal b)).bits ≤ bits := by
    rw [bits_le_iff, wrap_val_of_lt hlt]; exact hv
  simp [fromBeSlice, Nat.not_lt.mpr hl, Nat.not_lt.mpr hb]

/-- Every outcome of `from_be_slice`. -/
theorem fromBeSlice_eq_ok_iff {b : Bytes} {bits : Nat} {x : BoxedUint} :
    fromBeSlice b bits = .ok x ↔ b.length ≤ divCeil bits 8 ∧ beVal b < 2 ^ bits ∧ x = wrap (limbsFor bits) (beVal b) := by
  constructor
  · intro h
    unfold fromBeSlice at h
    split at h
    · cases h
    · next hl =>
      simp only at h
      split at h
      · cases h
      · next hb =>
        have hl' : b.length ≤ divCeil bits 8 := Nat.not_lt.mp hl
        have hlt : beVal b < 2 ^ (64 * limbsFor bits) := by
          have h1 := beVal_lt b
          rw [pow256] at h1
          refine lt_of_lt_of_le h1 (Nat.pow_le_pow_right (by norm_num) ?_)
          unfold divCeil at hl'; unfold limbsFor; omega
        refine ⟨hl', ?_, by simpa using h.symm⟩
        have := (bits_le_iff _ _).mp (Nat.not_lt.mp hb)
        rwa [wrap_val_of_lt hlt] at this
  · rintro ⟨hl, hv, rfl⟩
    exact fromBeSlice_ok hl hv

/-- `from_be_slice` returns `Ok` or a decode error. -/
theorem fromBeSlice_returns (b : Bytes) (bits : Nat) :
    (∃ x, fromBeSlice b bits = .ok x) ∨ ∃ e, fromBeSlice b bits = .err (.decode e) := by
  unfold fromBeSlice
  split
  · exact Or.inr ⟨_, rfl⟩
  · simp only
    split
    · exact Or.inr ⟨_, rfl⟩
    · exact Or.inl ⟨_, rfl⟩

/-- `from_be_slice(b, 8 * |b|)` never fails. -/
theorem fromBeSlice_full (b : Bytes) :
    fromBeSlice b (8 * b.length) = .ok (wrap (limbsFor (8 * b.length)) (beVal b)) := by
  apply fromBeSlice_ok
  · unfold divCeil; omega
  · rw [← pow256]; exact beVal_lt b

end BoxedUint
end RSA
