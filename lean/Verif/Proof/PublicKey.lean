import Verif.Model.Key
import Verif.Proof.Rsa
import Verif.Proof.Pad

namespace RSA
open BoxedUint

theorem checkPublicWithMaxSize_ok (n e : BoxedUint) (mx : Nat) :
    checkPublicWithMaxSize n e mx = .ok () ↔
      n.prec ≤ mx ∧ e.val < n.val ∧ n.val % 2 = 1 ∧ e.val % 2 = 1 ∧ 2 ≤ e.val ∧ e.val ≤ 2 ^ 33 - 1 := by
  have hmin : (ofU64 minPubExponent).val = 2 := by decide
  have hmax : (ofU64 maxPubExponent).val = 2 ^ 33 - 1 := by decide
  unfold checkPublicWithMaxSize
  by_cases h1 : n.prec > mx
  · rw [if_pos h1]; simp; omega
  rw [if_neg h1]
  by_cases h2 : (e.ge n || n.isEven || n.isZero) = true
  · rw [if_pos h2]
    simp [ge, lt, isEven, isZero] at h2
    simp; omega
  rw [if_neg h2]
  simp [ge, lt, isEven, isZero] at h2
  by_cases h3 : e.isEven = true
  · rw [if_pos h3]
    simp [isEven] at h3
    simp; omega
  rw [if_neg h3]
  simp [isEven] at h3
  by_cases h4 : e.lt (ofU64 minPubExponent) = true
  · rw [if_pos h4]
    simp [lt, hmin] at h4
    simp; omega
  rw [if_neg h4]
  simp [lt, hmin] at h4
  by_cases h5 : e.gt (ofU64 maxPubExponent) = true
  · rw [if_pos h5]
    simp [gt, lt, hmax] at h5
    simp; omega
  rw [if_neg h5]
  simp [gt, lt, hmax] at h5
  simp; omega

theorem checkPublicWithMaxSize_cases (n e : BoxedUint) (mx : Nat) :
    checkPublicWithMaxSize n e mx = .ok () ∨ ∃ er, checkPublicWithMaxSize n e mx = .err er := by
  unfold checkPublicWithMaxSize
  split
  · exact Or.inr ⟨_, rfl⟩
  · split
    · exact Or.inr ⟨_, rfl⟩
    · split
      · exact Or.inr ⟨_, rfl⟩
      · split
        · exact Or.inr ⟨_, rfl⟩
        · split
          · exact Or.inr ⟨_, rfl⟩
          · exact Or.inl rfl

theorem checkPublic_ok (k : PublicKey) :
    checkPublic k = .ok () ↔
      k.n.prec ≤ 4096 ∧ k.e.val < k.n.val ∧ k.n.val % 2 = 1 ∧ k.e.val % 2 = 1 ∧ 2 ≤ k.e.val ∧ k.e.val ≤ 2 ^ 33 - 1 :=
  checkPublicWithMaxSize_ok _ _ _

theorem checkPublic_cases (k : PublicKey) : checkPublic k = .ok () ∨ ∃ er, checkPublic k = .err er :=
  checkPublicWithMaxSize_cases _ _ _

/-! Sizes -/

theorem size_eq (k : PublicKey) : k.size = (k.n.bits + 7) / 8 := rfl

theorem size_eq_octetLen (k : PublicKey) : k.size = Spec.octetLen k.n.val := by
  rw [size_eq, bits_eq_size]; rfl

theorem lt_pow_size (k : PublicKey) : k.n.val < 256 ^ k.size := by
  rw [pow256, size_eq]
  exact lt_of_lt_of_le k.n.val_lt_bits (Nat.pow_le_pow_right (by norm_num) (by omega))

theorem pow_size_le (k : PublicKey) (hn : 0 < k.n.val) : 256 ^ (k.size - 1) ≤ k.n.val := by
  have hb : 0 < k.n.bits := (lt_bits_iff _ _).mpr (by rw [pow_zero]; exact hn)
  rw [pow256]
  have h1 : 8 * (k.size - 1) ≤ k.n.bits - 1 := by rw [size_eq]; omega
  refine le_trans (Nat.pow_le_pow_right (by norm_num) h1) ?_
  exact (lt_bits_iff _ _).mp (by omega)

theorem size_pos (k : PublicKey) (hn : 0 < k.n.val) : 0 < k.size := by
  have hb : 0 < k.n.bits := (lt_bits_iff _ _).mpr (by rw [pow_zero]; exact hn)
  rw [size_eq]; omega

theorem size_le_bytes (k : PublicKey) : k.size ≤ 8 * k.n.nlimbs := by
  have := bits_le_prec k.n
  unfold prec at this
  rw [size_eq]; omega

/-- `from_be_slice` at the stored precision of the modulus. -/
theorem fromBeSlice_nprec (k : PublicKey) (hk : k.Coherent) (b : Bytes) :
    fromBeSlice b k.nBitsPrecision =
      if b.length ≤ 8 * k.n.nlimbs then .ok (wrap k.n.nlimbs (beVal b)) else .err (.decode .inputSize) := by
  have hl := coherent_nlimbs_pos hk
  have hdc : divCeil k.nBitsPrecision 8 = 8 * k.n.nlimbs := by
    unfold PublicKey.nBitsPrecision prec divCeil; omega
  by_cases h : b.length ≤ 8 * k.n.nlimbs
  · rw [if_pos h, fromBeSlice_ok (by rw [hdc]; exact h)]
    · unfold PublicKey.nBitsPrecision; rw [limbsFor_prec _ hl]
    · refine lt_of_lt_of_le (beVal_lt b) ?_
      rw [pow256]
      exact Nat.pow_le_pow_right (by norm_num) (by unfold PublicKey.nBitsPrecision prec; omega)
  · rw [if_neg h]
    unfold fromBeSlice
    rw [hdc, if_pos (by omega)]

theorem beVal_lt_limbs {b : Bytes} {l : Nat} (h : b.length ≤ 8 * l) : beVal b < 2 ^ (64 * l) := by
  refine lt_of_lt_of_le (beVal_lt b) ?_
  rw [pow256]
  exact Nat.pow_le_pow_right (by norm_num) (by omega)

/-- A block of `k` bytes starting with a zero byte is below the modulus. -/
theorem block_lt (k : PublicKey) (hn : 0 < k.n.val) {em : Bytes} (hl : em.length = k.size) (h0 : em.head? = some 0) :
    beVal em < k.n.val := by
  match em, h0 with
  | x :: xs, h0 =>
    obtain rfl : x = 0 := by simpa using h0
    rw [beVal_cons]
    have hx : xs.length = k.size - 1 := by simp at hl; omega
    have := beVal_lt xs
    rw [hx] at this
    simpa using lt_of_lt_of_le this (pow_size_le k hn)

theorem mod_lt_pow_size (k : PublicKey) (hn : 0 < k.n.val) (v : Nat) : v % k.n.val < 256 ^ k.size :=
  lt_trans (Nat.mod_lt _ hn) (lt_pow_size k)

end RSA
