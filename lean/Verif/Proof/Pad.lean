import Verif.Model.Pad
import Verif.Proof.Bytes

namespace RSA
open BoxedUint

theorem leftPad_eq (b : Bytes) (len : Nat) :
    leftPad b len = if b.length ≤ len then .ok (List.replicate (len - b.length) 0 ++ b) else .err .invalidPadLen := by
  unfold leftPad
  split
  · next h => rw [if_neg (by omega)]
  · next h =>
    rw [if_pos (by omega), subU_of_le (by omega), Res.ok_bind, copyInto_of_le (by omega) (by simp) (by omega)]
    simp

theorem beBytes_drop (len j v : Nat) (hj : j ≤ len) (hv : v < 256 ^ (len - j)) :
    (beBytes len v).drop j = beBytes (len - j) v := by
  apply beVal_inj
  · simp
  · have hsplit := List.take_append_drop j (beBytes len v)
    have hval : beVal (beBytes len v) = v := by
      rw [beVal_beBytes]; exact Nat.mod_eq_of_lt (lt_of_lt_of_le hv (Nat.pow_le_pow_right (by norm_num) (by omega)))
    rw [← hsplit, beVal_append] at hval
    rw [beVal_beBytes, Nat.mod_eq_of_lt hv]
    have hl : ((beBytes len v).drop j).length = len - j := by simp
    have hlt := beVal_lt ((beBytes len v).drop j)
    rw [hl] at hval hlt
    have : beVal ((beBytes len v).take j) = 0 := by
      by_contra hne
      have : 1 ≤ beVal ((beBytes len v).take j) := by omega
      nlinarith [Nat.mul_le_mul_right (256 ^ (len - j)) this]
    rw [this] at hval; omega

theorem beBytes_pad (len j v : Nat) (hj : j ≤ len) (hv : v < 256 ^ j) :
    List.replicate (len - j) 0 ++ beBytes j v = beBytes len v := by
  symm
  apply beBytes_eq_of_lt
  · simp; omega
  · rw [beVal_zeros_append, beVal_beBytes, Nat.mod_eq_of_lt hv]

/-- The bytes of `x` after `uint_to_be_pad` stripped the leading zero bytes. -/
theorem stripped_eq (x : BoxedUint) :
    sliceFrom x.toBeBytes (x.leadingZeros / 8) = .ok (beBytes ((x.bits + 7) / 8) x.val) := by
  have hb := bits_le_prec x
  have hlz : x.leadingZeros / 8 ≤ 8 * x.nlimbs := by unfold leadingZeros prec; omega
  rw [sliceFrom_of_le (by simpa [toBeBytes] using hlz)]
  unfold toBeBytes
  have hlen : 8 * x.nlimbs - x.leadingZeros / 8 = (x.bits + 7) / 8 := by
    unfold leadingZeros; unfold prec at *; omega
  rw [beBytes_drop _ _ _ hlz, hlen]
  rw [hlen, pow256]
  exact lt_of_lt_of_le x.val_lt_bits (Nat.pow_le_pow_right (by norm_num) (by omega))

theorem uintToBePad_eq (x : BoxedUint) (k : Nat) :
    uintToBePad x k = if x.val < 256 ^ k then .ok (beBytes k x.val) else .err .invalidPadLen := by
  unfold uintToBePad
  simp only [stripped_eq, Res.ok_bind, leftPad_eq, beBytes_length]
  have hiff : (x.bits + 7) / 8 ≤ k ↔ x.val < 256 ^ k := by
    rw [pow256, ← bits_le_iff]; omega
  by_cases h : x.val < 256 ^ k
  · rw [if_pos (hiff.mpr h), if_pos h, beBytes_pad _ _ _ (hiff.mpr h)]
    rw [pow256]
    exact lt_of_lt_of_le x.val_lt_bits (Nat.pow_le_pow_right (by norm_num) (by omega))
  · rw [if_neg (fun h' => h (hiff.mp h')), if_neg h]

theorem uintToZeroizingBePad_eq (x : BoxedUint) (k : Nat) :
    uintToZeroizingBePad x k = if x.val < 256 ^ k then .ok (beBytes k x.val) else .err .invalidPadLen := by
  have : uintToZeroizingBePad x k = uintToBePad x k := rfl
  rw [this, uintToBePad_eq]

end RSA
