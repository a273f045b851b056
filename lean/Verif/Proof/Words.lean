import Verif.Model.Words
import Verif.Proof.Pad
import Verif.Proof.Num
import Verif.Proof.Pkcs1v15

namespace RSA
namespace words
open BoxedUint (beBytes beVal beVal_lt pow256 beVal_beBytes)

namespace Uint
variable {w : Nat}

theorem bits_eq_size (x : Uint w) : x.bits = x.val.size := by
  unfold bits
  split
  · next h => simp [h]
  · next h =>
    apply le_antisymm
    · rw [Nat.succ_le_iff, Nat.lt_size]
      exact Nat.log2_self_le h
    · rw [Nat.size_le]; exact Nat.lt_log2_self

theorem bits_le_iff (x : Uint w) (b : Nat) : x.bits ≤ b ↔ x.val < 2 ^ b := by
  rw [bits_eq_size, Nat.size_le]

theorem wrap_val_of_lt {l v : Nat} (h : v < 2 ^ (8 * w * l)) : (wrap (w := w) l v).val = v := Nat.mod_eq_of_lt h

@[simp] theorem wrap_nlimbs (l v : Nat) : (wrap (w := w) l v).nlimbs = l := rfl

theorem ext_val {x y : Uint w} (hl : x.nlimbs = y.nlimbs) (hv : x.val = y.val) : x = y := by
  rcases x with ⟨l, v, h⟩; rcases y with ⟨l', v', h'⟩
  simp_all

theorem limbsFor_mul (hw : 0 < w) {l : Nat} (h : 1 ≤ l) : limbsFor w (8 * w * l) = l := by
  unfold limbsFor divCeil
  have h8 : 0 < 8 * w := by omega
  rw [Nat.add_comm, Nat.add_mul_div_left _ _ h8, Nat.div_eq_of_lt (by omega)]
  omega

theorem divCeil_octets (hw : 0 < w) (len : Nat) : divCeil (8 * len) (8 * w) = divCeil len w := by
  unfold divCeil
  rw [← Nat.div_div_eq_div_mul]
  congr 1
  omega

theorem limbsFor_octets (hw : 0 < w) (len : Nat) : limbsFor w (8 * len) = max 1 (divCeil len w) := by
  unfold limbsFor
  rw [divCeil_octets hw]

theorem le_divCeil (hw : 0 < w) (a : Nat) : a ≤ w * divCeil a w := by
  unfold divCeil
  have := Nat.lt_mul_div_succ (a + (w - 1)) hw
  rw [Nat.mul_add] at this
  omega

theorem divCeil_le_iff (hw : 0 < w) (a l : Nat) : divCeil a w ≤ l ↔ a ≤ w * l := by
  constructor
  · intro h
    exact (le_divCeil hw a).trans (Nat.mul_le_mul_left _ h)
  · intro h
    unfold divCeil
    rw [← Nat.lt_succ_iff, Nat.div_lt_iff_lt_mul hw, Nat.succ_mul, Nat.mul_comm l w]
    omega

theorem fromBeSlice_full (hw : 0 < w) (b : Bytes) :
    fromBeSlice w b (8 * b.length) = .ok (wrap (max 1 (divCeil b.length w)) (beVal b)) := by
  have hlt : beVal b < 2 ^ (8 * w * max 1 (divCeil b.length w)) := by
    have h1 := beVal_lt b
    rw [pow256] at h1
    refine lt_of_lt_of_le h1 (Nat.pow_le_pow_right (by norm_num) ?_)
    have h2 := le_divCeil hw b.length
    have h3 : w * divCeil b.length w ≤ w * max 1 (divCeil b.length w) := Nat.mul_le_mul_left _ (le_max_right _ _)
    rw [Nat.mul_assoc]
    omega
  unfold fromBeSlice
  rw [if_neg (by unfold divCeil; omega)]
  simp only
  rw [limbsFor_octets hw, if_neg]
  rw [Nat.not_lt, bits_le_iff, wrap_val_of_lt hlt, ← pow256]
  exact beVal_lt b

theorem parse_val (hw : 0 < w) (b : Bytes) : (wrap (w := w) (max 1 (divCeil b.length w)) (beVal b)).val = beVal b := by
  apply wrap_val_of_lt
  have h1 := beVal_lt b
  rw [pow256] at h1
  refine lt_of_lt_of_le h1 (Nat.pow_le_pow_right (by norm_num) ?_)
  have h2 := le_divCeil hw b.length
  have h3 : w * divCeil b.length w ≤ w * max 1 (divCeil b.length w) := Nat.mul_le_mul_left _ (le_max_right _ _)
  rw [Nat.mul_assoc]
  omega

theorem nlimbs_pos (x : Uint w) (h : 0 < x.val) : 1 ≤ x.nlimbs := by
  rcases x with ⟨l, v, hl⟩
  by_contra hc
  obtain rfl : l = 0 := by simpa using hc
  simp at hl h
  omega

end Uint
open Uint

variable {w : Nat}

theorem PubKey.pos (k : PubKey w) : 0 < k.n.val := by have := k.odd; omega

theorem PubKey.size_eq (k : PubKey w) : k.size = Spec.octetLen k.n.val := by
  unfold PubKey.size divCeil Spec.octetLen
  rw [bits_eq_size]

theorem PubKey.lt_pow (k : PubKey w) : k.n.val < 256 ^ k.size := by
  rw [k.size_eq, pow256]
  refine lt_of_lt_of_le (Nat.lt_size_self _) (Nat.pow_le_pow_right (by norm_num) ?_)
  unfold Spec.octetLen; omega

/-- The octets of the modulus fit its limbs. -/
theorem PubKey.size_le (k : PubKey w) : k.size ≤ w * k.n.nlimbs := by
  have h : k.n.bits ≤ 8 * (w * k.n.nlimbs) := by
    rw [bits_le_iff, ← Nat.mul_assoc]; exact k.n.isLt
  unfold PubKey.size divCeil; omega

theorem uintToBePad_eq (x : Uint w) (k : Nat) :
    uintToBePad x k = if x.val < 256 ^ k then .ok (beBytes k x.val) else .err .invalidPadLen := by
  have hb : x.bits ≤ 8 * (w * x.nlimbs) := by
    rw [bits_le_iff, ← Nat.mul_assoc]; exact x.isLt
  have hp : x.prec = 8 * (w * x.nlimbs) := by unfold prec; rw [Nat.mul_assoc]
  have hlz : x.leadingZeros / 8 ≤ w * x.nlimbs := by unfold leadingZeros; rw [hp]; omega
  have hlen : w * x.nlimbs - x.leadingZeros / 8 = (x.bits + 7) / 8 := by
    unfold leadingZeros; rw [hp]; omega
  have hv : x.val < 256 ^ ((x.bits + 7) / 8) := by
    rw [pow256]
    exact lt_of_lt_of_le ((bits_le_iff x _).mp le_rfl) (Nat.pow_le_pow_right (by norm_num) (by omega))
  have hiff : (x.bits + 7) / 8 ≤ k ↔ x.val < 256 ^ k := by
    rw [pow256, ← bits_le_iff]; omega
  unfold uintToBePad
  simp only
  rw [sliceFrom_of_le (by simpa [toBeBytes] using hlz), Res.ok_bind]
  unfold toBeBytes
  rw [beBytes_drop _ _ _ hlz (by rw [hlen]; exact hv), hlen, leftPad_eq, BoxedUint.beBytes_length]
  by_cases h : x.val < 256 ^ k
  · rw [if_pos (hiff.mpr h), if_pos h, beBytes_pad _ _ _ (hiff.mpr h) hv]
  · rw [if_neg (fun h' => h (hiff.mp h')), if_neg h]

theorem rsaEncrypt_any (hw : 0 < w) (k : PubKey w) (m : Uint w) :
    rsaEncrypt k m = .ok (wrap k.n.nlimbs ((m.val % 2 ^ k.n.prec) ^ k.e.val % k.n.val)) := by
  have hl := nlimbs_pos k.n k.pos
  have hlf : limbsFor w k.n.prec = k.n.nlimbs := limbsFor_mul hw hl
  have hx : ∀ v, v < k.n.val → (wrap (w := w) k.n.nlimbs v).val = v := fun v h =>
    wrap_val_of_lt (h.trans k.n.isLt)
  have hr : reduceVartime m k.n = .ok (m.val % 2 ^ k.n.prec % k.n.val) := by
    have hstep : ∀ y : Uint w, y.val = m.val % 2 ^ k.n.prec →
        (do let xReduced ← (wrap (w := w) k.n.nlimbs (y.val % k.n.val)).widen k.n.prec
            if xReduced.prec = k.n.prec then Res.ok (xReduced.val % k.n.val) else .panic .precision) =
        Res.ok (m.val % 2 ^ k.n.prec % k.n.val) := by
      intro y hy
      have hmod := Nat.mod_lt (m.val % 2 ^ k.n.prec) k.pos
      unfold widen
      rw [hy, if_pos (by unfold prec; simp), Res.ok_bind, hlf, hx _ hmod, if_pos (by unfold prec; simp), hx _ hmod,
        Nat.mod_mod]
    unfold reduceVartime
    simp only
    by_cases h1 : m.prec < k.n.prec
    · rw [if_pos h1, widen, if_pos h1.le, Res.ok_bind, hlf]
      exact hstep _ rfl
    · rw [if_neg h1]
      by_cases h2 : m.prec = k.n.prec
      · rw [if_pos h2, Res.ok_bind]
        exact hstep _ (Nat.mod_eq_of_lt (by rw [← h2]; exact m.isLt)).symm
      · rw [if_neg h2, shorten, if_pos (by omega), Res.ok_bind, hlf]
        exact hstep _ rfl
  unfold rsaEncrypt powModParams
  rw [hr, Res.ok_bind, MontyForm.powMod_eq, ← Nat.pow_mod]

theorem rsaEncrypt_eq (hw : 0 < w) (k : PubKey w) (m : Uint w) (hm : m.val < 2 ^ k.n.prec) :
    rsaEncrypt k m = .ok (wrap k.n.nlimbs (m.val ^ k.e.val % k.n.val)) := by
  rw [rsaEncrypt_any hw, Nat.mod_eq_of_lt hm]

/-- What follows the checks of the signature representative. -/
theorem em_eq (hw : 0 < w) (k : PubKey w) (m : Uint w) (hm : m.val < 2 ^ k.n.prec) {α : Type} (f : Bytes → Res α) :
    (do let em ← uintToBePad (← rsaEncrypt k m) k.size
        f em) = f (beBytes k.size (m.val ^ k.e.val % k.n.val)) := by
  have hlt : m.val ^ k.e.val % k.n.val < k.n.val := Nat.mod_lt _ k.pos
  rw [rsaEncrypt_eq hw k m hm, Res.ok_bind, uintToBePad_eq, wrap_val_of_lt (hlt.trans k.n.isLt),
    if_pos (hlt.trans k.lt_pow), Res.ok_bind]

theorem checks_eq (hw : 0 < w) (k : PubKey w) (sig : Uint w) :
    (sig.ge k.n || sig.prec != k.nBitsPrecision) = !decide (sig.val < k.n.val ∧ sig.nlimbs = k.n.nlimbs) := by
  have : sig.prec = k.nBitsPrecision ↔ sig.nlimbs = k.n.nlimbs := by
    unfold PubKey.nBitsPrecision prec
    constructor
    · intro h; exact Nat.eq_of_mul_eq_mul_left (by omega) h
    · intro h; rw [h]
  unfold ge lt
  by_cases h1 : sig.val < k.n.val <;> by_cases h2 : sig.nlimbs = k.n.nlimbs <;> simp [h1, h2, this]

theorem pkcs1v15Verify_eq (hw : 0 < w) (k : PubKey w) (pfx hashed : Bytes) (sig : Uint w) :
    pkcs1v15Verify k pfx hashed sig =
      if sig.val < k.n.val ∧ sig.nlimbs = k.n.nlimbs then
        pkcs1v15SignUnpad pfx hashed (beBytes k.size (sig.val ^ k.e.val % k.n.val)) k.size
      else .err .verification := by
  unfold pkcs1v15Verify
  simp only [checks_eq hw]
  by_cases h : sig.val < k.n.val ∧ sig.nlimbs = k.n.nlimbs
  · simp only [h, and_self, decide_true, Bool.not_true, Bool.false_eq_true, if_false, if_true]
    exact em_eq hw k sig (h.1.trans k.n.isLt) _
  · simp only [h, decide_false, Bool.not_false, if_true, if_false]

theorem pssVerifyDigest_eq (hw : 0 < w) (D : HashFn) (k : PubKey w) (hashed : Bytes) (sig : Uint w) (saltLen : Nat) :
    pssVerifyDigest D k hashed sig saltLen =
      if sig.val < k.n.val ∧ sig.nlimbs = k.n.nlimbs then
        emsaPssVerifyDigest hashed (beBytes k.size (sig.val ^ k.e.val % k.n.val)) saltLen D k.n.bits
      else .err .verification := by
  unfold pssVerifyDigest
  simp only [checks_eq hw]
  by_cases h : sig.val < k.n.val ∧ sig.nlimbs = k.n.nlimbs
  · simp only [h, and_self, decide_true, Bool.not_true, Bool.false_eq_true, if_false, if_true]
    exact em_eq hw k sig (h.1.trans k.n.isLt) _
  · simp only [h, decide_false, Bool.not_false, if_true, if_false]

theorem sigTryFrom_eq (hw : 0 < w) {b : Bytes} (h29 : b.length < 2 ^ 29) :
    sigTryFrom w b = .ok (wrap (max 1 (divCeil b.length w)) (beVal b)) := by
  unfold sigTryFrom
  rw [pkcs1v15.lenBitsU32_eq h29, Res.ok_bind, fromBeSlice_full hw]

theorem pkcs1v15VerifyBytes_eq (hw : 0 < w) (k : PubKey w) (pfx hashed sig : Bytes) (h29 : sig.length < 2 ^ 29) :
    pkcs1v15VerifyBytes k pfx hashed sig =
      if beVal sig < k.n.val ∧ max 1 (divCeil sig.length w) = k.n.nlimbs then
        pkcs1v15SignUnpad pfx hashed (beBytes k.size (beVal sig ^ k.e.val % k.n.val)) k.size
      else .err .verification := by
  unfold pkcs1v15VerifyBytes
  rw [sigTryFrom_eq hw h29, Res.ok_bind, pkcs1v15Verify_eq hw, parse_val hw, wrap_nlimbs]

theorem pssVerifyBytes_eq (hw : 0 < w) (D : HashFn) (k : PubKey w) (saltLen : Nat) (hashed sig : Bytes)
    (h29 : sig.length < 2 ^ 29) :
    pssVerifyBytes D k saltLen hashed sig =
      if beVal sig < k.n.val ∧ max 1 (divCeil sig.length w) = k.n.nlimbs then
        emsaPssVerifyDigest hashed (beBytes k.size (beVal sig ^ k.e.val % k.n.val)) saltLen D k.n.bits
      else .err .verification := by
  unfold pssVerifyBytes
  rw [sigTryFrom_eq hw h29, Res.ok_bind, pssVerifyDigest_eq hw, parse_val hw, wrap_nlimbs]

theorem Pkcs1v15Sign_verify_eq (S : pkcs1v15.Pkcs1v15Sign) (k : PubKey w) (hashed sig : Bytes) :
    Pkcs1v15Sign.verify S k hashed sig =
      (do S.checkHashLen hashed
          pkcs1v15VerifyBytes k S.pfx hashed sig) := by
  unfold Pkcs1v15Sign.verify pkcs1v15VerifyBytes sigTryFrom
  congr 1
  funext _
  cases lenBitsU32 sig.length <;> rfl

theorem Pss_verify_eq (hw : 0 < w) (S : pss.Pss) (k : PubKey w) (hashed sig : Bytes) (h29 : sig.length < 2 ^ 29) :
    Pss.verify S k hashed sig =
      if sig.length ≠ k.size then .err .verification else
        emsaPssVerify hashed (beBytes k.size (beVal sig ^ k.e.val % k.n.val)) S.saltLen S.digest k.n.bits := by
  unfold Pss.verify
  rw [pkcs1v15.lenBitsU32_eq h29, Res.ok_bind, fromBeSlice_full hw, Res.ok_bind]
  unfold pssVerify
  by_cases h : sig.length ≠ k.size
  · rw [if_pos h, if_pos h]
  · rw [if_neg h, if_neg h]
    have hm : (wrap (w := w) (max 1 (divCeil sig.length w)) (beVal sig)).val < 2 ^ k.n.prec := by
      rw [parse_val hw]
      have h1 := beVal_lt sig
      rw [pow256] at h1
      refine lt_of_lt_of_le h1 (Nat.pow_le_pow_right (by norm_num) ?_)
      have h2 := k.size_le
      unfold prec
      rw [Nat.mul_assoc]
      omega
    have := em_eq hw k _ hm (fun em => emsaPssVerify hashed em S.saltLen S.digest k.n.bits)
    rw [parse_val hw] at this
    exact this

end words
end RSA
