import Verif.Model.Serde
import Verif.Spec.Hex
import Verif.Proof.Bytes
import Verif.Proof.Res

namespace RSA
open BoxedUint Spec

theorem hexCharLower_digit : ∀ v, v < 16 → hexAlphabet[v]? = some (hexCharLower v) := by decide +kernel

theorem hexCharUpper_digit : ∀ v, v < 16 → hexAlphabetUpper[v]? = some (hexCharUpper v) := by decide +kernel

theorem hexVal_lower : ∀ v, v < 16 → hexVal (hexCharLower v) = some v := by decide +kernel

theorem hexVal_upper : ∀ v, v < 16 → hexVal (hexCharUpper v) = some v := by decide +kernel

theorem Spec.IsHexDigit.lt {c : Char} {v : Nat} (h : IsHexDigit c v) : v < 16 := by
  rcases h with h | h
  · obtain ⟨h, _⟩ := List.getElem?_eq_some_iff.mp h; exact h
  · obtain ⟨h, _⟩ := List.getElem?_eq_some_iff.mp h; exact h

instance (c : Char) (v : Nat) : Decidable (IsHexDigit c v) := by unfold IsHexDigit; infer_instance

theorem hexVal_small : ∀ m, m < 103 → ∀ v, v < 16 → hexVal (Char.ofNat m) = some v → IsHexDigit (Char.ofNat m) v := by
  decide +kernel

theorem hexVal_some {c : Char} {v : Nat} : hexVal c = some v ↔ IsHexDigit c v := by
  constructor
  · intro h
    have hc : Char.ofNat c.toNat = c := Char.ofNat_toNat c
    have hb : c.toNat < 103 ∧ v < 16 := by
      unfold hexVal at h
      split at h
      · injection h; omega
      · split at h
        · injection h; omega
        · split at h
          · injection h; omega
          · exact absurd h (by simp)
    rw [← hc]
    exact hexVal_small _ hb.1 _ hb.2 (by rw [hc]; exact h)
  · intro h
    have hv := h.lt
    rcases h with h | h
    · rw [hexCharLower_digit v hv] at h; cases h; exact hexVal_lower v hv
    · rw [hexCharUpper_digit v hv] at h; cases h; exact hexVal_upper v hv

theorem ofNat_digits (x : UInt8) : UInt8.ofNat (16 * (x.toNat / 16) + x.toNat % 16) = x := by
  rw [Nat.div_add_mod]; exact UInt8.ofNat_toNat

theorem hexDecode_spells : ∀ (s : List Char) (b : Bytes), hexDecode s = some b ↔ Spells s b
  | [], b => by
    constructor
    · intro h; cases h; exact .nil
    · intro h; cases h; rfl
  | [c], b => by
    constructor
    · intro h; exact absurd h (by simp [hexDecode])
    · intro h; cases h
  | c :: d :: rest, b => by
    have ih := hexDecode_spells rest
    constructor
    · intro h
      unfold hexDecode at h
      cases hc : hexVal c with
      | none => simp [hc] at h
      | some vc =>
        cases hd : hexVal d with
        | none => simp [hc, hd] at h
        | some vd =>
          cases hr : hexDecode rest with
          | none => simp [hc, hd, hr] at h
          | some bs =>
            simp only [hc, hd, hr, Option.some.injEq] at h
            subst h
            have h1 := hexVal_some.mp hc
            have h2 := hexVal_some.mp hd
            have l1 := h1.lt
            have l2 := h2.lt
            have hx : (UInt8.ofNat (16 * vc + vd)).toNat = 16 * vc + vd := by
              rw [UInt8.toNat_ofNat']; exact Nat.mod_eq_of_lt (by omega)
            refine .cons ?_ ?_ ((ih bs).mp hr)
            · rw [hx, show (16 * vc + vd) / 16 = vc by omega]; exact h1
            · rw [hx, show (16 * vc + vd) % 16 = vd by omega]; exact h2
    · intro h
      cases h with
      | cons hc hd h =>
        unfold hexDecode
        simp only [hexVal_some.mpr hc, hexVal_some.mpr hd, (ih _).mpr h, ofNat_digits]

theorem hexLower_spells (b : Bytes) : Spells (hexLower b) b ∧ Lower (hexLower b) := by
  induction b with
  | nil => exact ⟨.nil, by intro c hc; cases hc⟩
  | cons x b ih =>
    have hx := x.toNat_lt
    have h1 := hexCharLower_digit (x.toNat / 16) (by omega)
    have h2 := hexCharLower_digit (x.toNat % 16) (by omega)
    refine ⟨.cons (.inl h1) (.inl h2) ih.1, ?_⟩
    intro c hc
    rcases List.mem_cons.mp hc with rfl | hc
    · exact List.mem_of_getElem? h1
    · rcases List.mem_cons.mp hc with rfl | hc
      · exact List.mem_of_getElem? h2
      · exact ih.2 c hc

theorem hexUpper_spells (b : Bytes) : Spells (hexUpper b) b ∧ Upper (hexUpper b) := by
  induction b with
  | nil => exact ⟨.nil, by intro c hc; cases hc⟩
  | cons x b ih =>
    have hx := x.toNat_lt
    have h1 := hexCharUpper_digit (x.toNat / 16) (by omega)
    have h2 := hexCharUpper_digit (x.toNat % 16) (by omega)
    refine ⟨.cons (.inr h1) (.inr h2) ih.1, ?_⟩
    intro c hc
    rcases List.mem_cons.mp hc with rfl | hc
    · exact List.mem_of_getElem? h1
    · rcases List.mem_cons.mp hc with rfl | hc
      · exact List.mem_of_getElem? h2
      · exact ih.2 c hc

theorem hexDecode_lower (b : Bytes) : hexDecode (hexLower b) = some b := (hexDecode_spells _ _).mpr (hexLower_spells b).1

/-- Half octets of a big-endian string. -/
theorem hex_beBytes (g : Nat → Char) (f : Bytes → List Char) (hnil : f [] = [])
    (hcons : ∀ x b, f (x :: b) = g (x.toNat / 16) :: g (x.toNat % 16) :: f b) (len v : Nat) :
    f (beBytes len v) = (List.range (2 * len)).map fun j => g (v / 16 ^ (2 * len - 1 - j) % 16) := by
  have happ : ∀ a b : Bytes, f (a ++ b) = f a ++ f b := by
    intro a b
    induction a with
    | nil => simp [hnil]
    | cons x a ih => simp [hcons, ih]
  induction len generalizing v with
  | zero => simp [beBytes, hnil]
  | succ len ih =>
    rw [beBytes, happ, ih, hcons, hnil, show 2 * (len + 1) = 2 * len + 1 + 1 by ring, List.range_succ, List.range_succ,
      List.map_append, List.map_append, List.append_assoc]
    have hm : (UInt8.ofNat (v % 256)).toNat = v % 256 := by
      rw [UInt8.toNat_ofNat']; exact Nat.mod_eq_of_lt (by omega)
    congr 1
    · apply List.map_congr_left
      intro j hj
      rw [List.mem_range] at hj
      rw [Nat.div_div_eq_div_mul, show (256 : Nat) = 16 ^ 2 by norm_num, ← pow_add,
        show 2 + (2 * len - 1 - j) = 2 * len + 1 + 1 - 1 - j by omega]
    · simp only [List.map_cons, List.map_nil, hm, List.cons_append, List.nil_append]
      rw [show 2 * len + 1 + 1 - 1 - 2 * len = 1 by omega, show 2 * len + 1 + 1 - 1 - (2 * len + 1) = 0 by omega]
      rw [show v % 256 / 16 = v / 16 ^ 1 % 16 by omega, show v % 256 % 16 = v / 16 ^ 0 % 16 by omega]

theorem flatten_blocks {α : Type} (f : Nat → α) (n : Nat) :
    ((List.range n).map fun i => (List.range 16).map fun j => f (16 * i + j)).flatten = (List.range (16 * n)).map f := by
  induction n with
  | zero => rfl
  | succ n ih =>
    rw [List.range_succ (n := n), List.map_append, List.flatten_append, ih, show 16 * (n + 1) = 16 * n + 16 by ring,
      List.range_add, List.map_append]
    simp [Function.comp_def]

theorem limbs_hex (g : Nat → Char) (f : Bytes → List Char) (hnil : f [] = [])
    (hcons : ∀ x b, f (x :: b) = g (x.toNat / 16) :: g (x.toNat % 16) :: f b) (x : BoxedUint) :
    ((List.range x.nlimbs).map fun i =>
      (List.range 16).map fun j => g (x.val / 16 ^ (16 * (x.nlimbs - 1 - i) + (15 - j)) % 16)).flatten = f x.toBeBytes := by
  unfold toBeBytes
  rw [hex_beBytes g f hnil hcons, show 2 * (8 * x.nlimbs) = 16 * x.nlimbs by ring, ← flatten_blocks]
  congr 1
  apply List.map_congr_left
  intro i hi
  apply List.map_congr_left
  intro j hj
  rw [List.mem_range] at hi hj
  rw [show 16 * (x.nlimbs - 1 - i) + (15 - j) = 16 * x.nlimbs - 1 - (16 * i + j) by omega]

theorem pss.lowerHex_eq (s : pss.Signature) : s.lowerHex = hexLower s.toBytes :=
  limbs_hex hexCharLower hexLower rfl (fun _ _ => rfl) s.inner

theorem pss.upperHex_eq (s : pss.Signature) : s.upperHex = hexUpper s.toBytes :=
  limbs_hex hexCharUpper hexUpper rfl (fun _ _ => rfl) s.inner

theorem deserialize_serialize (hr : Bool) (b : Bytes) :
    deserializeHexOrBin hr (serializeHexLowerOrBin hr b) = .ok b := by
  cases hr
  · rfl
  · show der.orErr (hexDecode (hexLower b)) = _
    rw [hexDecode_lower]; rfl

theorem serdeErr_ok {α : Type} {r : Res α} {a : α} : serdeErr r = .ok a ↔ r = .ok a := by
  cases r <;> simp [serdeErr]

end RSA
