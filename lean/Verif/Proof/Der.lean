import Verif.Proof.Bytes
import Verif.Proof.Res
import Verif.Model.Der
import Verif.Spec.Der
import Mathlib.Data.Nat.Log

namespace RSA
open BoxedUint Spec

theorem natOctets_eq : ∀ (len n : Nat), 256 ^ len ≤ n → n < 256 ^ (len + 1) → natOctets n = beBytes (len + 1) n := by
  intro len
  induction len with
  | zero =>
    intro n h1 h2
    have h0 : n ≠ 0 := by simp at h1; omega
    have hd : n / 256 = 0 := by simp at h2; omega
    unfold natOctets
    rw [dif_neg h0, hd]
    unfold natOctets
    simp [beBytes]
  | succ len ih =>
    intro n h1 h2
    have hp : 0 < 256 ^ (len + 1) := by positivity
    have h0 : n ≠ 0 := by omega
    have e1 : 256 ^ (len + 1) = 256 ^ len * 256 := pow_succ ..
    have e2 : 256 ^ (len + 1 + 1) = 256 ^ (len + 1) * 256 := pow_succ ..
    unfold natOctets
    rw [dif_neg h0, ih (n / 256) (by omega) (by omega)]
    rfl

theorem exists_len {n : Nat} (h : n ≠ 0) : ∃ len, 256 ^ len ≤ n ∧ n < 256 ^ (len + 1) :=
  ⟨Nat.log 256 n, Nat.pow_log_le_self 256 h, Nat.lt_pow_succ_log_self (by norm_num) n⟩

theorem natOctets_beVal (n : Nat) : beVal (natOctets n) = n := by
  by_cases h : n = 0
  · subst h; unfold natOctets; rfl
  · obtain ⟨len, h1, h2⟩ := exists_len h
    rw [natOctets_eq len n h1 h2, beVal_beBytes, Nat.mod_eq_of_lt h2]

theorem natOctets_length_le {n len : Nat} (h : n < 256 ^ len) : (natOctets n).length ≤ len := by
  by_cases h0 : n = 0
  · subst h0; unfold natOctets; simp
  · obtain ⟨l, h1, h2⟩ := exists_len h0
    rw [natOctets_eq l n h1 h2, beBytes_length]
    have : 256 ^ l < 256 ^ len := lt_of_le_of_lt h1 h
    have := (Nat.pow_lt_pow_iff_right (by norm_num : 1 < 256)).mp this
    omega

theorem natOctets_length_pos {n : Nat} (h : n ≠ 0) : 1 ≤ (natOctets n).length := by
  obtain ⟨l, h1, h2⟩ := exists_len h
  rw [natOctets_eq l n h1 h2, beBytes_length]; omega

/-- A string without leading zero is the minimal string of its value. -/
theorem natOctets_of_head {x : UInt8} {xs : Bytes} (h : x ≠ 0) : natOctets (beVal (x :: xs)) = x :: xs := by
  have hx : 1 ≤ x.toNat := by
    rcases Nat.eq_zero_or_pos x.toNat with h0 | h0
    · exact absurd (UInt8.toNat_inj.mp (by rw [h0]; rfl)) h
    · exact h0
  have h1 : 256 ^ xs.length ≤ beVal (x :: xs) := by
    rw [beVal_cons]
    have : 1 * 256 ^ xs.length ≤ x.toNat * 256 ^ xs.length := Nat.mul_le_mul_right _ hx
    omega
  have h2 := beVal_lt (x :: xs)
  rw [List.length_cons] at h2
  rw [natOctets_eq xs.length _ h1 h2]
  exact beBytes_beVal (x :: xs)

/-- The bytes held by a `UintRef` for a value. -/
def uintBytes (n : Nat) : Bytes := if n = 0 then [0] else natOctets n

theorem uintBytes_beVal (n : Nat) : beVal (uintBytes n) = n := by
  unfold uintBytes
  split
  · next h => rw [h]; rfl
  · exact natOctets_beVal n

theorem uintBytes_length_le {n len : Nat} (hl : 1 ≤ len) (h : n < 256 ^ len) : (uintBytes n).length ≤ len := by
  unfold uintBytes
  split
  · exact hl
  · exact natOctets_length_le h

theorem uintRef_eq (b : Bytes) (hb : b ≠ []) : der.uintRef b = uintBytes (beVal b) := by
  induction b with
  | nil => exact absurd rfl hb
  | cons x xs ih =>
    cases xs with
    | nil =>
      show [x] = _
      unfold uintBytes
      by_cases hx : x = 0
      · subst hx; rfl
      · rw [if_neg, natOctets_of_head hx]
        rw [beVal_singleton]
        intro h0
        exact hx (UInt8.toNat_inj.mp (by rw [h0]; rfl))
    | cons y ys =>
      unfold der.uintRef
      by_cases hx : x = 0
      · rw [if_pos hx, ih (by simp), hx, beVal_cons 0]
        simp
      · rw [if_neg hx]
        have hn := natOctets_of_head (xs := y :: ys) hx
        unfold uintBytes
        rw [if_neg, hn]
        intro h0
        rw [h0] at hn
        unfold natOctets at hn
        simp at hn

/-- The leading octet of the minimal string. -/
theorem natOctets_head {x : UInt8} {xs : Bytes} {n : Nat} (h : natOctets n = x :: xs) :
    x ≠ 0 ∧ n / 256 ^ ((natOctets n).length - 1) = x.toNat := by
  have hn : beVal (x :: xs) = n := by rw [← h]; exact natOctets_beVal n
  have hdiv : n / 256 ^ ((natOctets n).length - 1) = x.toNat := by
    rw [h, List.length_cons, Nat.add_sub_cancel, ← hn, beVal_cons]
    have := beVal_lt xs
    have hp : 0 < 256 ^ xs.length := by positivity
    rw [mul_comm, Nat.mul_add_div hp, Nat.div_eq_of_lt this]; rfl
  refine ⟨?_, hdiv⟩
  rintro rfl
  have h0 : n ≠ 0 := by
    rintro rfl
    unfold natOctets at h; simp at h
  obtain ⟨l, h1, h2⟩ := exists_len h0
  have hl : (natOctets n).length = l + 1 := by rw [natOctets_eq l n h1 h2, beBytes_length]
  rw [hl, Nat.add_sub_cancel] at hdiv
  have hp : 0 < 256 ^ l := by positivity
  have : 1 ≤ n / 256 ^ l := (Nat.one_le_div_iff hp).mpr h1
  rw [hdiv] at this
  simp at this

theorem ge80_iff (x : UInt8) : x ≥ 0x80 ↔ x.toNat ≥ 128 := by
  rw [ge_iff_le, UInt8.le_iff_toNat_le]; rfl

theorem uintContent_uintRef (b : Bytes) : der.uintContent (der.uintRef b) = intOctets (beVal b) := by
  by_cases hb : b = []
  · subst hb; rfl
  · rw [uintRef_eq b hb]
    unfold uintBytes intOctets
    by_cases h0 : beVal b = 0
    · rw [if_pos h0, if_pos h0]; rfl
    · rw [if_neg h0, if_neg h0]
      cases hn : natOctets (beVal b) with
      | nil => have := natOctets_length_pos h0; rw [hn] at this; simp at this
      | cons x xs =>
        obtain ⟨_, h2⟩ := natOctets_head hn
        rw [hn] at h2
        rw [h2]
        simp only [der.uintContent, ge80_iff]

theorem uintOfContent_one (b : UInt8) : der.uintOfContent [b] = if b ≥ 0x80 then none else some [b] := rfl

theorem uintOfContent_two (b c : UInt8) (rest : Bytes) : der.uintOfContent (b :: c :: rest) =
    if b = 0 then (if c ≥ 0x80 then some (c :: rest) else none)
    else if b ≥ 0x80 then none else some (b :: c :: rest) := rfl

theorem uintOfContent_intOctets (n : Nat) : der.uintOfContent (intOctets n) = some (uintBytes n) := by
  unfold intOctets uintBytes
  by_cases h0 : n = 0
  · rw [if_pos h0, if_pos h0]; rfl
  · rw [if_neg h0, if_neg h0]
    cases hn : natOctets n with
    | nil => have := natOctets_length_pos h0; rw [hn] at this; simp at this
    | cons x xs =>
      obtain ⟨h1, h2⟩ := natOctets_head hn
      rw [hn] at h2
      rw [h2]
      by_cases hx : x.toNat ≥ 128
      · rw [if_pos hx]
        rw [uintOfContent_two, if_pos rfl, if_pos ((ge80_iff x).mpr hx)]
      · rw [if_neg hx]
        have hx' : ¬ x ≥ 0x80 := fun h => hx ((ge80_iff x).mp h)
        cases xs with
        | nil => rw [uintOfContent_one, if_neg hx']
        | cons y ys => rw [uintOfContent_two, if_neg h1, if_neg hx']

theorem uintOfContent_some {c v : Bytes} (h : der.uintOfContent c = some v) :
    c = intOctets (beVal v) ∧ v = uintBytes (beVal v) := by
  have key : ∀ {x : UInt8} {xs : Bytes}, x ≠ 0 → beVal (x :: xs) ≠ 0 ∧ uintBytes (beVal (x :: xs)) = x :: xs ∧
      intOctets (beVal (x :: xs)) = if x ≥ 0x80 then 0 :: x :: xs else x :: xs := by
    intro x xs hx
    have hn := natOctets_of_head (xs := xs) hx
    have h0 : beVal (x :: xs) ≠ 0 := by
      intro h0; rw [h0] at hn; unfold natOctets at hn; simp at hn
    refine ⟨h0, by unfold uintBytes; rw [if_neg h0, hn], ?_⟩
    unfold intOctets
    rw [if_neg h0, (natOctets_head hn).2, hn]
    simp only [ge80_iff]
  match c, h with
  | [b], h =>
    rw [uintOfContent_one] at h
    split at h
    · cases h
    · next hb =>
      obtain rfl := Option.some.inj h
      by_cases h0 : b = 0
      · subst h0; exact ⟨rfl, rfl⟩
      · obtain ⟨_, h1, h2⟩ := key (xs := []) h0
        rw [h1, h2, if_neg hb]; exact ⟨rfl, rfl⟩
  | b :: c :: rest, h =>
    rw [uintOfContent_two] at h
    by_cases hb : b = 0
    · rw [if_pos hb] at h
      split at h
      · next hc =>
        obtain rfl := Option.some.inj h
        have hc0 : c ≠ 0 := by rintro rfl; exact absurd hc (by decide)
        obtain ⟨_, h1, h2⟩ := key (xs := rest) hc0
        rw [h1, h2, if_pos hc, hb]; exact ⟨rfl, rfl⟩
      · cases h
    · rw [if_neg hb] at h
      split at h
      · cases h
      · next hc =>
        obtain rfl := Option.some.inj h
        obtain ⟨_, h1, h2⟩ := key (xs := c :: rest) hb
        rw [h1, h2, if_neg hc]; exact ⟨rfl, rfl⟩

theorem intOctets_length_le {n len : Nat} (h : n < 256 ^ len) : (intOctets n).length ≤ len + 1 := by
  unfold intOctets
  have := natOctets_length_le h
  split
  · simp
  · split
    · rw [List.length_cons]; omega
    · omega

/-! ### lengths -/

theorem encodeLen_cases (n : Nat) :
    (n < 128 ∧ der.encodeLen n = [UInt8.ofNat n]) ∨
    (128 ≤ n ∧ n < 256 ∧ der.encodeLen n = 0x81 :: beBytes 1 n) ∨
    (256 ≤ n ∧ n < 65536 ∧ der.encodeLen n = 0x82 :: beBytes 2 n) ∨
    (65536 ≤ n ∧ n < 16777216 ∧ der.encodeLen n = 0x83 :: beBytes 3 n) ∨
    (16777216 ≤ n ∧ der.encodeLen n = 0x84 :: beBytes 4 n) := by
  unfold der.encodeLen der.encodeLen.beBytesL
  by_cases h1 : n < 128
  · left
    rw [if_pos h1]
    refine ⟨h1, ?_⟩
    show [UInt8.ofNat (n % 256)] = _
    rw [Nat.mod_eq_of_lt (by omega)]
  · right
    rw [if_neg h1]
    by_cases h2 : n < 256
    · left; rw [if_pos h2]; exact ⟨by omega, h2, rfl⟩
    · right; rw [if_neg h2]
      by_cases h3 : n < 65536
      · left; rw [if_pos h3]; exact ⟨by omega, h3, rfl⟩
      · right; rw [if_neg h3]
        by_cases h4 : n < 16777216
        · left; rw [if_pos h4]; exact ⟨by omega, h4, rfl⟩
        · right; rw [if_neg h4]; exact ⟨by omega, rfl⟩

theorem encodeLen_eq {n : Nat} (h : n < der.maxLen) : der.encodeLen n = derLen n := by
  unfold der.maxLen at h
  unfold derLen
  rcases encodeLen_cases n with ⟨h1, e⟩ | ⟨h1, h2, e⟩ | ⟨h1, h2, e⟩ | ⟨h1, h2, e⟩ | ⟨h1, e⟩
  · rw [e, if_pos h1]
  · rw [e, if_neg (by omega), natOctets_eq 0 n (by omega) (by omega)]; rfl
  · rw [e, if_neg (by omega), natOctets_eq 1 n (by omega) (by omega)]; rfl
  · rw [e, if_neg (by omega), natOctets_eq 2 n (by omega) (by omega)]; rfl
  · rw [e, if_neg (by omega), natOctets_eq 3 n (by omega) (by omega)]; rfl

theorem decodeLongLen_eq {k m n : Nat} {r : Bytes} (h1 : m ≤ n) (h2 : n < der.maxLen) (h3 : n < 256 ^ k) :
    der.decodeLongLen k m (beBytes k n ++ r) = some (n, r) := by
  unfold der.decodeLongLen
  have hl := beBytes_length k n
  have ht : (beBytes k n ++ r).take k = beBytes k n := by
    rw [List.take_append_of_le_length (by omega), List.take_of_length_le (by omega)]
  have hd : (beBytes k n ++ r).drop k = r := by
    rw [List.drop_append_of_le_length (by omega), List.drop_of_length_le (by omega), List.nil_append]
  rw [if_pos (by rw [List.length_append]; omega), ht, hd, beVal_beBytes, Nat.mod_eq_of_lt h3]
  simp only
  rw [if_pos ⟨h1, h2⟩]

theorem decodeLen_cons (b : UInt8) (rest : Bytes) : der.decodeLen (b :: rest) =
    if b < 0x80 then some (b.toNat, rest)
    else if b = 0x81 then der.decodeLongLen 1 0x80 rest
    else if b = 0x82 then der.decodeLongLen 2 0x100 rest
    else if b = 0x83 then der.decodeLongLen 3 0x10000 rest
    else if b = 0x84 then der.decodeLongLen 4 0x1000000 rest
    else none := rfl

theorem decodeLen_derLen {n : Nat} {r : Bytes} (h : n < der.maxLen) : der.decodeLen (derLen n ++ r) = some (n, r) := by
  rw [← encodeLen_eq h]
  have h' := h
  unfold der.maxLen at h'
  rcases encodeLen_cases n with ⟨h1, e⟩ | ⟨h1, h2, e⟩ | ⟨h1, h2, e⟩ | ⟨h1, h2, e⟩ | ⟨h1, e⟩
  · rw [e, List.singleton_append, decodeLen_cons]
    have ht : (UInt8.ofNat n).toNat = n := by
      rw [UInt8.toNat_ofNat']; exact Nat.mod_eq_of_lt (by omega)
    rw [if_pos (by rw [UInt8.lt_iff_toNat_lt, ht]; exact h1), ht]
  · rw [e, List.cons_append, decodeLen_cons, if_neg (by decide), if_pos rfl,
      decodeLongLen_eq (by omega) h (by omega)]
  · rw [e, List.cons_append, decodeLen_cons, if_neg (by decide), if_neg (by decide), if_pos rfl,
      decodeLongLen_eq (by omega) h (by omega)]
  · rw [e, List.cons_append, decodeLen_cons, if_neg (by decide), if_neg (by decide), if_neg (by decide), if_pos rfl,
      decodeLongLen_eq (by omega) h (by omega)]
  · rw [e, List.cons_append, decodeLen_cons, if_neg (by decide), if_neg (by decide), if_neg (by decide),
      if_neg (by decide), if_pos rfl, decodeLongLen_eq (by omega) h (by omega)]

theorem decodeLongLen_some {k m n : Nat} {b r : Bytes} (h : der.decodeLongLen k m b = some (n, r)) :
    m ≤ n ∧ n < der.maxLen ∧ n < 256 ^ k ∧ b = beBytes k n ++ r := by
  unfold der.decodeLongLen at h
  split at h
  · next hk =>
    simp only at h
    split at h
    · next hm =>
      obtain ⟨rfl, rfl⟩ := Prod.mk.inj (Option.some.inj h)
      have hl : (b.take k).length = k := by rw [List.length_take]; omega
      refine ⟨hm.1, hm.2, ?_, ?_⟩
      · have := beVal_lt (b.take k); rw [hl] at this; exact this
      · have := beBytes_beVal (b.take k)
        rw [hl] at this
        rw [this, List.take_append_drop]
    · cases h
  · cases h

theorem decodeLen_some {n : Nat} {b r : Bytes} (h : der.decodeLen b = some (n, r)) :
    n < der.maxLen ∧ b = derLen n ++ r := by
  match b, h with
  | x :: rest, h =>
    rw [decodeLen_cons] at h
    by_cases h1 : x < 0x80
    · rw [if_pos h1] at h
      obtain ⟨rfl, rfl⟩ := Prod.mk.inj (Option.some.inj h)
      have h2 : x.toNat < 128 := UInt8.lt_iff_toNat_lt.mp h1
      refine ⟨by unfold der.maxLen; omega, ?_⟩
      unfold derLen
      rw [if_pos h2]; simp
    · rw [if_neg h1] at h
      have fin : ∀ {k m : Nat}, der.decodeLongLen k m rest = some (n, r) →
          (m ≤ n → n < 256 ^ k → der.encodeLen n = x :: beBytes k n) → n < der.maxLen ∧ x :: rest = derLen n ++ r := by
        intro k m hk hx
        obtain ⟨a1, a2, a3, a4⟩ := decodeLongLen_some hk
        refine ⟨a2, ?_⟩
        rw [← encodeLen_eq a2, hx a1 a3, a4]; rfl
      by_cases h2 : x = 0x81
      · rw [if_pos h2] at h
        refine fin h (fun b1 b2 => ?_)
        rcases encodeLen_cases n with ⟨g, e⟩ | ⟨g, g', e⟩ | ⟨g, g', e⟩ | ⟨g, g', e⟩ | ⟨g, e⟩ <;>
          first | omega | rw [e, h2]
      · rw [if_neg h2] at h
        by_cases h3 : x = 0x82
        · rw [if_pos h3] at h
          refine fin h (fun b1 b2 => ?_)
          rcases encodeLen_cases n with ⟨g, e⟩ | ⟨g, g', e⟩ | ⟨g, g', e⟩ | ⟨g, g', e⟩ | ⟨g, e⟩ <;>
            first | omega | rw [e, h3]
        · rw [if_neg h3] at h
          by_cases h4 : x = 0x83
          · rw [if_pos h4] at h
            refine fin h (fun b1 b2 => ?_)
            rcases encodeLen_cases n with ⟨g, e⟩ | ⟨g, g', e⟩ | ⟨g, g', e⟩ | ⟨g, g', e⟩ | ⟨g, e⟩ <;>
              first | omega | rw [e, h4]
          · rw [if_neg h4] at h
            by_cases h5 : x = 0x84
            · rw [if_pos h5] at h
              refine fin h (fun b1 b2 => ?_)
              rcases encodeLen_cases n with ⟨g, e⟩ | ⟨g, g', e⟩ | ⟨g, g', e⟩ | ⟨g, g', e⟩ | ⟨g, e⟩ <;>
                first | omega | rw [e, h5]
            · rw [if_neg h5] at h; cases h

/-! ### TLVs -/

theorem tlv_eq {tag : UInt8} {c : Bytes} (h : c.length < der.maxLen) : der.tlv tag c = .ok (Spec.der tag c) := by
  unfold der.tlv
  rw [if_pos h, encodeLen_eq h]; rfl

theorem readTlv_der {tag : UInt8} {c r : Bytes} (h : c.length < der.maxLen) :
    der.readTlv tag (Spec.der tag c ++ r) = some (c, r) := by
  unfold Spec.der
  show (if tag = tag then match der.decodeLen (derLen c.length ++ c ++ r) with
    | some (len, rest) => if len ≤ rest.length then some (rest.take len, rest.drop len) else none
    | none => none
    else none) = _
  rw [if_pos rfl, List.append_assoc, decodeLen_derLen h]
  simp only
  rw [if_pos (by rw [List.length_append]; omega)]
  simp

theorem readTlv_der' {tag : UInt8} {c : Bytes} (h : c.length < der.maxLen) :
    der.readTlv tag (Spec.der tag c) = some (c, []) := by
  have := readTlv_der (tag := tag) (r := []) h
  rwa [List.append_nil] at this

theorem readTlv_some {tag : UInt8} {b c r : Bytes} (h : der.readTlv tag b = some (c, r)) :
    c.length < der.maxLen ∧ b = Spec.der tag c ++ r := by
  match b, h with
  | t :: rest, h =>
    have h : (if t = tag then match der.decodeLen rest with
      | some (len, rest) => if len ≤ rest.length then some (rest.take len, rest.drop len) else none
      | none => none
      else none) = some (c, r) := h
    by_cases ht : t = tag
    · rw [if_pos ht] at h
      cases hd : der.decodeLen rest with
      | none => rw [hd] at h; cases h
      | some x =>
        obtain ⟨len, rest'⟩ := x
        rw [hd] at h
        simp only at h
        split at h
        · next hl =>
          obtain ⟨rfl, rfl⟩ := Prod.mk.inj (Option.some.inj h)
          obtain ⟨h1, h2⟩ := decodeLen_some hd
          have hlen : (rest'.take len).length = len := by rw [List.length_take]; omega
          refine ⟨by rw [hlen]; exact h1, ?_⟩
          unfold Spec.der
          rw [hlen, ht, h2]
          simp
        · cases h
    · rw [if_neg ht] at h; cases h

theorem orErr_ok {α : Type} {x : Option α} {a : α} : der.orErr x = .ok a ↔ x = some a := by
  cases x with
  | none => simp [der.orErr]
  | some b => simp [der.orErr]

theorem orErr_returns {α : Type} (x : Option α) : (∃ a, der.orErr x = .ok a) ∨ der.orErr x = .err .pkcs8 := by
  cases x with
  | none => exact Or.inr rfl
  | some b => exact Or.inl ⟨b, rfl⟩

theorem finish_ok {b : Bytes} : der.finish b = .ok () ↔ b = [] := by
  unfold der.finish
  split
  · next h => simp [h]
  · next h => simp [h]

theorem encodeUint_eq {b : Bytes} {v : Nat} (hv : beVal b = v) (h : (intOctets v).length < der.maxLen) :
    der.encodeUint (der.uintRef b) = .ok (derInt v) := by
  subst hv
  unfold der.encodeUint
  rw [uintContent_uintRef, tlv_eq h]; rfl

theorem encodeUint_zero : der.encodeUint [0] = .ok (derInt 0) := by decide

theorem readUint_derInt {n : Nat} {r : Bytes} (h : (intOctets n).length < der.maxLen) :
    der.readUint (derInt n ++ r) = .ok (uintBytes n, r) := by
  unfold der.readUint derInt
  rw [readTlv_der h]
  show (der.orErr (der.uintOfContent (intOctets n)) >>= _) = _
  rw [uintOfContent_intOctets]
  rfl

theorem readUint_ok {b v r : Bytes} (h : der.readUint b = .ok (v, r)) :
    (intOctets (beVal v)).length < der.maxLen ∧ v = uintBytes (beVal v) ∧ b = derInt (beVal v) ++ r := by
  unfold der.readUint at h
  rw [Res.bind_eq_ok] at h
  obtain ⟨⟨c, r'⟩, h1, h⟩ := h
  rw [orErr_ok] at h1
  simp only at h
  rw [Res.bind_eq_ok] at h
  obtain ⟨v', h2, h⟩ := h
  rw [orErr_ok] at h2
  obtain ⟨rfl, rfl⟩ := Prod.mk.inj (Res.ok.inj h)
  obtain ⟨h3, h4⟩ := uintOfContent_some h2
  obtain ⟨h5, h6⟩ := readTlv_some h1
  rw [h3] at h5
  exact ⟨h5, h4, by rw [h6, h3, derInt, ← h3]⟩

end RSA
