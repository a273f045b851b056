import Verif.Proof.Res
import Verif.Spec.SerdeStruct
import Mathlib.Data.List.Basic

/- Reading struct documents: the generated loops, in terms of the values a document gives for each name. -/
namespace RSA
open Spec

/-- What reading the values `vs` of one field does to the slot of that field. -/
def Slot {β : Type} (f : FieldVal → Res β) (seen : Option β) (vs : List FieldVal) (out : Option β) : Prop :=
  (vs = [] ∧ out = seen) ∨ ∃ v x, vs = [v] ∧ seen = none ∧ f v = .ok x ∧ out = some x

theorem once_ok {β : Type} {seen mid : Option β} {r : Res β} :
    once seen r = .ok mid ↔ seen = none ∧ ∃ x, r = .ok x ∧ mid = some x := by
  cases seen with
  | some y => simp [once]
  | none =>
    simp only [once, Res.bind_eq_ok, true_and]
    constructor
    · rintro ⟨x, h, h'⟩; exact ⟨x, h, (Res.ok.inj h').symm⟩
    · rintro ⟨x, h, rfl⟩; exact ⟨x, h, rfl⟩

theorem slot_cons {β : Type} {f : FieldVal → Res β} {seen out : Option β} {v : FieldVal} {vs : List FieldVal} :
    Slot f seen (v :: vs) out ↔ ∃ mid, once seen (f v) = .ok mid ∧ Slot f mid vs out := by
  constructor
  · rintro (⟨h, -⟩ | ⟨w, x, h, hs, hf, rfl⟩)
    · cases h
    · obtain ⟨rfl, rfl⟩ := List.cons.inj h
      exact ⟨some x, once_ok.mpr ⟨hs, x, hf, rfl⟩, .inl ⟨rfl, rfl⟩⟩
  · rintro ⟨mid, ho, h⟩
    obtain ⟨hs, x, hf, rfl⟩ := once_ok.mp ho
    rcases h with ⟨rfl, rfl⟩ | ⟨_, _, _, hn, _⟩
    · exact .inr ⟨v, x, rfl, hs, hf, rfl⟩
    · cases hn

theorem slot_nil {β : Type} {f : FieldVal → Res β} {seen out : Option β} : Slot f seen [] out ↔ out = seen := by
  simp [Slot]

theorem slot_some {β : Type} {f : FieldVal → Res β} {vs : List FieldVal} {x : β} :
    Slot f none vs (some x) ↔ ∃ v, vs = [v] ∧ f v = .ok x := by
  constructor
  · rintro (⟨_, h⟩ | ⟨v, y, h, _, hf, he⟩)
    · cases h
    · cases he; exact ⟨v, h, hf⟩
  · rintro ⟨v, h, hf⟩; exact .inr ⟨v, x, h, rfl, hf, rfl⟩

theorem valuesOf_hit {n : String} {v : FieldVal} {m : SerdeMap} : valuesOf n ((n, v) :: m) = v :: valuesOf n m := by
  simp [valuesOf]

theorem valuesOf_miss {n n' : String} {v : FieldVal} {m : SerdeMap} (h : n' ≠ n) :
    valuesOf n ((n', v) :: m) = valuesOf n m := by
  simp [valuesOf, h]

theorem valuesOf_nil {n : String} : valuesOf n [] = [] := rfl

theorem innerLoop_ok {α : Type} {read : SerdeData → Res α} : ∀ (m : SerdeMap) (i o : Option α),
    innerLoop read m i = .ok o ↔ Slot (deserializeInner read) i (valuesOf "inner" m) o
  | [], i, o => by
    rw [valuesOf_nil, slot_nil, innerLoop]
    exact ⟨fun h => (Res.ok.inj h).symm, fun h => by rw [h]⟩
  | (n, v) :: m, i, o => by
    rw [innerLoop]
    split
    · next h =>
      subst h
      rw [valuesOf_hit, slot_cons, Res.bind_eq_ok]
      simp only [innerLoop_ok m]
    · next h => rw [valuesOf_miss h, innerLoop_ok m]

theorem oaepLoop_ok {α : Type} {read : SerdeData → Res α} : ∀ (m : SerdeMap) (s o : OaepSeen α),
    oaepLoop read m s = .ok o ↔
      Slot (deserializeInner read) s.inner (valuesOf "inner" m) o.inner ∧
      Slot deserializeLabel s.label (valuesOf "label" m) o.label ∧
      Slot deserializePhantom s.phantom (valuesOf "phantom" m) o.phantom ∧
      Slot deserializePhantom s.mgPhantom (valuesOf "mg_phantom" m) o.mgPhantom
  | [], s, o => by
    simp only [valuesOf_nil, slot_nil, oaepLoop]
    constructor
    · intro h; cases h; exact ⟨rfl, rfl, rfl, rfl⟩
    · rintro ⟨h1, h2, h3, h4⟩
      cases s; cases o; simp_all
  | (n, v) :: m, s, o => by
    have n1 : "inner" ≠ "label" := by decide
    have n2 : "inner" ≠ "phantom" := by decide
    have n3 : "inner" ≠ "mg_phantom" := by decide
    have n4 : "label" ≠ "phantom" := by decide
    have n5 : "label" ≠ "mg_phantom" := by decide
    have n6 : "phantom" ≠ "mg_phantom" := by decide
    rw [oaepLoop]
    split
    · next h =>
      subst h
      rw [valuesOf_hit, valuesOf_miss n1, valuesOf_miss n2, valuesOf_miss n3, slot_cons, Res.bind_eq_ok]
      simp only [oaepLoop_ok m]
      constructor
      · rintro ⟨i, h, h1, h2, h3, h4⟩; exact ⟨⟨i, h, h1⟩, h2, h3, h4⟩
      · rintro ⟨⟨i, h, h1⟩, h2, h3, h4⟩; exact ⟨i, h, h1, h2, h3, h4⟩
    · next g1 =>
      split
      · next h =>
        subst h
        rw [valuesOf_hit, valuesOf_miss g1, valuesOf_miss n4, valuesOf_miss n5, slot_cons, Res.bind_eq_ok]
        simp only [oaepLoop_ok m]
        constructor
        · rintro ⟨i, h, h1, h2, h3, h4⟩; exact ⟨h1, ⟨i, h, h2⟩, h3, h4⟩
        · rintro ⟨h1, ⟨i, h, h2⟩, h3, h4⟩; exact ⟨i, h, h1, h2, h3, h4⟩
      · next g2 =>
        split
        · next h =>
          subst h
          rw [valuesOf_hit, valuesOf_miss g1, valuesOf_miss g2, valuesOf_miss n6, slot_cons, Res.bind_eq_ok]
          simp only [oaepLoop_ok m]
          constructor
          · rintro ⟨i, h, h1, h2, h3, h4⟩; exact ⟨h1, h2, ⟨i, h, h3⟩, h4⟩
          · rintro ⟨h1, h2, ⟨i, h, h3⟩, h4⟩; exact ⟨i, h, h1, h2, h3, h4⟩
        · next g3 =>
          split
          · next h =>
            subst h
            rw [valuesOf_hit, valuesOf_miss g1, valuesOf_miss g2, valuesOf_miss g3, slot_cons, Res.bind_eq_ok]
            simp only [oaepLoop_ok m]
            constructor
            · rintro ⟨i, h, h1, h2, h3, h4⟩; exact ⟨h1, h2, h3, ⟨i, h, h4⟩⟩
            · rintro ⟨h1, h2, h3, ⟨i, h, h4⟩⟩; exact ⟨i, h, h1, h2, h3, h4⟩
          · next g4 =>
            rw [valuesOf_miss g1, valuesOf_miss g2, valuesOf_miss g3, valuesOf_miss g4, oaepLoop_ok m]

theorem required_ok {α : Type} {o : Option α} {x : α} : required o = .ok x ↔ o = some x := by
  cases o <;> simp [required]

theorem phantom_ok {v : FieldVal} {u : Unit} : deserializePhantom v = .ok u ↔ v = .unit := by
  cases v <;> simp [deserializePhantom]

theorem inner_ok {α : Type} {read : SerdeData → Res α} {v : FieldVal} {x : α} :
    deserializeInner read v = .ok x ↔ ∃ d, v = .data d ∧ read d = .ok x := by
  cases v <;> simp [deserializeInner]

theorem bytesOfNumbers_ok : ∀ (xs : List Nat) (b : Bytes), bytesOfNumbers xs = .ok b ↔ xs = b.map UInt8.toNat
  | [], b => by cases b <;> simp [bytesOfNumbers]
  | x :: xs, b => by
    rw [bytesOfNumbers]
    split
    · next h =>
      rw [Res.bind_eq_ok]
      simp only [bytesOfNumbers_ok xs]
      constructor
      · rintro ⟨c, rfl, h'⟩
        cases h'
        rw [List.map_cons, UInt8.toNat_ofNat', Nat.mod_eq_of_lt h]
      · intro e
        cases b with
        | nil => cases e
        | cons y ys =>
          obtain ⟨rfl, rfl⟩ := List.cons.inj e
          exact ⟨ys, rfl, by rw [UInt8.ofNat_toNat]⟩
    · next h =>
      constructor
      · intro e; cases e
      · intro e
        cases b with
        | nil => cases e
        | cons y ys =>
          obtain ⟨rfl, rfl⟩ := List.cons.inj e
          exact absurd y.toNat_lt h

theorem label_ok {v : FieldVal} {l : Option Bytes} : deserializeLabel v = .ok l ↔ SaysLabel v l := by
  cases v <;> cases l <;> simp [deserializeLabel, SaysLabel, Res.bind_eq_ok, bytesOfNumbers_ok]

theorem serializeLabel_says (l : Option Bytes) : SaysLabel (serializeLabel l) l := by
  cases l <;> simp [serializeLabel, SaysLabel]

theorem oaepVisitMap_ok {α : Type} {read : SerdeData → Res α} {m : SerdeMap} {i : α} {l : Option Bytes} :
    oaepVisitMap read m = .ok (i, l) ↔ ∃ d, OaepDocument m d l ∧ read d = .ok i := by
  unfold oaepVisitMap OaepDocument GivesInner GivesLabel
  simp only [Res.bind_eq_ok, oaepLoop_ok, required_ok]
  constructor
  · rintro ⟨o, ⟨h1, h2, h3, h4⟩, i', hi, u, hu, u', hu', h⟩
    obtain ⟨rfl, rfl⟩ := Prod.mk.inj (Res.ok.inj h)
    rw [hi, slot_some] at h1
    rw [hu, slot_some] at h3
    rw [hu', slot_some] at h4
    obtain ⟨v, hv, hf⟩ := h1
    obtain ⟨d, rfl, hd⟩ := inner_ok.mp hf
    obtain ⟨v3, hv3, hf3⟩ := h3
    obtain ⟨v4, hv4, hf4⟩ := h4
    rw [phantom_ok] at hf3 hf4
    subst hf3 hf4
    refine ⟨d, ⟨hv, ?_, hv3, hv4⟩, hd⟩
    rcases h2 with ⟨h, h'⟩ | ⟨v, x, h, _, hf, hx⟩
    · exact .inl ⟨h, by rw [h']; rfl⟩
    · exact .inr ⟨v, h, by rw [hx]; exact label_ok.mp hf⟩
  · rintro ⟨d, ⟨h1, h2, h3, h4⟩, hd⟩
    have hin : Slot (deserializeInner read) none (valuesOf "inner" m) (some i) :=
      slot_some.mpr ⟨_, h1, inner_ok.mpr ⟨d, rfl, hd⟩⟩
    have hp : Slot deserializePhantom none (valuesOf "phantom" m) (some ()) :=
      slot_some.mpr ⟨_, h3, phantom_ok.mpr rfl⟩
    have hq : Slot deserializePhantom none (valuesOf "mg_phantom" m) (some ()) :=
      slot_some.mpr ⟨_, h4, phantom_ok.mpr rfl⟩
    rcases h2 with ⟨h, rfl⟩ | ⟨v, h, hl⟩
    · exact ⟨⟨some i, none, some (), some ()⟩, ⟨hin, .inl ⟨h, rfl⟩, hp, hq⟩, i, rfl, (), rfl, (), rfl, rfl⟩
    · exact ⟨⟨some i, some l, some (), some ()⟩, ⟨hin, slot_some.mpr ⟨v, h, label_ok.mpr hl⟩, hp, hq⟩,
        i, rfl, (), rfl, (), rfl, rfl⟩

theorem innerMap_ok {α : Type} {read : SerdeData → Res α} {m : SerdeMap} {i : α} :
    (∃ o, innerLoop read m none = .ok o ∧ required o = .ok i) ↔ ∃ d, GivesInner m d ∧ read d = .ok i := by
  simp only [innerLoop_ok, required_ok, exists_eq_right, slot_some, inner_ok, GivesInner]
  constructor
  · rintro ⟨v, h, d, rfl, hd⟩; exact ⟨d, h, hd⟩
  · rintro ⟨d, h, hd⟩; exact ⟨_, h, d, rfl, hd⟩

theorem oaepVisitSeq_ok {α : Type} {read : SerdeData → Res α} {v : List FieldVal} {i : α} {l : Option Bytes} :
    oaepVisitSeq read v = .ok (i, l) ↔
      ∃ d w rest, v = .data d :: w :: .unit :: .unit :: rest ∧ SaysLabel w l ∧ read d = .ok i := by
  rcases v with _ | ⟨a, _ | ⟨b, _ | ⟨c, _ | ⟨e, rest⟩⟩⟩⟩
  · simp [oaepVisitSeq]
  · simp [oaepVisitSeq]
  · simp [oaepVisitSeq]
  · simp [oaepVisitSeq]
  · simp only [oaepVisitSeq, Res.bind_eq_ok, inner_ok, label_ok, phantom_ok]
    constructor
    · rintro ⟨i', ⟨d, rfl, hd⟩, l', hl, _, rfl, _, rfl, h⟩
      obtain ⟨rfl, rfl⟩ := Prod.mk.inj (Res.ok.inj h)
      exact ⟨d, b, rest, rfl, hl, hd⟩
    · rintro ⟨d, w, r, h, hl, hd⟩
      simp only [List.cons.injEq] at h
      obtain ⟨rfl, rfl, rfl, rfl, rfl⟩ := h
      exact ⟨i, ⟨d, rfl, hd⟩, l, hl, (), rfl, (), rfl, rfl⟩

/-- The values of a name are insensitive to reordering and to fields of other names, when there is at most one. -/
theorem valuesOf_perm {m m' extra : SerdeMap} {n : String} (hp : m'.Perm (m ++ extra))
    (he : ∀ f ∈ extra, f.1 ≠ n) (h1 : (valuesOf n m).length ≤ 1) : valuesOf n m' = valuesOf n m := by
  have hx : extra.filter (fun f => decide (f.1 = n)) = [] := by
    rw [List.filter_eq_nil_iff]
    intro f hf
    simpa using he f hf
  have h : (valuesOf n m').Perm (valuesOf n m) := by
    have := (hp.filter (fun f => decide (f.1 = n))).map Prod.snd
    rw [List.filter_append, hx, List.append_nil] at this
    exact this
  match hv : valuesOf n m, h1 with
  | [], _ => rw [hv] at h; exact h.eq_nil
  | [x], _ => rw [hv] at h; exact List.perm_singleton.mp h

end RSA
