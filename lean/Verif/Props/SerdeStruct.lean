import Verif.Proof.SerdeStruct
import Verif.Props.Journey
import Verif.Props.Documents
import Verif.Props.AlgId

/-
C91: the derived serialisation of the encryption key types — which struct documents are accepted, what they give, and what
they do not record.
-/
namespace RSA
open Spec

theorem oaepEnc_ok {D MGD : HashFn} {hr : Bool} {m : SerdeMap} {k : oaep.EncryptingKey D MGD} :
    oaep.EncryptingKey.serdeDeserialize hr m = .ok k ↔
      ∃ d, OaepDocument m d k.label ∧ PublicKey.serdeDeserialize hr d = .ok k.inner := by
  unfold oaep.EncryptingKey.serdeDeserialize
  rw [Res.bind_eq_ok, ← oaepVisitMap_ok]
  constructor
  · rintro ⟨⟨i, l⟩, h, h'⟩; cases h'; exact h
  · intro h; exact ⟨_, h, rfl⟩

theorem oaepDec_ok {D MGD : HashFn} {hr : Bool} {m : SerdeMap} {k : oaep.DecryptingKey D MGD} :
    oaep.DecryptingKey.serdeDeserialize hr m = .ok k ↔
      ∃ d, OaepDocument m d k.label ∧ PrivateKey.serdeDeserialize hr d = .ok k.inner := by
  unfold oaep.DecryptingKey.serdeDeserialize
  rw [Res.bind_eq_ok, ← oaepVisitMap_ok]
  constructor
  · rintro ⟨⟨i, l⟩, h, h'⟩; cases h'; exact h
  · intro h; exact ⟨_, h, rfl⟩

theorem pkcsEnc_ok {hr : Bool} {m : SerdeMap} {k : pkcs1v15.EncryptingKey} :
    pkcs1v15.EncryptingKey.serdeDeserialize hr m = .ok k ↔
      ∃ d, GivesInner m d ∧ PublicKey.serdeDeserialize hr d = .ok k.inner := by
  unfold pkcs1v15.EncryptingKey.serdeDeserialize
  rw [← innerMap_ok]
  simp only [Res.bind_eq_ok]
  constructor
  · rintro ⟨o, h, i, hi, h'⟩; cases h'; exact ⟨o, h, hi⟩
  · rintro ⟨o, h, hi⟩; exact ⟨o, h, k.inner, hi, rfl⟩

theorem pkcsDec_ok {hr : Bool} {m : SerdeMap} {k : pkcs1v15.DecryptingKey} :
    pkcs1v15.DecryptingKey.serdeDeserialize hr m = .ok k ↔
      ∃ d, GivesInner m d ∧ PrivateKey.serdeDeserialize hr d = .ok k.inner := by
  unfold pkcs1v15.DecryptingKey.serdeDeserialize
  rw [← innerMap_ok]
  simp only [Res.bind_eq_ok]
  constructor
  · rintro ⟨o, h, i, hi, h'⟩; cases h'; exact ⟨o, h, hi⟩
  · rintro ⟨o, h, hi⟩; exact ⟨o, h, k.inner, hi, rfl⟩

/-- C91: exactly which documents are accepted, and as what. -/
theorem C91_accepts_exactly {D MGD : HashFn} (hr : Bool) (m : SerdeMap) :
    (∀ k : oaep.EncryptingKey D MGD, oaep.EncryptingKey.serdeDeserialize hr m = .ok k ↔
      ∃ d b, OaepDocument m d k.label ∧ Holds hr d b ∧ PublicKey.fromPublicKeyDer b = .ok k.inner) ∧
    (∀ k : oaep.DecryptingKey D MGD, oaep.DecryptingKey.serdeDeserialize hr m = .ok k ↔
      ∃ d b, OaepDocument m d k.label ∧ Holds hr d b ∧ PrivateKey.fromPkcs8Der b = .ok k.inner) ∧
    (∀ k : pkcs1v15.EncryptingKey, pkcs1v15.EncryptingKey.serdeDeserialize hr m = .ok k ↔
      ∃ d b, GivesInner m d ∧ Holds hr d b ∧ PublicKey.fromPublicKeyDer b = .ok k.inner) ∧
    (∀ k : pkcs1v15.DecryptingKey, pkcs1v15.DecryptingKey.serdeDeserialize hr m = .ok k ↔
      ∃ d b, GivesInner m d ∧ Holds hr d b ∧ PrivateKey.fromPkcs8Der b = .ok k.inner) := by
  obtain ⟨-, -, hpub, hpriv⟩ := C63_keys hr
  refine ⟨fun k => ?_, fun k => ?_, fun k => ?_, fun k => ?_⟩
  · rw [oaepEnc_ok]; simp only [hpub]
    exact ⟨fun ⟨d, h, b, h1, h2⟩ => ⟨d, b, h, h2, h1⟩, fun ⟨d, b, h, h2, h1⟩ => ⟨d, h, b, h1, h2⟩⟩
  · rw [oaepDec_ok]; simp only [hpriv]
    exact ⟨fun ⟨d, h, b, h1, h2⟩ => ⟨d, b, h, h2, h1⟩, fun ⟨d, b, h, h2, h1⟩ => ⟨d, h, b, h1, h2⟩⟩
  · rw [pkcsEnc_ok]; simp only [hpub]
    exact ⟨fun ⟨d, h, b, h1, h2⟩ => ⟨d, b, h, h2, h1⟩, fun ⟨d, b, h, h2, h1⟩ => ⟨d, h, b, h1, h2⟩⟩
  · rw [pkcsDec_ok]; simp only [hpriv]
    exact ⟨fun ⟨d, h, b, h1, h2⟩ => ⟨d, b, h, h2, h1⟩, fun ⟨d, b, h, h2, h1⟩ => ⟨d, h, b, h1, h2⟩⟩

/-- The document of an OAEP key, its fields in any order and other fields added anywhere. -/
theorem oaep_shuffled {d : SerdeData} {l : Option Bytes} {m' extra : SerdeMap}
    (he : ∀ f ∈ extra, f.1 ∉ oaepNames)
    (hp : m'.Perm ([("inner", .data d), ("label", serializeLabel l), ("phantom", .unit), ("mg_phantom", .unit)] ++ extra)) :
    OaepDocument m' d l := by
  have hne : ∀ n ∈ oaepNames, ∀ f ∈ extra, f.1 ≠ n := fun n hn f hf h => he f hf (h ▸ hn)
  refine ⟨?_, .inr ⟨serializeLabel l, ?_, serializeLabel_says l⟩, ?_, ?_⟩
  · exact valuesOf_perm hp (hne _ (by decide)) (by simp [valuesOf])
  · rw [valuesOf_perm hp (hne _ (by decide)) (by simp [valuesOf])]; simp [valuesOf]
  · rw [valuesOf_perm hp (hne _ (by decide)) (by simp [valuesOf])]; simp [valuesOf]
  · rw [valuesOf_perm hp (hne _ (by decide)) (by simp [valuesOf])]; simp [valuesOf]

theorem inner_shuffled {d : SerdeData} {m' extra : SerdeMap} (he : ∀ f ∈ extra, f.1 ≠ "inner")
    (hp : m'.Perm ([("inner", .data d)] ++ extra)) : GivesInner m' d :=
  valuesOf_perm hp he (by simp [valuesOf])

theorem public_data {hr : Bool} {k : PublicKey} (hc : k.Coherent) (hv : checkPublic k = .ok ()) :
    ∃ d k', k.serdeSerialize hr = .ok d ∧ PublicKey.serdeDeserialize hr d = .ok k' ∧ k'.eq k = true ∧ k'.Coherent ∧
      checkPublic k' = .ok () := by
  obtain ⟨b, d, k', -, -, h⟩ := (C63_keys hr).1 k hc hv
  exact ⟨d, k', h⟩

theorem private_data {hr : Bool} {k : PrivateKey} (hk : Portable k) :
    ∃ d k', k.serdeSerialize hr = .ok d ∧ PrivateKey.serdeDeserialize hr d = .ok k' ∧ k'.eq k = true ∧ Portable k' := by
  obtain ⟨p, q, hps, hp, hq⟩ := hk.two
  obtain ⟨b, d, k', hb, hd, h1, h2, -, -⟩ :=
    (C63_keys hr).2.1 k p q hk.correct hk.accepted hps hp hq hk.width hk.below
  have := C90_journey k hk (.secret k') (.single (.transport (.serde hr h1 h2)))
  exact ⟨d, k', h1, h2, this.1, this.2⟩

/-- C91: a written key is read back with the same numbers and the same label, the fields of the document in any order, with
foreign fields anywhere in it, and for whichever pair of hash functions the reader asks. -/
theorem C91_round_trip {D MGD D' MGD' : HashFn} (hr : Bool) :
    (∀ k : oaep.DecryptingKey D MGD, Portable k.inner → ∃ m, k.serdeSerialize hr = .ok m ∧
      ∀ extra m', (∀ f ∈ extra, f.1 ∉ oaepNames) → m'.Perm (m ++ extra) →
        ∃ k' : oaep.DecryptingKey D' MGD', oaep.DecryptingKey.serdeDeserialize hr m' = .ok k' ∧
          k'.inner.eq k.inner = true ∧ Portable k'.inner ∧ k'.label = k.label) ∧
    (∀ k : oaep.EncryptingKey D MGD, k.inner.Coherent → checkPublic k.inner = .ok () → ∃ m, k.serdeSerialize hr = .ok m ∧
      ∀ extra m', (∀ f ∈ extra, f.1 ∉ oaepNames) → m'.Perm (m ++ extra) →
        ∃ k' : oaep.EncryptingKey D' MGD', oaep.EncryptingKey.serdeDeserialize hr m' = .ok k' ∧
          k'.inner.eq k.inner = true ∧ k'.inner.Coherent ∧ k'.label = k.label) ∧
    (∀ k : pkcs1v15.DecryptingKey, Portable k.inner → ∃ m, k.serdeSerialize hr = .ok m ∧
      ∀ extra m', (∀ f ∈ extra, f.1 ≠ "inner") → m'.Perm (m ++ extra) →
        ∃ k' : pkcs1v15.DecryptingKey, pkcs1v15.DecryptingKey.serdeDeserialize hr m' = .ok k' ∧
          k'.inner.eq k.inner = true ∧ Portable k'.inner) ∧
    (∀ k : pkcs1v15.EncryptingKey, k.inner.Coherent → checkPublic k.inner = .ok () → ∃ m, k.serdeSerialize hr = .ok m ∧
      ∀ extra m', (∀ f ∈ extra, f.1 ≠ "inner") → m'.Perm (m ++ extra) →
        ∃ k' : pkcs1v15.EncryptingKey, pkcs1v15.EncryptingKey.serdeDeserialize hr m' = .ok k' ∧
          k'.inner.eq k.inner = true ∧ k'.inner.Coherent) := by
  refine ⟨fun k hk => ?_, fun k hc hv => ?_, fun k hk => ?_, fun k hc hv => ?_⟩
  · obtain ⟨d, i, h1, h2, h3, h4⟩ := private_data (hr := hr) hk
    refine ⟨_, by unfold oaep.DecryptingKey.serdeSerialize; rw [h1, Res.ok_bind], fun extra m' he hp => ?_⟩
    exact ⟨⟨i, k.label⟩, oaepDec_ok.mpr ⟨d, oaep_shuffled he hp, h2⟩, h3, h4, rfl⟩
  · obtain ⟨d, i, h1, h2, h3, h4, -⟩ := public_data (hr := hr) hc hv
    refine ⟨_, by unfold oaep.EncryptingKey.serdeSerialize; rw [h1, Res.ok_bind], fun extra m' he hp => ?_⟩
    exact ⟨⟨i, k.label⟩, oaepEnc_ok.mpr ⟨d, oaep_shuffled he hp, h2⟩, h3, h4, rfl⟩
  · obtain ⟨d, i, h1, h2, h3, h4⟩ := private_data (hr := hr) hk
    refine ⟨_, by unfold pkcs1v15.DecryptingKey.serdeSerialize; rw [h1, Res.ok_bind], fun extra m' he hp => ?_⟩
    exact ⟨⟨i⟩, pkcsDec_ok.mpr ⟨d, inner_shuffled he hp, h2⟩, h3, h4⟩
  · obtain ⟨d, i, h1, h2, h3, h4, -⟩ := public_data (hr := hr) hc hv
    refine ⟨_, by unfold pkcs1v15.EncryptingKey.serdeSerialize; rw [h1, Res.ok_bind], fun extra m' he hp => ?_⟩
    exact ⟨⟨i⟩, pkcsEnc_ok.mpr ⟨d, inner_shuffled he hp, h2⟩, h3, h4⟩

/-- C91: the same by position, for formats without names, also where nothing and unit are written alike. -/
theorem C91_positional {D MGD D' MGD' : HashFn} (hr : Bool) (f : FieldVal → FieldVal) (hf : f = id ∨ f = nulled) :
    (∀ k : oaep.DecryptingKey D MGD, Portable k.inner → ∃ m, k.serdeSerialize hr = .ok m ∧
      ∃ k' : oaep.DecryptingKey D' MGD', oaep.DecryptingKey.serdeDeserializeSeq hr (m.map fun x => f x.2) = .ok k' ∧
        oaep.DecryptingKey.serdeDeserialize hr (m.map fun x => (x.1, f x.2)) = .ok k' ∧
        k'.inner.eq k.inner = true ∧ Portable k'.inner ∧ k'.label = k.label) ∧
    (∀ k : oaep.EncryptingKey D MGD, k.inner.Coherent → checkPublic k.inner = .ok () → ∃ m, k.serdeSerialize hr = .ok m ∧
      ∃ k' : oaep.EncryptingKey D' MGD', oaep.EncryptingKey.serdeDeserializeSeq hr (m.map fun x => f x.2) = .ok k' ∧
        oaep.EncryptingKey.serdeDeserialize hr (m.map fun x => (x.1, f x.2)) = .ok k' ∧
        k'.inner.eq k.inner = true ∧ k'.inner.Coherent ∧ k'.label = k.label) ∧
    (∀ k : pkcs1v15.DecryptingKey, Portable k.inner → ∃ m, k.serdeSerialize hr = .ok m ∧
      ∃ k' : pkcs1v15.DecryptingKey, pkcs1v15.DecryptingKey.serdeDeserializeSeq hr (m.map fun x => f x.2) = .ok k' ∧
        k'.inner.eq k.inner = true ∧ Portable k'.inner) ∧
    (∀ k : pkcs1v15.EncryptingKey, k.inner.Coherent → checkPublic k.inner = .ok () → ∃ m, k.serdeSerialize hr = .ok m ∧
      ∃ k' : pkcs1v15.EncryptingKey, pkcs1v15.EncryptingKey.serdeDeserializeSeq hr (m.map fun x => f x.2) = .ok k' ∧
        k'.inner.eq k.inner = true ∧ k'.inner.Coherent) := by
  have fd : ∀ d, f (.data d) = .data d := by rcases hf with rfl | rfl <;> intro d <;> simp [nulled]
  have fu : f .unit = .unit := by rcases hf with rfl | rfl <;> simp [nulled]
  have fl : ∀ l, SaysLabel (f (serializeLabel l)) l := by
    rcases hf with rfl | rfl <;> intro l <;> cases l <;> simp [nulled, serializeLabel, SaysLabel]
  have doc : ∀ d l, OaepDocument [("inner", .data d), ("label", f (serializeLabel l)), ("phantom", .unit),
      ("mg_phantom", .unit)] d l := fun d l =>
    ⟨by simp [GivesInner, valuesOf], .inr ⟨_, by simp [valuesOf], fl l⟩, by simp [valuesOf], by simp [valuesOf]⟩
  have inn : ∀ {α : Type} {read : SerdeData → Res α} {d : SerdeData} {i : α}, read d = .ok i →
      innerVisitSeq read [.data d] = .ok i := fun h => h
  refine ⟨fun k hk => ?_, fun k hc hv => ?_, fun k hk => ?_, fun k hc hv => ?_⟩
  · obtain ⟨d, i, h1, h2, h3, h4⟩ := private_data (hr := hr) hk
    refine ⟨_, by unfold oaep.DecryptingKey.serdeSerialize; rw [h1, Res.ok_bind], ⟨i, k.label⟩, ?_, ?_, h3, h4, rfl⟩
    · unfold oaep.DecryptingKey.serdeDeserializeSeq
      simp only [List.map_cons, List.map_nil, fd, fu]
      rw [oaepVisitSeq_ok.mpr ⟨d, _, [], rfl, fl k.label, h2⟩]; rfl
    · simp only [List.map_cons, List.map_nil, fd, fu]
      exact oaepDec_ok.mpr ⟨d, doc d k.label, h2⟩
  · obtain ⟨d, i, h1, h2, h3, h4, -⟩ := public_data (hr := hr) hc hv
    refine ⟨_, by unfold oaep.EncryptingKey.serdeSerialize; rw [h1, Res.ok_bind], ⟨i, k.label⟩, ?_, ?_, h3, h4, rfl⟩
    · unfold oaep.EncryptingKey.serdeDeserializeSeq
      simp only [List.map_cons, List.map_nil, fd, fu]
      rw [oaepVisitSeq_ok.mpr ⟨d, _, [], rfl, fl k.label, h2⟩]; rfl
    · simp only [List.map_cons, List.map_nil, fd, fu]
      exact oaepEnc_ok.mpr ⟨d, doc d k.label, h2⟩
  · obtain ⟨d, i, h1, h2, h3, h4⟩ := private_data (hr := hr) hk
    refine ⟨_, by unfold pkcs1v15.DecryptingKey.serdeSerialize; rw [h1, Res.ok_bind], ⟨i⟩, ?_, h3, h4⟩
    unfold pkcs1v15.DecryptingKey.serdeDeserializeSeq
    simp only [List.map_cons, List.map_nil, fd]
    rw [inn h2]; rfl
  · obtain ⟨d, i, h1, h2, h3, h4, -⟩ := public_data (hr := hr) hc hv
    refine ⟨_, by unfold pkcs1v15.EncryptingKey.serdeSerialize; rw [h1, Res.ok_bind], ⟨i⟩, ?_, h3, h4⟩
    unfold pkcs1v15.EncryptingKey.serdeDeserializeSeq
    simp only [List.map_cons, List.map_nil, fd]
    rw [inn h2]; rfl

theorem innerVisitSeq_ok {α : Type} {read : SerdeData → Res α} {v : List FieldVal} {i : α} :
    innerVisitSeq read v = .ok i ↔ ∃ d rest, v = .data d :: rest ∧ read d = .ok i := by
  cases v with
  | nil => simp [innerVisitSeq]
  | cons a rest =>
    simp only [innerVisitSeq, inner_ok, List.cons.injEq]
    constructor
    · rintro ⟨d, rfl, h⟩; exact ⟨d, rest, ⟨rfl, rfl⟩, h⟩
    · rintro ⟨d, r, ⟨rfl, -⟩, h⟩; exact ⟨d, rfl, h⟩

/-- C91: exactly which sequences of unnamed values are accepted, and as what: the four values in the order of declaration, the
label never left out. -/
theorem C91_positional_exactly {D MGD : HashFn} (hr : Bool) (v : List FieldVal) :
    (∀ k : oaep.EncryptingKey D MGD, oaep.EncryptingKey.serdeDeserializeSeq hr v = .ok k ↔
      ∃ d b w rest, v = .data d :: w :: .unit :: .unit :: rest ∧ SaysLabel w k.label ∧ Holds hr d b ∧
        PublicKey.fromPublicKeyDer b = .ok k.inner) ∧
    (∀ k : oaep.DecryptingKey D MGD, oaep.DecryptingKey.serdeDeserializeSeq hr v = .ok k ↔
      ∃ d b w rest, v = .data d :: w :: .unit :: .unit :: rest ∧ SaysLabel w k.label ∧ Holds hr d b ∧
        PrivateKey.fromPkcs8Der b = .ok k.inner) ∧
    (∀ k, pkcs1v15.EncryptingKey.serdeDeserializeSeq hr v = .ok k ↔
      ∃ d b rest, v = .data d :: rest ∧ Holds hr d b ∧ PublicKey.fromPublicKeyDer b = .ok k.inner) ∧
    (∀ k, pkcs1v15.DecryptingKey.serdeDeserializeSeq hr v = .ok k ↔
      ∃ d b rest, v = .data d :: rest ∧ Holds hr d b ∧ PrivateKey.fromPkcs8Der b = .ok k.inner) := by
  obtain ⟨-, -, hpub, hpriv⟩ := C63_keys hr
  refine ⟨fun k => ?_, fun k => ?_, fun k => ?_, fun k => ?_⟩
  · unfold oaep.EncryptingKey.serdeDeserializeSeq
    rw [Res.bind_eq_ok]
    constructor
    · rintro ⟨⟨i, l⟩, h, h'⟩
      cases h'
      obtain ⟨d, w, rest, hv, hl, hd⟩ := oaepVisitSeq_ok.mp h
      obtain ⟨b, h1, h2⟩ := (hpub d i).mp hd
      exact ⟨d, b, w, rest, hv, hl, h2, h1⟩
    · rintro ⟨d, b, w, rest, hv, hl, h2, h1⟩
      exact ⟨(k.inner, k.label), oaepVisitSeq_ok.mpr ⟨d, w, rest, hv, hl, (hpub d _).mpr ⟨b, h1, h2⟩⟩, rfl⟩
  · unfold oaep.DecryptingKey.serdeDeserializeSeq
    rw [Res.bind_eq_ok]
    constructor
    · rintro ⟨⟨i, l⟩, h, h'⟩
      cases h'
      obtain ⟨d, w, rest, hv, hl, hd⟩ := oaepVisitSeq_ok.mp h
      obtain ⟨b, h1, h2⟩ := (hpriv d i).mp hd
      exact ⟨d, b, w, rest, hv, hl, h2, h1⟩
    · rintro ⟨d, b, w, rest, hv, hl, h2, h1⟩
      exact ⟨(k.inner, k.label), oaepVisitSeq_ok.mpr ⟨d, w, rest, hv, hl, (hpriv d _).mpr ⟨b, h1, h2⟩⟩, rfl⟩
  · unfold pkcs1v15.EncryptingKey.serdeDeserializeSeq
    rw [Res.bind_eq_ok]
    constructor
    · rintro ⟨i, h, h'⟩
      cases h'
      obtain ⟨d, rest, hv, hd⟩ := innerVisitSeq_ok.mp h
      obtain ⟨b, h1, h2⟩ := (hpub d i).mp hd
      exact ⟨d, b, rest, hv, h2, h1⟩
    · rintro ⟨d, b, rest, hv, h2, h1⟩
      exact ⟨k.inner, innerVisitSeq_ok.mpr ⟨d, rest, hv, (hpub d _).mpr ⟨b, h1, h2⟩⟩, rfl⟩
  · unfold pkcs1v15.DecryptingKey.serdeDeserializeSeq
    rw [Res.bind_eq_ok]
    constructor
    · rintro ⟨i, h, h'⟩
      cases h'
      obtain ⟨d, rest, hv, hd⟩ := innerVisitSeq_ok.mp h
      obtain ⟨b, h1, h2⟩ := (hpriv d i).mp hd
      exact ⟨d, b, rest, hv, h2, h1⟩
    · rintro ⟨d, b, rest, hv, h2, h1⟩
      exact ⟨k.inner, innerVisitSeq_ok.mpr ⟨d, rest, hv, (hpriv d _).mpr ⟨b, h1, h2⟩⟩, rfl⟩

/-- C91: the hash functions are not part of the document. What is a key for one pair is a key, with the same inner key and
label, for every other pair. -/
theorem C91_hash_not_bound {D MGD D' MGD' : HashFn} (hr : Bool) (m : SerdeMap) :
    (∀ i l, oaep.EncryptingKey.serdeDeserialize hr m = .ok (⟨i, l⟩ : oaep.EncryptingKey D MGD) →
      oaep.EncryptingKey.serdeDeserialize hr m = .ok (⟨i, l⟩ : oaep.EncryptingKey D' MGD')) ∧
    (∀ i l, oaep.DecryptingKey.serdeDeserialize hr m = .ok (⟨i, l⟩ : oaep.DecryptingKey D MGD) →
      oaep.DecryptingKey.serdeDeserialize hr m = .ok (⟨i, l⟩ : oaep.DecryptingKey D' MGD')) :=
  ⟨fun _ _ h => oaepEnc_ok.mpr (oaepEnc_ok.mp h :), fun _ _ h => oaepDec_ok.mpr (oaepDec_ok.mp h :)⟩

theorem valuesOf_withoutLabel {n : String} (h : n ≠ "label") (m : SerdeMap) :
    valuesOf n (withoutLabel m) = valuesOf n m := by
  unfold valuesOf withoutLabel
  rw [List.filter_filter]
  congr 1
  apply List.filter_congr
  intro f _
  by_cases hf : f.1 = n <;> simp [hf, h]

theorem label_withoutLabel (m : SerdeMap) : valuesOf "label" (withoutLabel m) = [] := by
  unfold valuesOf withoutLabel
  rw [List.filter_filter]
  simp

theorem OaepDocument_withoutLabel {m : SerdeMap} {d : SerdeData} {l : Option Bytes} (h : OaepDocument m d l) :
    OaepDocument (withoutLabel m) d none := by
  obtain ⟨h1, -, h3, h4⟩ := h
  exact ⟨by unfold GivesInner; rw [valuesOf_withoutLabel (by decide)]; exact h1, .inl ⟨label_withoutLabel m, rfl⟩,
    by rw [valuesOf_withoutLabel (by decide)]; exact h3, by rw [valuesOf_withoutLabel (by decide)]; exact h4⟩

/-- C91: the label is not required. A document that lost it is accepted as the same key without a label. -/
theorem C91_label_not_required {D MGD : HashFn} (hr : Bool) (m : SerdeMap) :
    (∀ k : oaep.EncryptingKey D MGD, oaep.EncryptingKey.serdeDeserialize hr m = .ok k →
      oaep.EncryptingKey.serdeDeserialize hr (withoutLabel m) = .ok (⟨k.inner, none⟩ : oaep.EncryptingKey D MGD)) ∧
    (∀ k : oaep.DecryptingKey D MGD, oaep.DecryptingKey.serdeDeserialize hr m = .ok k →
      oaep.DecryptingKey.serdeDeserialize hr (withoutLabel m) = .ok (⟨k.inner, none⟩ : oaep.DecryptingKey D MGD)) := by
  constructor
  · intro k h
    obtain ⟨d, hd, h⟩ := oaepEnc_ok.mp h
    exact oaepEnc_ok.mpr ⟨d, OaepDocument_withoutLabel hd, h⟩
  · intro k h
    obtain ⟨d, hd, h⟩ := oaepDec_ok.mp h
    exact oaepDec_ok.mpr ⟨d, OaepDocument_withoutLabel hd, h⟩

/-- C91: every OAEP key document is also a PKCS#1 v1.5 key document of the same key, whatever its label; no document written
for PKCS#1 v1.5 is an OAEP key document. -/
theorem C91_schemes {D MGD : HashFn} (hr : Bool) (m : SerdeMap) :
    (∀ k : oaep.EncryptingKey D MGD, oaep.EncryptingKey.serdeDeserialize hr m = .ok k →
      pkcs1v15.EncryptingKey.serdeDeserialize hr m = .ok ⟨k.inner⟩) ∧
    (∀ k : oaep.DecryptingKey D MGD, oaep.DecryptingKey.serdeDeserialize hr m = .ok k →
      pkcs1v15.DecryptingKey.serdeDeserialize hr m = .ok ⟨k.inner⟩) ∧
    (∀ k : pkcs1v15.EncryptingKey, k.serdeSerialize hr = .ok m →
      ∀ k' : oaep.EncryptingKey D MGD, oaep.EncryptingKey.serdeDeserialize hr m ≠ .ok k') ∧
    (∀ k : pkcs1v15.DecryptingKey, k.serdeSerialize hr = .ok m →
      ∀ k' : oaep.DecryptingKey D MGD, oaep.DecryptingKey.serdeDeserialize hr m ≠ .ok k') := by
  refine ⟨fun k h => ?_, fun k h => ?_, fun k h k' h' => ?_, fun k h k' h' => ?_⟩
  · obtain ⟨d, hd, h⟩ := oaepEnc_ok.mp h
    exact pkcsEnc_ok.mpr ⟨d, hd.1, h⟩
  · obtain ⟨d, hd, h⟩ := oaepDec_ok.mp h
    exact pkcsDec_ok.mpr ⟨d, hd.1, h⟩
  · obtain ⟨d, hd, -⟩ := oaepEnc_ok.mp h'
    unfold pkcs1v15.EncryptingKey.serdeSerialize at h
    obtain ⟨i, -, h⟩ := Res.bind_eq_ok.mp h
    cases h
    have := hd.2.2.1
    simp [valuesOf] at this
  · obtain ⟨d, hd, -⟩ := oaepDec_ok.mp h'
    unfold pkcs1v15.DecryptingKey.serdeSerialize at h
    obtain ⟨i, -, h⟩ := Res.bind_eq_ok.mp h
    cases h
    have := hd.2.2.1
    simp [valuesOf] at this

/-! ### Refusals -/

/-- Accepted, refused with the one error of the format, or crashed for the given reason. -/
def Settled {α : Type} (r : Res α) (bad : Prop) : Prop := (∃ x, r = .ok x) ∨ r = .err .pkcs8 ∨ (r.Panics ∧ bad)

theorem Settled.ok {α : Type} {x : α} {bad : Prop} : Settled (.ok x) bad := .inl ⟨x, rfl⟩

theorem Settled.err {α : Type} {bad : Prop} : Settled (.err .pkcs8 : Res α) bad := .inr (.inl rfl)

theorem Settled.mono {α : Type} {r : Res α} {p q : Prop} (h : Settled r p) (hpq : p → q) : Settled r q :=
  h.imp id fun h => h.imp id fun h => ⟨h.1, hpq h.2⟩

theorem Settled.bind {α β : Type} {r : Res α} {f : α → Res β} {bad : Prop} (h : Settled r bad)
    (hf : ∀ x, Settled (f x) bad) : Settled (r >>= f) bad := by
  rcases h with ⟨x, rfl⟩ | rfl | ⟨h, hb⟩
  · exact hf x
  · exact .err
  · cases r with
    | panic x => exact .inr (.inr ⟨h, hb⟩)
    | ok x => exact h.elim
    | err e => exact h.elim
    | loop => exact h.elim

theorem once_settled {β : Type} {s : Option β} {r : Res β} {bad : Prop} (h : Settled r bad) : Settled (once s r) bad := by
  cases s with
  | some x => exact .err
  | none => exact h.bind fun x => .ok

theorem required_settled {β : Type} {o : Option β} {bad : Prop} : Settled (required o) bad := by
  cases o with
  | none => exact .err
  | some x => exact .ok

theorem bytesOfNumbers_settled {bad : Prop} : ∀ xs, Settled (bytesOfNumbers xs) bad
  | [] => .ok
  | x :: xs => by
    rw [bytesOfNumbers]
    split
    · exact (bytesOfNumbers_settled xs).bind fun _ => .ok
    · exact .err

theorem label_settled {v : FieldVal} {bad : Prop} : Settled (deserializeLabel v) bad := by
  cases v with
  | some xs => exact (bytesOfNumbers_settled xs).bind fun _ => .ok
  | none => exact .ok
  | unit => exact .ok
  | data d => exact .err
  | other => exact .err

theorem phantom_settled {v : FieldVal} {bad : Prop} : Settled (deserializePhantom v) bad := by
  cases v <;> first | exact .ok | exact .err

theorem inner_settled {α : Type} {read : SerdeData → Res α} {P : SerdeData → Prop} (hread : ∀ d, Settled (read d) (P d))
    (v : FieldVal) : Settled (deserializeInner read v) (∃ d, v = .data d ∧ P d) := by
  cases v with
  | data d => exact (hread d).mono fun h => ⟨d, rfl, h⟩
  | _ => exact .err

theorem valuesOf_tail {n : String} {f : String × FieldVal} {m : SerdeMap} {v : FieldVal} (h : v ∈ valuesOf n m) :
    v ∈ valuesOf n (f :: m) := by
  unfold valuesOf at *
  obtain ⟨g, hg, rfl⟩ := List.mem_map.mp h
  obtain ⟨h1, h2⟩ := List.mem_filter.mp hg
  exact List.mem_map.mpr ⟨g, List.mem_filter.mpr ⟨List.mem_cons_of_mem _ h1, h2⟩, rfl⟩

theorem innerLoop_settled {α : Type} {read : SerdeData → Res α} {P : SerdeData → Prop}
    (hread : ∀ d, Settled (read d) (P d)) : ∀ (m : SerdeMap) (i : Option α),
    Settled (innerLoop read m i) (∃ d, .data d ∈ valuesOf "inner" m ∧ P d)
  | [], _ => .ok
  | (n, v) :: m, i => by
    have ih := fun i => (innerLoop_settled hread m i).mono
      (fun ⟨d, h, hp⟩ => (⟨d, valuesOf_tail (f := (n, v)) h, hp⟩ : ∃ d, FieldVal.data d ∈ valuesOf "inner" ((n, v) :: m) ∧ P d))
    rw [innerLoop]
    split
    · next h =>
      subst h
      refine Settled.bind (once_settled ((inner_settled hread v).mono ?_)) ih
      rintro ⟨d, rfl, hp⟩
      exact ⟨d, by rw [valuesOf_hit]; exact List.mem_cons_self, hp⟩
    · exact ih i

theorem oaepLoop_settled {α : Type} {read : SerdeData → Res α} {P : SerdeData → Prop}
    (hread : ∀ d, Settled (read d) (P d)) : ∀ (m : SerdeMap) (s : OaepSeen α),
    Settled (oaepLoop read m s) (∃ d, .data d ∈ valuesOf "inner" m ∧ P d)
  | [], _ => .ok
  | (n, v) :: m, s => by
    have ih := fun s => (oaepLoop_settled hread m s).mono
      (fun ⟨d, h, hp⟩ => (⟨d, valuesOf_tail (f := (n, v)) h, hp⟩ : ∃ d, FieldVal.data d ∈ valuesOf "inner" ((n, v) :: m) ∧ P d))
    rw [oaepLoop]
    split
    · next h =>
      subst h
      refine Settled.bind (once_settled ((inner_settled hread v).mono ?_)) fun i => ih _
      rintro ⟨d, rfl, hp⟩
      exact ⟨d, by rw [valuesOf_hit]; exact List.mem_cons_self, hp⟩
    · split
      · exact Settled.bind (once_settled label_settled) fun i => ih _
      · split
        · exact Settled.bind (once_settled phantom_settled) fun i => ih _
        · split
          · exact Settled.bind (once_settled phantom_settled) fun i => ih _
          · exact ih s

theorem hexOrBin_settled {hr : Bool} {d : SerdeData} {bad : Prop} : Settled (deserializeHexOrBin hr d) bad := by
  unfold deserializeHexOrBin
  split
  · next s => cases hexDecode s with
    | none => exact .err
    | some b => exact .ok
  · exact .ok
  · exact .err

theorem publicRead_settled {bad : Prop} (hr : Bool) (d : SerdeData) : Settled (PublicKey.serdeDeserialize hr d) bad := by
  unfold PublicKey.serdeDeserialize
  refine hexOrBin_settled.bind fun b => ?_
  have hret := fromPublicKeyDer_ret b
  cases h : PublicKey.fromPublicKeyDer b with
  | ok k => exact .ok
  | err e => exact .err
  | panic x => rw [h] at hret; exact hret.elim
  | loop => rw [h] at hret; exact hret.elim

theorem hexOrBin_holds {hr : Bool} {d : SerdeData} {b : Bytes} (h : deserializeHexOrBin hr d = .ok b) : Holds hr d b := by
  cases hr <;> cases d with
  | str s => first | exact .inl ⟨rfl, s, rfl, ((C63_byte_layer true).2.2.2.1 s b).mp h⟩ | cases h
  | bytes c => first | (cases h; exact .inr ⟨rfl, rfl⟩) | cases h

theorem holds_hexOrBin {hr : Bool} {d : SerdeData} {b : Bytes} (h : Holds hr d b) : deserializeHexOrBin hr d = .ok b := by
  rcases h with ⟨rfl, s, rfl, h⟩ | ⟨rfl, rfl⟩
  · exact ((C63_byte_layer true).2.2.2.1 s b).mpr h
  · rfl

theorem privateRead_settled (hr : Bool) (d : SerdeData) :
    Settled (PrivateKey.serdeDeserialize hr d) (∃ b, Holds hr d b ∧ (PrivateKey.fromPkcs8Der b).Panics) := by
  unfold PrivateKey.serdeDeserialize
  rcases hexOrBin_settled (bad := False) (hr := hr) (d := d) with ⟨b, hb⟩ | hb | ⟨_, h⟩
  · have hh := hexOrBin_holds hb
    rw [hb, Res.ok_bind]
    obtain ⟨h1, h2⟩ := C84_pkcs8 b
    by_cases hdoc : ∃ alg n e d p q, (alg = rsaEncryptionAlg ∨ alg = rsassaPssAlg) ∧ Document b alg n e d p q
    · obtain ⟨alg, n, e, dd, p, q, ha, hd⟩ := hdoc
      obtain ⟨g1, g2, g3⟩ := h1 alg n e dd p q ha hd
      by_cases c1 : FieldsOk n e dd p q
      · obtain ⟨k, hk, -⟩ := g1 c1
        rw [hk]; exact .ok
      · by_cases c2 : FieldsPanic n e dd p q
        · have hp := g2 c2
          refine .inr (.inr ⟨?_, b, hh, hp⟩)
          cases hk : PrivateKey.fromPkcs8Der b with
          | panic x => exact trivial
          | ok k => rw [hk] at hp; exact hp.elim
          | err e => rw [hk] at hp; exact hp.elim
          | loop => rw [hk] at hp; exact hp.elim
        · rw [g3 c1 c2]; exact .err
    · rw [h2 hdoc]; exact .err
  · rw [hb]; exact .err
  · exact h.elim

theorem oaepVisitMap_settled {α : Type} {read : SerdeData → Res α} {P : SerdeData → Prop}
    (hread : ∀ d, Settled (read d) (P d)) (m : SerdeMap) :
    Settled (oaepVisitMap read m) (∃ d, .data d ∈ valuesOf "inner" m ∧ P d) :=
  (oaepLoop_settled hread m {}).bind fun _ => required_settled.bind fun _ => required_settled.bind fun _ =>
    required_settled.bind fun _ => .ok

theorem panics_bind {α β : Type} {r : Res α} {f : α → Res β} (h : r.Panics) : (r >>= f).Panics := by
  cases r with
  | panic x => exact trivial
  | ok k => exact h.elim
  | err e => exact h.elim
  | loop => exact h.elim

theorem oaepLoop_panics {α : Type} {read : SerdeData → Res α} {d : SerdeData} (hd : (read d).Panics) :
    ∀ (m : SerdeMap) (s : OaepSeen α) (l : Option (Option Bytes)) (p q : Option Unit), s.inner = none →
      valuesOf "inner" m = [.data d] → Slot deserializeLabel s.label (valuesOf "label" m) l →
      Slot deserializePhantom s.phantom (valuesOf "phantom" m) p →
      Slot deserializePhantom s.mgPhantom (valuesOf "mg_phantom" m) q → (oaepLoop read m s).Panics
  | [], _, _, _, _, _, h, _, _, _ => by rw [valuesOf_nil] at h; cases h
  | (n, v) :: m, s, l, p, q, hs, h, hl, hp, hq => by
    rw [oaepLoop]
    split
    · next g =>
      subst g
      rw [valuesOf_hit] at h
      obtain ⟨rfl, -⟩ := List.cons.inj h
      rw [hs]
      exact panics_bind (panics_bind hd)
    · next g1 =>
      rw [valuesOf_miss g1] at h
      split
      · next g =>
        subst g
        rw [valuesOf_hit, slot_cons] at hl
        obtain ⟨mid, ho, hl⟩ := hl
        rw [valuesOf_miss (by decide)] at hp hq
        rw [ho, Res.ok_bind]
        exact oaepLoop_panics hd m _ l p q hs h hl hp hq
      · next g2 =>
        rw [valuesOf_miss g2] at hl
        split
        · next g =>
          subst g
          rw [valuesOf_hit, slot_cons] at hp
          obtain ⟨mid, ho, hp⟩ := hp
          rw [valuesOf_miss (by decide)] at hq
          rw [ho, Res.ok_bind]
          exact oaepLoop_panics hd m _ l p q hs h hl hp hq
        · next g3 =>
          rw [valuesOf_miss g3] at hp
          split
          · next g =>
            subst g
            rw [valuesOf_hit, slot_cons] at hq
            obtain ⟨mid, ho, hq⟩ := hq
            rw [ho, Res.ok_bind]
            exact oaepLoop_panics hd m _ l p q hs h hl hp hq
          · next g4 =>
            rw [valuesOf_miss g4] at hq
            exact oaepLoop_panics hd m s l p q hs h hl hp hq

theorem innerLoop_panics {α : Type} {read : SerdeData → Res α} {d : SerdeData} (hd : (read d).Panics) :
    ∀ (m : SerdeMap), valuesOf "inner" m = [.data d] → (innerLoop read m none).Panics
  | [], h => by rw [valuesOf_nil] at h; cases h
  | (n, v) :: m, h => by
    rw [innerLoop]
    split
    · next g =>
      subst g
      rw [valuesOf_hit] at h
      obtain ⟨rfl, -⟩ := List.cons.inj h
      exact panics_bind (panics_bind hd)
    · next g =>
      rw [valuesOf_miss g] at h
      exact innerLoop_panics hd m h

/-- C91: reading an encryption key accepts or refuses, with the one error; reading a decryption key may also crash, but only
if the document presents a key the PKCS#8 decoder crashes on, and a document that is otherwise in order then does. -/
theorem C91_verdict {D MGD : HashFn} (hr : Bool) (m : SerdeMap) :
    ((∃ k : oaep.EncryptingKey D MGD, oaep.EncryptingKey.serdeDeserialize hr m = .ok k) ∨
      (oaep.EncryptingKey.serdeDeserialize hr m : Res (oaep.EncryptingKey D MGD)) = .err .pkcs8) ∧
    ((∃ k, pkcs1v15.EncryptingKey.serdeDeserialize hr m = .ok k) ∨
      pkcs1v15.EncryptingKey.serdeDeserialize hr m = .err .pkcs8) ∧
    ((∃ k : oaep.DecryptingKey D MGD, oaep.DecryptingKey.serdeDeserialize hr m = .ok k) ∨
      (oaep.DecryptingKey.serdeDeserialize hr m : Res (oaep.DecryptingKey D MGD)) = .err .pkcs8 ∨
      ((oaep.DecryptingKey.serdeDeserialize hr m : Res (oaep.DecryptingKey D MGD)).Panics ∧
        ∃ d b, .data d ∈ valuesOf "inner" m ∧ Holds hr d b ∧ (PrivateKey.fromPkcs8Der b).Panics)) ∧
    ((∃ k, pkcs1v15.DecryptingKey.serdeDeserialize hr m = .ok k) ∨
      pkcs1v15.DecryptingKey.serdeDeserialize hr m = .err .pkcs8 ∨
      ((pkcs1v15.DecryptingKey.serdeDeserialize hr m).Panics ∧
        ∃ d b, .data d ∈ valuesOf "inner" m ∧ Holds hr d b ∧ (PrivateKey.fromPkcs8Der b).Panics)) ∧
    (∀ d b l, Holds hr d b → (PrivateKey.fromPkcs8Der b).Panics →
      (OaepDocument m d l → (oaep.DecryptingKey.serdeDeserialize hr m : Res (oaep.DecryptingKey D MGD)).Panics) ∧
      (GivesInner m d → (pkcs1v15.DecryptingKey.serdeDeserialize hr m).Panics)) := by
  have pub : ∀ d, Settled (PublicKey.serdeDeserialize hr d) False := publicRead_settled hr
  have noBad : ∀ {α : Type} {r : Res α}, Settled r (∃ d, FieldVal.data d ∈ valuesOf "inner" m ∧ False) →
      (∃ x, r = .ok x) ∨ r = .err .pkcs8 := by
    rintro α r (h | h | ⟨_, _, _, h⟩)
    · exact .inl h
    · exact .inr h
    · exact h.elim
  refine ⟨?_, ?_, ?_, ?_, ?_⟩
  · exact noBad ((oaepVisitMap_settled pub m).bind fun _ => .ok)
  · exact noBad ((innerLoop_settled pub m none).bind fun _ => required_settled.bind fun _ => .ok)
  · have : Settled (oaep.DecryptingKey.serdeDeserialize hr m : Res (oaep.DecryptingKey D MGD)) _ :=
      (oaepVisitMap_settled (privateRead_settled hr) m).bind fun _ => .ok
    exact this.mono fun ⟨d, h, b, h'⟩ => ⟨d, b, h, h'⟩
  · have : Settled (pkcs1v15.DecryptingKey.serdeDeserialize hr m) _ :=
      (innerLoop_settled (privateRead_settled hr) m none).bind fun _ => required_settled.bind fun _ => .ok
    exact this.mono fun ⟨d, h, b, h'⟩ => ⟨d, b, h, h'⟩
  · intro d b l hb hp
    have hread : (PrivateKey.serdeDeserialize hr d).Panics := by
      unfold PrivateKey.serdeDeserialize
      rw [holds_hexOrBin hb, Res.ok_bind]
      cases hk : PrivateKey.fromPkcs8Der b with
      | panic x => exact trivial
      | ok k => rw [hk] at hp; exact hp.elim
      | err e => rw [hk] at hp; exact hp.elim
      | loop => rw [hk] at hp; exact hp.elim
    constructor
    · rintro ⟨h1, h2, h3, h4⟩
      obtain ⟨o, ho⟩ : ∃ o, Slot deserializeLabel none (valuesOf "label" m) o := by
        rcases h2 with ⟨h, -⟩ | ⟨v, h, hv⟩
        · exact ⟨none, .inl ⟨h, rfl⟩⟩
        · exact ⟨some l, slot_some.mpr ⟨v, h, label_ok.mpr hv⟩⟩
      exact panics_bind (panics_bind (oaepLoop_panics hread m {} o (some ()) (some ()) rfl h1 ho
        (slot_some.mpr ⟨_, h3, rfl⟩) (slot_some.mpr ⟨_, h4, rfl⟩)))
    · intro h
      exact panics_bind (innerLoop_panics hread m h)

theorem documents_disjoint {b alg alg' : Bytes} {n e d p q n' e' : Nat} (ha : alg' = rsaEncryptionAlg ∨ alg' = rsassaPssAlg)
    (h : Document b alg n e d p q) (h' : PublicDocument b alg' n' e') : False := by
  obtain ⟨hl, dp, dq, qi, at', pk, hb⟩ := h
  have hb' := h'.1
  rw [hb] at hl hb'
  unfold oneAsymmetricKey subjectPublicKeyInfo at hb'
  unfold oneAsymmetricKey at hl
  have l1 := (der_maxLen _ _).mpr hl
  rw [hb'] at hl
  have l2 := (der_maxLen _ _).mpr hl
  have := der_inj' l1 l2 hb'
  rcases ha with rfl | rfl <;> simp [derInt, Spec.der, rsaEncryptionAlg, rsassaPssAlg, nullAlg] at this

/-- C91: what is read as a decryption key is never also read as an encryption key, in any of the formats and schemes. -/
theorem C91_secret_not_public {D MGD : HashFn} (hr : Bool) (m : SerdeMap) :
    (∀ k : pkcs1v15.DecryptingKey, pkcs1v15.DecryptingKey.serdeDeserialize hr m = .ok k →
      pkcs1v15.EncryptingKey.serdeDeserialize hr m = .err .pkcs8 ∧
      (oaep.EncryptingKey.serdeDeserialize hr m : Res (oaep.EncryptingKey D MGD)) = .err .pkcs8) := by
  intro k h
  obtain ⟨-, -, e3, e4⟩ := C91_accepts_exactly (D := D) (MGD := MGD) hr m
  obtain ⟨v1, v2, -⟩ := C91_verdict (D := D) (MGD := MGD) hr m
  obtain ⟨d, b, hi, hb, hk⟩ := (e4 k).mp h
  have no : ∀ k', pkcs1v15.EncryptingKey.serdeDeserialize hr m ≠ .ok k' := by
    intro k' h'
    obtain ⟨d', b', hi', hb', hk'⟩ := (e3 k').mp h'
    obtain rfl : d = d' := by
      unfold GivesInner at hi hi'
      rw [hi] at hi'
      simpa using hi'
    obtain rfl : b = b' := Res.ok.inj ((holds_hexOrBin hb).symm.trans (holds_hexOrBin hb'))
    have hd : ∃ alg n e d p q, (alg = rsaEncryptionAlg ∨ alg = rsassaPssAlg) ∧ Document b alg n e d p q := by
      by_contra hno
      rw [(C84_pkcs8 b).2 hno] at hk; cases hk
    have hd' : ∃ alg n e, (alg = rsaEncryptionAlg ∨ alg = rsassaPssAlg) ∧ PublicDocument b alg n e := by
      by_contra hno
      rw [(C84_public b).2 hno] at hk'; cases hk'
    obtain ⟨alg, n, e, d, p, q, -, hd⟩ := hd
    obtain ⟨alg', n', e', ha', hd'⟩ := hd'
    exact documents_disjoint ha' hd hd'
  constructor
  · rcases v2 with ⟨k', h'⟩ | h'
    · exact absurd h' (no k')
    · exact h'
  · rcases v1 with ⟨k', h'⟩ | h'
    · exact absurd ((C91_schemes hr m).1 k' h') (no _)
    · exact h'

theorem oaepDocument_unique {d d' : SerdeData} {l l' : Option Bytes} {m : SerdeMap} (h : OaepDocument m d l)
    (h' : OaepDocument m d' l') : d = d' ∧ l = l' := by
  obtain ⟨h1, h2, -⟩ := h
  obtain ⟨h1', h2', -⟩ := h'
  refine ⟨?_, ?_⟩
  · unfold GivesInner at h1 h1'
    rw [h1] at h1'
    simpa using h1'
  · rcases h2 with ⟨e, rfl⟩ | ⟨v, e, hl⟩ <;> rcases h2' with ⟨e', rfl⟩ | ⟨v', e', hl'⟩
    · rfl
    · rw [e] at e'; cases e'
    · rw [e] at e'; cases e'
    · rw [e] at e'
      obtain ⟨rfl, -⟩ := List.cons.inj e'
      exact Res.ok.inj ((label_ok.mpr hl).symm.trans (label_ok.mpr hl'))

theorem written_oaepEnc {D MGD D' MGD' : HashFn} {hr : Bool} {k : oaep.EncryptingKey D MGD} {m : SerdeMap}
    {k' : oaep.EncryptingKey D' MGD'} (w : k.serdeSerialize hr = .ok m)
    (r : oaep.EncryptingKey.serdeDeserialize hr m = .ok k') :
    k'.label = k.label ∧ ∃ d, k.inner.serdeSerialize hr = .ok d ∧ PublicKey.serdeDeserialize hr d = .ok k'.inner := by
  unfold oaep.EncryptingKey.serdeSerialize at w
  obtain ⟨d, hd, w⟩ := Res.bind_eq_ok.mp w
  cases w
  obtain ⟨d', doc, hk⟩ := oaepEnc_ok.mp r
  obtain ⟨rfl, h⟩ := oaepDocument_unique doc (oaep_shuffled (d := d) (l := k.label) (extra := []) (by simp) (.refl _))
  exact ⟨h, d', hd, hk⟩

theorem written_oaepDec {D MGD D' MGD' : HashFn} {hr : Bool} {k : oaep.DecryptingKey D MGD} {m : SerdeMap}
    {k' : oaep.DecryptingKey D' MGD'} (w : k.serdeSerialize hr = .ok m)
    (r : oaep.DecryptingKey.serdeDeserialize hr m = .ok k') :
    k'.label = k.label ∧ ∃ d, k.inner.serdeSerialize hr = .ok d ∧ PrivateKey.serdeDeserialize hr d = .ok k'.inner := by
  unfold oaep.DecryptingKey.serdeSerialize at w
  obtain ⟨d, hd, w⟩ := Res.bind_eq_ok.mp w
  cases w
  obtain ⟨d', doc, hk⟩ := oaepDec_ok.mp r
  obtain ⟨rfl, h⟩ := oaepDocument_unique doc (oaep_shuffled (d := d) (l := k.label) (extra := []) (by simp) (.refl _))
  exact ⟨h, d', hd, hk⟩

/-- C91: keys of any two hash functions with the same document have the same numbers and the same label: the document
determines everything but the hash functions. -/
theorem C91_document_determines {D MGD D' MGD' : HashFn} (hr : Bool) (m : SerdeMap) :
    (∀ (a : oaep.DecryptingKey D MGD) (b : oaep.DecryptingKey D' MGD'), Portable a.inner → Portable b.inner →
      a.serdeSerialize hr = .ok m → b.serdeSerialize hr = .ok m → a.inner.eq b.inner = true ∧ a.label = b.label) ∧
    (∀ (a : oaep.EncryptingKey D MGD) (b : oaep.EncryptingKey D' MGD'), a.inner.Coherent → b.inner.Coherent →
      checkPublic a.inner = .ok () → checkPublic b.inner = .ok () →
      a.serdeSerialize hr = .ok m → b.serdeSerialize hr = .ok m → a.inner.eq b.inner = true ∧ a.label = b.label) := by
  constructor
  · intro a b ha hb wa wb
    obtain ⟨ma, ea, ra⟩ := (C91_round_trip (D := D) (MGD := MGD) (D' := D) (MGD' := MGD) hr).1 a ha
    obtain ⟨mb, eb, rb⟩ := (C91_round_trip (D := D') (MGD := MGD') (D' := D) (MGD' := MGD) hr).1 b hb
    rw [wa] at ea; rw [wb] at eb
    cases ea; cases eb
    obtain ⟨k, r1, e1, -, l1⟩ := ra [] m (by simp) (by simp)
    obtain ⟨k', r2, e2, -, l2⟩ := rb [] m (by simp) (by simp)
    rw [r1] at r2; cases r2
    exact ⟨priv_eq_trans (priv_eq_symm e1) e2, l1.symm.trans l2⟩
  · intro a b ha hb va vb wa wb
    obtain ⟨ma, ea, ra⟩ := (C91_round_trip (D := D) (MGD := MGD) (D' := D) (MGD' := MGD) hr).2.1 a ha va
    obtain ⟨mb, eb, rb⟩ := (C91_round_trip (D := D') (MGD := MGD') (D' := D) (MGD' := MGD) hr).2.1 b hb vb
    rw [wa] at ea; rw [wb] at eb
    cases ea; cases eb
    obtain ⟨k, r1, e1, -, l1⟩ := ra [] m (by simp) (by simp)
    obtain ⟨k', r2, e2, -, l2⟩ := rb [] m (by simp) (by simp)
    rw [r1] at r2; cases r2
    obtain ⟨x1, x2⟩ := pub_eq e1
    obtain ⟨y1, y2⟩ := pub_eq e2
    exact ⟨pub_eq_intro (x1.symm.trans y1) (x2.symm.trans y2), l1.symm.trans l2⟩

/-- C91: what an encryption key read from its document encrypts, a decryption key read from its own document decrypts. -/
theorem C91_still_decrypts {D MGD : HashFn} (hr hr' : Bool) (k : PrivateKey) (hk : Portable k) (label : Option Bytes)
    (hM : 0 < MGD.outLen) (h5 : 11 ≤ octetLen k.pub.n.val ∨ 5 ≤ D.outLen) (me md : SerdeMap)
    (e : oaep.EncryptingKey D MGD) (d : oaep.DecryptingKey D MGD)
    (we : (⟨k.toPublicKey, label⟩ : oaep.EncryptingKey D MGD).serdeSerialize hr = .ok me)
    (re : oaep.EncryptingKey.serdeDeserialize hr me = .ok e)
    (wd : (⟨k, label⟩ : oaep.DecryptingKey D MGD).serdeSerialize hr' = .ok md)
    (rd : oaep.DecryptingKey.serdeDeserialize hr' md = .ok d)
    {σ : Type} (R : RngImpl σ) (s s' : σ) (msg ct : Bytes) (henc : e.encryptWithRng R s msg = .ok (ct, s')) :
    d.decrypt ct = .ok msg ∧
    ∀ {τ : Type} (R' : RngImpl τ) (fuel' : Nat) (t : τ), BlindingOk R' k.pub.n.val fuel' (some t) →
      d.decryptWithRng R' fuel' t ct = .ok msg := by
  obtain ⟨le, x, w1, r1⟩ := written_oaepEnc we re
  obtain ⟨ld, y, w2, r2⟩ := written_oaepDec wd rd
  have je : Journey (.secret k) (.open e.inner) :=
    .tail (.single (.publish k)) (.transport (.serdePublic hr w1 r1))
  have jd : Journey (.secret k) (.secret d.inner) := .single (.transport (.serde hr' w2 r2))
  have cd := C90_journey k hk _ jd
  have ce := C90_journey k hk _ je
  have na := (pub_eq (priv_eq cd.1).1).1
  have heq : e.inner.eq d.inner.pub = true := pub_eq_trans ce.1 (priv_eq (priv_eq_symm cd.1)).1
  obtain ⟨-, h2, -⟩ := C59_equal_public_keys ce.2.1 cd.2.correct.coherent heq ce.2.2 (checkPublic_of_validate cd.2.accepted)
  unfold oaep.EncryptingKey.encryptWithRng at henc
  rw [oaep.encryptDigest_agree, h2 R s msg D MGD _ hM] at henc
  rw [le] at henc
  have dec : ∀ {τ : Type} (R' : RngImpl τ) (fuel' : Nat) (rng : Option τ), BlindingOk R' d.inner.pub.n.val fuel' rng →
      oaep.decryptDigest R' fuel' D MGD rng d.inner ct label = .ok msg := fun R' fuel' rng hb =>
    (C14_oaep_round_trip R s s' cd.2.correct D MGD hM label (by rw [na]; exact h5) msg ct henc R' fuel' rng hb).2
  unfold oaep.DecryptingKey.decrypt oaep.DecryptingKey.decryptWithRng
  rw [ld]
  exact ⟨dec dummyRng 0 none trivial, fun R' fuel' t hb => dec R' fuel' (some t) (by rw [na]; exact hb)⟩

/-! ### Examples -/

/-- The document of a labelled key for one pair of hash functions, its fields out of order, with a field of a newer version. -/
def Ex.shuffledDocument : SerdeMap :=
  match Ex.key.serdeSerialize true with
  | .ok d => [("version", .other), ("mg_phantom", .unit), ("label", .some [108, 98, 108]), ("phantom", .unit),
      ("inner", .data d)]
  | _ => []

/- Read for other hash functions, and as a PKCS#1 v1.5 key; twice the label, or an octet of 256, is refused. -/
example :
    (match (oaep.DecryptingKey.serdeDeserialize true Ex.shuffledDocument : Res (oaep.DecryptingKey Ex.hash4 Ex.hash4)) with
      | .ok k => k.inner.eq Ex.key && decide (k.label = some [108, 98, 108]) | _ => false) = true ∧
    (match pkcs1v15.DecryptingKey.serdeDeserialize true Ex.shuffledDocument with
      | .ok k => k.inner.eq Ex.key | _ => false) = true ∧
    (match (oaep.DecryptingKey.serdeDeserialize true (("label", .none) :: Ex.shuffledDocument) :
        Res (oaep.DecryptingKey Ex.hash4 Ex.hash4)) with | .err e => decide (e = .pkcs8) | _ => false) = true ∧
    (match (oaep.DecryptingKey.serdeDeserialize true (("label", .some [256]) :: withoutLabel Ex.shuffledDocument) :
        Res (oaep.DecryptingKey Ex.hash4 Ex.hash4)) with | .err e => decide (e = .pkcs8) | _ => false) = true := by
  refine ⟨?_, ?_, ?_, ?_⟩ <;> decide +kernel

/- A document in order around a key with the factor 1 crashes the reader. -/
example : (PrivateKey.fromPkcs8Der (privateKeyInfo rsaEncryptionAlg (rsaPrivateKey 15 3 3 1 15 0 0 0))).Panics ∧
    (oaep.DecryptingKey.serdeDeserialize false [("inner", .data (.bytes (privateKeyInfo rsaEncryptionAlg
      (rsaPrivateKey 15 3 3 1 15 0 0 0)))), ("phantom", .unit), ("mg_phantom", .unit)] :
      Res (oaep.DecryptingKey Ex.hash4 Ex.hash4)).Panics := by decide +kernel

/- A run through the hypotheses of `C91_still_decrypts`, to the message. -/
example : Portable Ex.key ∧ 11 ≤ octetLen Ex.key.pub.n.val := ⟨Ex.key_portable, by decide +kernel⟩

example : (match (⟨Ex.key.toPublicKey, some [108]⟩ : oaep.EncryptingKey Ex.hash4 Ex.hash4).serdeSerialize true,
      (⟨Ex.key, some [108]⟩ : oaep.DecryptingKey Ex.hash4 Ex.hash4).serdeSerialize false with
    | .ok me, .ok md =>
      (match (oaep.EncryptingKey.serdeDeserialize true me : Res (oaep.EncryptingKey Ex.hash4 Ex.hash4)),
          (oaep.DecryptingKey.serdeDeserialize false md : Res (oaep.DecryptingKey Ex.hash4 Ex.hash4)) with
        | .ok e, .ok d =>
          (match e.encryptWithRng Ex.countingRng 5 [1, 2, 3] with
            | .ok (ct, _) => decide (d.decrypt ct = .ok [1, 2, 3]) &&
                decide ((⟨d.inner, none⟩ : oaep.DecryptingKey Ex.hash4 Ex.hash4).decrypt ct = .err .decryption)
            | _ => false)
        | _, _ => false)
    | _, _ => false) = true := by decide +kernel

/-- A labelled decrypting key, written to a document for people and for machines. -/
example := fun hr => (C91_round_trip (D := Ex.hash4) (MGD := Ex.hash4) (D' := Ex.hash4) (MGD' := Ex.hash4) hr).1
  ⟨Ex.key, some [108]⟩ Ex.key_portable
example := fun hr => (C91_positional (D := Ex.hash4) (MGD := Ex.hash4) (D' := Ex.hash4) (MGD' := Ex.hash4) hr _
  (Or.inr rfl)).1 ⟨Ex.key, some [108]⟩ Ex.key_portable

end RSA
