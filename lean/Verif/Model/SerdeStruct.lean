import Verif.Model.Serde

/- `#[derive(Serialize, Deserialize)]` of the encryption key types: src/pkcs1v15/{encrypting,decrypting}_key.rs,
src/oaep/{encrypting,decrypting}_key.rs. The derive macro is serde's; what it generates is written out here. -/
namespace RSA

/-- A value in serde's data model, as far as these types tell values apart: text or octets, nothing, a present sequence of
numbers, a unit (struct), anything else. -/
inductive FieldVal
  | data (d : SerdeData)
  | none
  | some (xs : List Nat)
  | unit
  | other
  deriving DecidableEq, Repr

/-- A struct or map: named values in document order. -/
abbrev SerdeMap := List (String × FieldVal)

/-- `Option<Box<[u8]>>`: nothing, or a sequence of numbers. -/
def serializeLabel (l : Option Bytes) : FieldVal :=
  match l with
  | none => .none
  | some b => .some (b.map UInt8.toNat)

/-- The numbers of a sequence as `u8`, refused from 256 on. -/
def bytesOfNumbers : List Nat → Res Bytes
  | [] => .ok []
  | x :: xs => if x < 256 then do
      let r ← bytesOfNumbers xs
      .ok (UInt8.ofNat x :: r)
    else .err .pkcs8

/-- `Option<Box<[u8]>>::deserialize` (a unit counts as nothing). -/
def deserializeLabel : FieldVal → Res (Option Bytes)
  | .none => .ok none
  | .unit => .ok none
  | .some xs => do
    let b ← bytesOfNumbers xs
    .ok (some b)
  | _ => .err .pkcs8

/-- The value of the field `inner`, read by the key type's own `Deserialize`. -/
def deserializeInner {α : Type} (read : SerdeData → Res α) : FieldVal → Res α
  | .data d => read d
  | _ => .err .pkcs8

/-- `PhantomData::deserialize`. -/
def deserializePhantom : FieldVal → Res Unit
  | .unit => .ok ()
  | _ => .err .pkcs8

/-- A field that must not have been seen before (`duplicate_field`). -/
def once {α : Type} (seen : Option α) (r : Res α) : Res (Option α) :=
  match seen with
  | some _ => .err .pkcs8
  | none => do
    let x ← r
    .ok (some x)

/-- `missing_field`. -/
def required {α : Type} : Option α → Res α
  | some x => .ok x
  | none => .err .pkcs8

/-- The generated `visit_map` of a struct with the single field `inner`: other names are skipped with their values. -/
def innerLoop {α : Type} (read : SerdeData → Res α) : SerdeMap → Option α → Res (Option α)
  | [], i => .ok i
  | (name, v) :: rest, i =>
    if name = "inner" then do
      let i ← once i (deserializeInner read v)
      innerLoop read rest i
    else innerLoop read rest i

/-- What the generated `visit_map` of an OAEP key has seen so far. -/
structure OaepSeen (α : Type) where
  inner : Option α := none
  label : Option (Option Bytes) := none
  phantom : Option Unit := none
  mgPhantom : Option Unit := none

/-- The loop of the generated `visit_map` of an OAEP key. -/
def oaepLoop {α : Type} (read : SerdeData → Res α) : SerdeMap → OaepSeen α → Res (OaepSeen α)
  | [], s => .ok s
  | (name, v) :: rest, s =>
    if name = "inner" then do
      let i ← once s.inner (deserializeInner read v)
      oaepLoop read rest { s with inner := i }
    else if name = "label" then do
      let l ← once s.label (deserializeLabel v)
      oaepLoop read rest { s with label := l }
    else if name = "phantom" then do
      let p ← once s.phantom (deserializePhantom v)
      oaepLoop read rest { s with phantom := p }
    else if name = "mg_phantom" then do
      let p ← once s.mgPhantom (deserializePhantom v)
      oaepLoop read rest { s with mgPhantom := p }
    else oaepLoop read rest s

/-- The generated `visit_map` of an OAEP key: an absent `label` is `None`, any other absent field is refused. -/
def oaepVisitMap {α : Type} (read : SerdeData → Res α) (m : SerdeMap) : Res (α × Option Bytes) := do
  let s ← oaepLoop read m {}
  let i ← required s.inner
  let l := s.label.getD none
  let _ ← required s.phantom
  let _ ← required s.mgPhantom
  .ok (i, l)

/-- The generated `visit_seq` of an OAEP key, for formats without names: the fields in order of declaration. -/
def oaepVisitSeq {α : Type} (read : SerdeData → Res α) : List FieldVal → Res (α × Option Bytes)
  | i :: l :: p :: q :: _ => do
    let i ← deserializeInner read i
    let l ← deserializeLabel l
    deserializePhantom p
    deserializePhantom q
    .ok (i, l)
  | _ => .err .pkcs8

/-- The generated `visit_seq` of a struct with one field. -/
def innerVisitSeq {α : Type} (read : SerdeData → Res α) : List FieldVal → Res α
  | i :: _ => deserializeInner read i
  | _ => .err .pkcs8

namespace pkcs1v15

/-- src/pkcs1v15/encrypting_key.rs:12 `derive(Serialize)`. -/
def EncryptingKey.serdeSerialize (hr : Bool) (k : EncryptingKey) : Res SerdeMap := do
  let i ← k.inner.serdeSerialize hr
  .ok [("inner", .data i)]

/-- src/pkcs1v15/encrypting_key.rs:12 `derive(Deserialize)`. -/
def EncryptingKey.serdeDeserialize (hr : Bool) (m : SerdeMap) : Res EncryptingKey := do
  let i ← innerLoop (PublicKey.serdeDeserialize hr) m none
  let i ← required i
  .ok ⟨i⟩

/-- The same for formats without names. -/
def EncryptingKey.serdeDeserializeSeq (hr : Bool) (l : List FieldVal) : Res EncryptingKey := do
  let i ← innerVisitSeq (PublicKey.serdeDeserialize hr) l
  .ok ⟨i⟩

/-- src/pkcs1v15/decrypting_key.rs:17 `derive(Serialize)`. -/
def DecryptingKey.serdeSerialize (hr : Bool) (k : DecryptingKey) : Res SerdeMap := do
  let i ← k.inner.serdeSerialize hr
  .ok [("inner", .data i)]

/-- src/pkcs1v15/decrypting_key.rs:17 `derive(Deserialize)`. -/
def DecryptingKey.serdeDeserialize (hr : Bool) (m : SerdeMap) : Res DecryptingKey := do
  let i ← innerLoop (PrivateKey.serdeDeserialize hr) m none
  let i ← required i
  .ok ⟨i⟩

/-- The same for formats without names. -/
def DecryptingKey.serdeDeserializeSeq (hr : Bool) (l : List FieldVal) : Res DecryptingKey := do
  let i ← innerVisitSeq (PrivateKey.serdeDeserialize hr) l
  .ok ⟨i⟩

end pkcs1v15

namespace oaep
variable {D MGD : HashFn}

/-- src/oaep/encrypting_key.rs:14 `derive(Serialize)`: `inner`, `label` and the two phantom fields. -/
def EncryptingKey.serdeSerialize (hr : Bool) (k : EncryptingKey D MGD) : Res SerdeMap := do
  let i ← k.inner.serdeSerialize hr
  .ok [("inner", .data i), ("label", serializeLabel k.label), ("phantom", .unit), ("mg_phantom", .unit)]

/-- src/oaep/encrypting_key.rs:14 `derive(Deserialize)`. -/
def EncryptingKey.serdeDeserialize (hr : Bool) (m : SerdeMap) : Res (EncryptingKey D MGD) := do
  let (i, l) ← oaepVisitMap (PublicKey.serdeDeserialize hr) m
  .ok ⟨i, l⟩

/-- The same for formats without names. -/
def EncryptingKey.serdeDeserializeSeq (hr : Bool) (v : List FieldVal) : Res (EncryptingKey D MGD) := do
  let (i, l) ← oaepVisitSeq (PublicKey.serdeDeserialize hr) v
  .ok ⟨i, l⟩

/-- src/oaep/decrypting_key.rs:19 `derive(Serialize)`. -/
def DecryptingKey.serdeSerialize (hr : Bool) (k : DecryptingKey D MGD) : Res SerdeMap := do
  let i ← k.inner.serdeSerialize hr
  .ok [("inner", .data i), ("label", serializeLabel k.label), ("phantom", .unit), ("mg_phantom", .unit)]

/-- src/oaep/decrypting_key.rs:19 `derive(Deserialize)`. -/
def DecryptingKey.serdeDeserialize (hr : Bool) (m : SerdeMap) : Res (DecryptingKey D MGD) := do
  let (i, l) ← oaepVisitMap (PrivateKey.serdeDeserialize hr) m
  .ok ⟨i, l⟩

/-- The same for formats without names. -/
def DecryptingKey.serdeDeserializeSeq (hr : Bool) (v : List FieldVal) : Res (DecryptingKey D MGD) := do
  let (i, l) ← oaepVisitSeq (PrivateKey.serdeDeserialize hr) v
  .ok ⟨i, l⟩

end oaep

end RSA
