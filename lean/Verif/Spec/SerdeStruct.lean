import Verif.Model.SerdeStruct

/- What a document describing an encryption key must contain, field by field. -/
namespace RSA.Spec

/-- The values the document gives for a name, in order. -/
def valuesOf (name : String) (m : SerdeMap) : List FieldVal := (m.filter fun f => f.1 = name).map Prod.snd

/-- A value that says "this label": nothing or a unit for no label, the octets as numbers otherwise. -/
def SaysLabel (v : FieldVal) : Option Bytes → Prop
  | none => v = .none ∨ v = .unit
  | some b => v = .some (b.map UInt8.toNat)

/-- The label a document gives: at most one value, and none at all means no label. -/
def GivesLabel (m : SerdeMap) (l : Option Bytes) : Prop :=
  (valuesOf "label" m = [] ∧ l = none) ∨ ∃ v, valuesOf "label" m = [v] ∧ SaysLabel v l

/-- Exactly one value for `inner`, being this text or these octets. -/
def GivesInner (m : SerdeMap) (d : SerdeData) : Prop := valuesOf "inner" m = [.data d]

/-- An OAEP key document: the key, the label, and two empty markers that say nothing about the hash functions. -/
def OaepDocument (m : SerdeMap) (d : SerdeData) (l : Option Bytes) : Prop :=
  GivesInner m d ∧ GivesLabel m l ∧ valuesOf "phantom" m = [.unit] ∧ valuesOf "mg_phantom" m = [.unit]

/-- Names the OAEP key types give a meaning to. -/
def oaepNames : List String := ["inner", "label", "phantom", "mg_phantom"]

/-- A writer that has one word for "nothing" and for "unit", as JSON has `null`. -/
def nulled (v : FieldVal) : FieldVal := if v = .none then .unit else v

/-- The document without its `label` fields. -/
def withoutLabel (m : SerdeMap) : SerdeMap := m.filter fun f => f.1 ≠ "label"

end RSA.Spec
