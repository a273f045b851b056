import Verif.Model.Prelude

/-
Hexadecimal text (RFC 4648 §8), by table, independent of the model.
-/
namespace RSA.Spec

/-- The sixteen digits. -/
def hexAlphabet : List Char := ['0', '1', '2', '3', '4', '5', '6', '7', '8', '9', 'a', 'b', 'c', 'd', 'e', 'f']

/-- The same in upper case. -/
def hexAlphabetUpper : List Char := ['0', '1', '2', '3', '4', '5', '6', '7', '8', '9', 'A', 'B', 'C', 'D', 'E', 'F']

/-- `c` is a hexadecimal digit of value `v`, in either case. -/
def IsHexDigit (c : Char) (v : Nat) : Prop := hexAlphabet[v]? = some c ∨ hexAlphabetUpper[v]? = some c

/-- `s` spells the octets `b`, two digits for each, high half first, in any mixture of cases. -/
inductive Spells : List Char → Bytes → Prop
  | nil : Spells [] []
  | cons {c d : Char} {x : UInt8} {s : List Char} {b : Bytes} (hc : IsHexDigit c (x.toNat / 16))
      (hd : IsHexDigit d (x.toNat % 16)) (h : Spells s b) : Spells (c :: d :: s) (x :: b)

/-- Only lower-case digits. -/
def Lower (s : List Char) : Prop := ∀ c ∈ s, c ∈ hexAlphabet

/-- Only upper-case digits. -/
def Upper (s : List Char) : Prop := ∀ c ∈ s, c ∈ hexAlphabetUpper

end RSA.Spec
