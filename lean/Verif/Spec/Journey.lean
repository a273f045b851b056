import Verif.Model.Serde
import Verif.Model.Pkcs1
import Verif.Spec.Key
import Mathlib.Logic.Relation

/-
What may happen to a key object between its making and its use: it is written to a document and read back, its CRT values
are computed or cleared, it is taken apart and put together again, its public half is taken.
-/
namespace RSA.Spec

/-- A key object of either kind. -/
inductive KeyObj
  | secret (k : PrivateKey)
  | open (k : PublicKey)

/-- A key is written to a document of some format and the document is read back. -/
inductive Transport : KeyObj → KeyObj → Prop
  | pkcs8 {k k' : PrivateKey} {b : Bytes} (w : k.toPkcs8Der = .ok b) (r : PrivateKey.fromPkcs8Der b = .ok k') :
      Transport (.secret k) (.secret k')
  | pkcs1 {k k' : PrivateKey} {b : Bytes} (w : k.toPkcs1Der = .ok b) (r : PrivateKey.fromPkcs1Der b = .ok k') :
      Transport (.secret k) (.secret k')
  | serde {k k' : PrivateKey} (humanReadable : Bool) {d : SerdeData} (w : k.serdeSerialize humanReadable = .ok d)
      (r : PrivateKey.serdeDeserialize humanReadable d = .ok k') : Transport (.secret k) (.secret k')
  | spki {k k' : PublicKey} {b : Bytes} (w : k.toPublicKeyDer = .ok b) (r : PublicKey.fromPublicKeyDer b = .ok k') :
      Transport (.open k) (.open k')
  | pkcs1Public {k k' : PublicKey} {b : Bytes} (w : k.toPkcs1Der = .ok b) (r : PublicKey.fromPkcs1Der b = .ok k') :
      Transport (.open k) (.open k')
  | serdePublic {k k' : PublicKey} (humanReadable : Bool) {d : SerdeData} (w : k.serdeSerialize humanReadable = .ok d)
      (r : PublicKey.serdeDeserialize humanReadable d = .ok k') : Transport (.open k) (.open k')

/-- One step in the life of a key. -/
inductive Move : KeyObj → KeyObj → Prop
  | transport {a b : KeyObj} (t : Transport a b) : Move a b
  | precompute {k k' : PrivateKey} (h : k.precompute = .ok k') : Move (.secret k) (.secret k')
  | clear (k : PrivateKey) : Move (.secret k) (.secret k.clearPrecomputed)
  | rebuild {k k' : PrivateKey} (n : OddUint) (hn : n.toBoxedUint = k.pub.n)
      (h : PrivateKey.fromComponents n k.pub.e k.d k.primes = .ok k') : Move (.secret k) (.secret k')
  | publish (k : PrivateKey) : Move (.secret k) (.open k.toPublicKey)
  | rebuildPublic {k k' : PublicKey} (h : PublicKey.new k.n k.e = .ok k' ∨ PublicKey.newUnchecked k.n k.e = .ok k') :
      Move (.open k) (.open k')

/-- Any number of steps. -/
abbrev Journey : KeyObj → KeyObj → Prop := Relation.ReflTransGen Move

/-- A journey in which the key was at least once written and read back. -/
def Travelled (a b : KeyObj) : Prop := ∃ x y, Journey a x ∧ Transport x y ∧ Journey y b

/-- A correct two-prime key that the crate accepts, with `d` below the modulus and stored wide enough. -/
structure Portable (k : PrivateKey) : Prop where
  correct : WellFormed k
  accepted : k.validate = .ok ()
  two : ∃ p q, k.primes = [p, q] ∧ p.prec ≤ k.d.prec ∧ q.prec ≤ k.d.prec
  width : k.d.prec < 2 ^ 23
  below : k.d.val < k.pub.n.val

/-- The object is a copy of the key `k`: same numbers, and fit for use. -/
def CopyOf (k : PrivateKey) : KeyObj → Prop
  | .secret k' => k'.eq k = true ∧ Portable k'
  | .open k' => k'.eq k.pub = true ∧ k'.Coherent ∧ checkPublic k' = .ok ()

end RSA.Spec
