import Verif.Model.Gen
import Verif.Spec.Rfc8017
import Mathlib.Topology.Algebra.InfiniteSum.ENNReal

/-
What it means that an operation uses a generator only by calling it, in terms of the calls made and the answers received
(C96).
-/
namespace RSA.Spec

/-- A call of a generator with the answer received; `none` is a failure of the generator. -/
inductive Call
  | octets (n : Nat) (answer : Option Bytes)
  | number (n : Nat) (answer : Option Nat)
  deriving DecidableEq

/-- The generator did not answer. -/
def Call.Failed : Call → Prop
  | .octets _ a => a = none
  | .number _ a => a = none

/-- These calls, in this order, with these answers, lead the generator from one state to another. -/
inductive Calls {σ : Type} (R : RngImpl σ) : σ → List Call → σ → Prop
  | nil (s : σ) : Calls R s [] s
  | octets (s : σ) (n : Nat) (cs : List Call) (s' : σ) (h : Calls R (R.fill s n).2 cs s') :
      Calls R s (.octets n (R.fill s n).1 :: cs) s'
  | number (s : σ) (n : Nat) (cs : List Call) (s' : σ) (h : Calls R (R.randMod s n).2 cs s') :
      Calls R s (.number n (R.randMod s n).1 :: cs) s'

/-- An operation with any generator in any state. -/
abbrev Op (α : Type) := ∀ σ : Type, RngImpl σ → Gen σ α

/-- The operation gives `r` whenever the generator, whatever it is, answers the calls `cs` as recorded, and leaves the
generator where these calls lead. -/
def Gives {α : Type} (op : Op α) (cs : List Call) (r : Res α) : Prop :=
  ∀ (σ : Type) (R : RngImpl σ) (s s' : σ), Calls R s cs s' → op σ R s = (r, s')

/-- The operation only calls the generator: from every state it makes some calls, of the kind `L`, and gives what their
answers determine; after a failed call there is no other, and the outcome is the generator error. -/
def OnlyCalls {α : Type} (L : List Call → Prop) (op : Op α) : Prop :=
  ∀ (σ : Type) (R : RngImpl σ) (s : σ), ∃ cs, Calls R s cs (op σ R s).2 ∧ Gives op cs (op σ R s).1 ∧ L cs ∧
    ((∀ c ∈ cs, ¬ c.Failed) ∨
      (∃ pre c, cs = pre ++ [c] ∧ (∀ c ∈ pre, ¬ c.Failed) ∧ c.Failed) ∧ (op σ R s).1 = .err .rng)

/-- No calls. -/
def Quiet (cs : List Call) : Prop := cs = []

/-- Only single octets. -/
def Singles (cs : List Call) : Prop := ∀ c ∈ cs, ∃ a, c = .octets 1 a

/-- One string of `n` octets. -/
def Once (n : Nat) (cs : List Call) : Prop := ∃ a, cs = [.octets n a]

/-- One string of `n` octets, then single ones. -/
def Padding (n : Nat) (cs : List Call) : Prop := ∃ a rest, cs = .octets n a :: rest ∧ Singles rest

/-- Numbers below `n`, if there is blinding. -/
def Blinds (blinding : Bool) (n : Nat) (cs : List Call) : Prop :=
  (blinding = false → cs = []) ∧ ∀ c ∈ cs, ∃ a, c = .number n a

/-- The salt, then what blinding needs. -/
def Salts (saltLen : Nat) (blinding : Bool) (n : Nat) (cs : List Call) : Prop :=
  ∃ a rest, cs = .octets saltLen a :: rest ∧ Blinds blinding n rest

/-- The same outcome, and after success the same generator. -/
def Same {σ α : Type} (x : Res α × σ) : Res (α × σ) → Prop
  | .ok (a, s) => x = (.ok a, s)
  | .err e => x.1 = .err e
  | .panic k => x.1 = .panic k
  | .loop => x.1 = .loop

/-- What a generator can be asked for. -/
inductive Request
  | encryptPkcs1v15 (fuel : Nat) (key : PublicKey) (msg : Bytes)
  | encryptOaep (key : PublicKey) (msg : Bytes) (digest mgfDigest : DigestState) (label : Option Bytes)
  | encryptOaepTyped (D MGD : HashFn) (key : PublicKey) (msg : Bytes) (label : Option Bytes)
  | decryptPkcs1v15 (fuel : Nat) (blinding : Bool) (key : PrivateKey) (ct : Bytes)
  | decryptOaep (fuel : Nat) (blinding : Bool) (key : PrivateKey) (ct : Bytes) (digest mgfDigest : DigestState)
      (label : Option Bytes)
  | decryptOaepTyped (fuel : Nat) (D MGD : HashFn) (blinding : Bool) (key : PrivateKey) (ct : Bytes) (label : Option Bytes)
  | signPkcs1v15 (fuel : Nat) (S : pkcs1v15.Pkcs1v15Sign) (blinding : Bool) (key : PrivateKey) (hashed : Bytes)
  | signPkcs1v15Typed (fuel : Nat) (blinding : Bool) (key : PrivateKey) (pfx hashed : Bytes)
  | signPss (fuel : Nat) (blinding : Bool) (key : PrivateKey) (hashed : Bytes) (saltLen : Nat) (digest : DigestState)
  | signPssTyped (fuel : Nat) (D : HashFn) (blinding : Bool) (key : PrivateKey) (hashed : Bytes) (saltLen : Nat)

/-- The operation behind a request. -/
def Request.op : Request → Op Bytes
  | .encryptPkcs1v15 fuel key msg => fun _ R => gen.pkcs1v15Encrypt R fuel key msg
  | .encryptOaep key msg dg mg label => fun _ R => gen.oaepSchemeEncrypt R key msg dg mg label
  | .encryptOaepTyped D MGD key msg label => fun _ R => gen.oaepSchemeEncryptDigest R D MGD key msg label
  | .decryptPkcs1v15 fuel b key ct => fun _ R => gen.pkcs1v15Decrypt R fuel b key ct
  | .decryptOaep fuel b key ct dg mg label => fun _ R => gen.oaepSchemeDecrypt R fuel b key ct dg mg label
  | .decryptOaepTyped fuel D MGD b key ct label => fun _ R => gen.oaepSchemeDecryptDigest R fuel D MGD b key ct label
  | .signPkcs1v15 fuel S b key hashed => fun _ R => gen.pkcs1v15SchemeSign R fuel S b key hashed
  | .signPkcs1v15Typed fuel b key pfx hashed => fun _ R => gen.pkcs1v15Sign R fuel b key pfx hashed
  | .signPss fuel b key hashed saltLen dg => fun _ R => gen.pssSign R fuel b key hashed saltLen dg
  | .signPssTyped fuel D b key hashed saltLen => fun _ R => gen.pssSignDigest R fuel D b key hashed saltLen

/-- The same request as the rest of the development sees it, with the generator handed over by value. -/
def Request.outcome {σ : Type} (R : RngImpl σ) (s : σ) : Request → Res Bytes
  | .encryptPkcs1v15 fuel key msg => (pkcs1v15.encrypt R fuel s key msg >>= fun x => .ok x.1)
  | .encryptOaep key msg dg mg label => (oaep.encrypt R s key msg dg mg label >>= fun x => .ok x.1)
  | .encryptOaepTyped D MGD key msg label => (oaep.encryptDigest R D MGD s key msg label >>= fun x => .ok x.1)
  | .decryptPkcs1v15 fuel b key ct => pkcs1v15.decrypt R fuel (if b then some s else none) key ct
  | .decryptOaep fuel b key ct dg mg label => oaep.decrypt R fuel (if b then some s else none) key ct dg mg label
  | .decryptOaepTyped fuel D MGD b key ct label => oaep.decryptDigest R fuel D MGD (if b then some s else none) key ct label
  | .signPkcs1v15 fuel S b key hashed => S.sign R fuel (if b then some s else none) key hashed
  | .signPkcs1v15Typed fuel b key pfx hashed => pkcs1v15.sign R fuel (if b then some s else none) key pfx hashed
  | .signPss fuel b key hashed saltLen dg => pss.sign R fuel s b key hashed saltLen dg
  | .signPssTyped fuel D b key hashed saltLen => pss.signDigest R fuel D s b key hashed saltLen

/-- The calls a request may lead to, in this order. -/
def Request.Calls : Request → List Call → Prop
  | .encryptPkcs1v15 _ key msg => fun cs => cs = [] ∨ Padding (octetLen key.n.val - msg.length - 3) cs
  | .encryptOaep _ _ dg _ _ => fun cs => cs = [] ∨ Once dg.outputSize cs
  | .encryptOaepTyped D _ _ _ _ => fun cs => cs = [] ∨ Once D.outLen cs
  | .decryptPkcs1v15 _ b key _ => Blinds b key.pub.n.val
  | .decryptOaep _ b key _ _ _ _ => Blinds b key.pub.n.val
  | .decryptOaepTyped _ _ _ b key _ _ => Blinds b key.pub.n.val
  | .signPkcs1v15 _ _ b key _ => Blinds b key.pub.n.val
  | .signPkcs1v15Typed _ b key _ _ => Blinds b key.pub.n.val
  | .signPss _ b key _ saltLen _ => Salts saltLen b key.pub.n.val
  | .signPssTyped _ _ b key _ saltLen => Salts saltLen b key.pub.n.val

/-- Requests one after the other on one generator. -/
def inTurn {σ : Type} (R : RngImpl σ) : List Request → σ → List (Res Bytes) × σ
  | [], s => ([], s)
  | q :: qs, s => ((q.op σ R s).1 :: (inTurn R qs (q.op σ R s).2).1, (inTurn R qs (q.op σ R s).2).2)

/-- The outcomes of requests, each explained by calls of its own. -/
inductive Explained : List Request → List (List Call) → List (Res Bytes) → Prop
  | nil : Explained [] [] []
  | cons (q : Request) (cs : List Call) (r : Res Bytes) (qs : List Request) (css : List (List Call)) (rs : List (Res Bytes))
      (hq : q.Calls cs) (hr : Gives q.op cs r) (h : Explained qs css rs) : Explained (q :: qs) (cs :: css) (r :: rs)

/-- A generator that answers from a script; asked for anything else it breaks and never answers again. -/
def scripted : RngImpl (Option (List Call)) where
  fill s n := match s with
    | some (.octets m (some a) :: t) => if m = n ∧ a.length = n then (some a, some t) else (none, none)
    | _ => (none, none)
  randMod s n := match s with
    | some (.number m (some a) :: t) => if m = n ∧ a < n then (some a, some t) else (none, none)
    | _ => (none, none)
  fill_len := by
    intro s n b h
    split at h
    · split at h
      · next hn => cases h; exact hn.2
      · cases h
    · cases h
  randMod_lt := by
    intro s n r h _
    split at h
    · split at h
      · next hn => cases h; exact hn.2
      · cases h
    · cases h

/-- The probability of this answer of a perfect generator: the octets, or the number, are equally likely. -/
noncomputable def Call.weight : Call → ENNReal
  | .octets n _ => (256 ^ n)⁻¹
  | .number n _ => (n : ENNReal)⁻¹

/-- The probability that a perfect generator answers successive calls so. -/
noncomputable def weight (cs : List Call) : ENNReal := (cs.map Call.weight).prod

/-- The probability that the requests, made in turn of one perfect generator, have these outcomes: the sum over the scripts
that lead to them and are used up. -/
noncomputable def chance (qs : List Request) (rs : List (Res Bytes)) : ENNReal :=
  ∑' cs : {cs : List Call // inTurn scripted qs (some cs) = (rs, some [])}, weight cs.1

/-- The modulus below which blinding draws. -/
def Request.modulus : Request → Nat
  | .encryptPkcs1v15 _ key _ => key.n.val
  | .encryptOaep key _ _ _ _ => key.n.val
  | .encryptOaepTyped _ _ key _ _ => key.n.val
  | .decryptPkcs1v15 _ _ key _ => key.pub.n.val
  | .decryptOaep _ _ key _ _ _ _ => key.pub.n.val
  | .decryptOaepTyped _ _ _ _ key _ _ => key.pub.n.val
  | .signPkcs1v15 _ _ _ key _ => key.pub.n.val
  | .signPkcs1v15Typed _ _ key _ _ => key.pub.n.val
  | .signPss _ _ key _ _ _ => key.pub.n.val
  | .signPssTyped _ _ _ key _ _ => key.pub.n.val

end RSA.Spec
