import Verif.Spec.Journey
import Verif.Spec.Outcome
import Verif.Model.Oaep
import Verif.Model.Pss
import Verif.Model.Pkcs1v15

/-
A key in service: its copies answer, one after the other, whatever a peer asks, the peer choosing every request in the
light of all answers so far. Beside it, an ideal party that has no key object at all: only the modulus, the public
exponent and some exponent that undoes it, and answers by the relations of `Spec/Outcome`.
-/
namespace RSA.Spec

/-- What may be asked of a key. -/
inductive Ask
  | open1 (ct : Bytes)
  | openOaep (D MGD : HashFn) (label : Option Bytes) (ct : Bytes)
  | openOaepTyped (D MGD : HashFn) (label : Option Bytes) (ct : Bytes)
  | sign1 (S : pkcs1v15.Pkcs1v15Sign) (hashed : Bytes)
  | signPss (D : HashFn) (blinded : Bool) (saltLen : Nat) (hashed : Bytes)
  | seal1 (msg : Bytes)
  | sealOaep (D MGD : HashFn) (label : Option Bytes) (msg : Bytes)
  | check1 (S : pkcs1v15.Pkcs1v15Sign) (hashed sig : Bytes)
  | checkPss (D : HashFn) (blinded : Bool) (saltLen : Nat) (hashed sig : Bytes)

/-- The digest algorithms have a digest, and the lengths in a PSS request can be added up. -/
def Ask.Sane : Ask → Prop
  | .openOaep _ MGD _ _ => 0 < MGD.outLen
  | .openOaepTyped _ MGD _ _ => 0 < MGD.outLen
  | .sealOaep _ MGD _ _ => 0 < MGD.outLen
  | .signPss D _ saltLen _ => 0 < D.outLen ∧ D.outLen + saltLen + 2 < 2 ^ 64
  | .checkPss D _ saltLen _ _ => 0 < D.outLen ∧ D.outLen + saltLen + 2 < 2 ^ 64
  | _ => True

/-- Whether the request is for the public half. -/
def Ask.Public : Ask → Prop
  | .seal1 .. => True
  | .sealOaep .. => True
  | .check1 .. => True
  | .checkPss .. => True
  | _ => False

/-- Whether the answer is meant to depend on random draws. -/
def Ask.Randomised : Ask → Prop
  | .seal1 .. => True
  | .sealOaep .. => True
  | .signPss .. => True
  | _ => False

/-- What comes back. -/
inductive Reply
  | octets (r : Res Bytes)
  | verdict (r : Res Unit)

/-- The ciphertext, without the state of the generator. -/
def ciphertext {σ : Type} : Res (Bytes × σ) → Res Bytes
  | .ok x => .ok x.1
  | .err e => .err e
  | .panic p => .panic p
  | .loop => .loop

/-- The copy answers, with the generator `rng` at hand. -/
inductive Serves {σ : Type} (R : RngImpl σ) (fuel : Nat) (rng : Option σ) : KeyObj → Ask → Reply → Prop
  | open1 (a : PrivateKey) (ct : Bytes) :
      Serves R fuel rng (.secret a) (.open1 ct) (.octets (pkcs1v15.decrypt R fuel rng a ct))
  | openOaep (a : PrivateKey) (D MGD : HashFn) (label : Option Bytes) (ct : Bytes) :
      Serves R fuel rng (.secret a) (.openOaep D MGD label ct)
        (.octets (oaep.decrypt R fuel rng a ct (DigestState.new D) (DigestState.new MGD) label))
  | openOaepTyped (a : PrivateKey) (D MGD : HashFn) (label : Option Bytes) (ct : Bytes) :
      Serves R fuel rng (.secret a) (.openOaepTyped D MGD label ct)
        (.octets (oaep.decryptDigest R fuel D MGD rng a ct label))
  | sign1 (a : PrivateKey) (S : pkcs1v15.Pkcs1v15Sign) (hashed : Bytes) :
      Serves R fuel rng (.secret a) (.sign1 S hashed) (.octets (S.sign R fuel rng a hashed))
  | signPss (a : PrivateKey) (D : HashFn) (blinded : Bool) (saltLen : Nat) (hashed : Bytes) :
      Serves R fuel rng (.secret a) (.signPss D blinded saltLen hashed)
        (.octets (pss.Pss.sign ⟨blinded, DigestState.new D, saltLen⟩ R fuel rng a hashed))
  | seal1 (v : PublicKey) (s : σ) (hs : rng = some s) (msg : Bytes) :
      Serves R fuel rng (.open v) (.seal1 msg) (.octets (ciphertext (pkcs1v15.encrypt R fuel s v msg)))
  | sealOaep (v : PublicKey) (s : σ) (hs : rng = some s) (D MGD : HashFn) (label : Option Bytes) (msg : Bytes) :
      Serves R fuel rng (.open v) (.sealOaep D MGD label msg)
        (.octets (ciphertext (oaep.encrypt R s v msg (DigestState.new D) (DigestState.new MGD) label)))
  | check1 (v : PublicKey) (S : pkcs1v15.Pkcs1v15Sign) (hashed sig : Bytes) :
      Serves R fuel rng (.open v) (.check1 S hashed sig) (.verdict (S.verify v hashed sig))
  | checkPss (v : PublicKey) (D : HashFn) (blinded : Bool) (saltLen : Nat) (hashed sig : Bytes) :
      Serves R fuel rng (.open v) (.checkPss D blinded saltLen hashed sig)
        (.verdict (pss.Pss.verify ⟨blinded, DigestState.new D, saltLen⟩ v hashed sig))

/-- The bits of the 64-bit limbs that the modulus needs. -/
def ownWidth (n : Nat) : Nat := 64 * ((octetLen n + 7) / 8)

/-- The ideal party answers, from the numbers alone. -/
inductive IdealAnswer {σ : Type} (R : RngImpl σ) (fuel : Nat) (rng : Option σ) (n e d : Nat) : Ask → Reply → Prop
  | open1 (ct : Bytes) (r : Res Bytes) (h : DecryptsPkcs1v15 R fuel rng (ownWidth n) n e d ct r) :
      IdealAnswer R fuel rng n e d (.open1 ct) (.octets r)
  | openOaep (D MGD : HashFn) (label : Option Bytes) (ct : Bytes) (r : Res Bytes)
      (h : DecryptsOaep R fuel rng n d D MGD (label.getD []) ct r) :
      IdealAnswer R fuel rng n e d (.openOaep D MGD label ct) (.octets r)
  | openOaepTyped (D MGD : HashFn) (label : Option Bytes) (ct : Bytes) (r : Res Bytes)
      (h : DecryptsOaepTyped R fuel rng (ownWidth n) n e d D MGD (label.getD []) ct r) :
      IdealAnswer R fuel rng n e d (.openOaepTyped D MGD label ct) (.octets r)
  | sign1 (S : pkcs1v15.Pkcs1v15Sign) (hashed : Bytes) (r : Res Bytes)
      (h : SignsPkcs1v15 R fuel rng n d S.hashLen S.pfx hashed r) :
      IdealAnswer R fuel rng n e d (.sign1 S hashed) (.octets r)
  | signPss (D : HashFn) (blinded : Bool) (saltLen : Nat) (hashed : Bytes) (r : Res Bytes)
      (h : SignsPss R fuel rng n d D blinded saltLen hashed r) :
      IdealAnswer R fuel rng n e d (.signPss D blinded saltLen hashed) (.octets r)
  | seal1 (s : σ) (hs : rng = some s) (msg : Bytes) (r : Res (Bytes × σ))
      (h : EncryptsPkcs1v15 R fuel s (ownWidth n) n e msg r) :
      IdealAnswer R fuel rng n e d (.seal1 msg) (.octets (ciphertext r))
  | sealOaep (s : σ) (hs : rng = some s) (D MGD : HashFn) (label : Option Bytes) (msg : Bytes) (r : Res (Bytes × σ))
      (h : EncryptsOaep R s (ownWidth n) n e D MGD (label.getD []) msg r) :
      IdealAnswer R fuel rng n e d (.sealOaep D MGD label msg) (.octets (ciphertext r))
  | check1 (S : pkcs1v15.Pkcs1v15Sign) (hashed sig : Bytes) (r : Res Unit)
      (h : VerifiesPkcs1v15 (ownWidth n) n e S.hashLen S.pfx hashed sig r) :
      IdealAnswer R fuel rng n e d (.check1 S hashed sig) (.verdict r)
  | checkPss (D : HashFn) (blinded : Bool) (saltLen : Nat) (hashed sig : Bytes) (r : Res Unit)
      (h : VerifiesPss n e D saltLen hashed sig r) :
      IdealAnswer R fuel rng n e d (.checkPss D blinded saltLen hashed sig) (.verdict r)

/-- Raising to `d` undoes raising to `e` modulo `n`. -/
def Inverts (n e d : Nat) : Prop := ∀ x < n, (x ^ d % n) ^ e % n = x

/-- The copies of `k` that may be put to use: those that were written and read back at least once, and all others if `k`
itself is stored without spare limbs. -/
def InUse (k : PrivateKey) (x : KeyObj) : Prop :=
  Travelled (.secret k) x ∨ k.pub.n.nlimbs = (octetLen k.pub.n.val + 7) / 8 ∧ Journey (.secret k) x

/-- What has been asked and answered. -/
abbrev History := List (Ask × Reply)

/-- The histories that can arise when the peer chooses each request from the history so far, and turn `i` is answered
according to `step i`. -/
inductive Session {Q A : Type} (step : Nat → Q → A → Prop) (peer : List (Q × A) → Q) : List (Q × A) → Prop
  | start : Session step peer []
  | turn (h : List (Q × A)) (r : A) (before : Session step peer h) (answer : step h.length (peer h) r) :
      Session step peer (h ++ [(peer h, r)])

/-- The service: each turn is answered by whichever copy is at hand, with its own generator (or none). -/
def Service {σ : Type} (R : RngImpl σ) (fuel : Nat) (gens : Nat → Option σ) (k : PrivateKey) (i : Nat) (q : Ask)
    (r : Reply) : Prop := ∃ x, InUse k x ∧ Serves R fuel (gens i) x q r

end RSA.Spec
