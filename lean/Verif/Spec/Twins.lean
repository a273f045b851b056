import Verif.Spec.Session
import Verif.Spec.Leak
import Verif.Model.LeakOps

/-
Two private keys behind one public key, and a peer that sees, besides the answers, all observations of `Model/Leak` and
`Model/LeakOps`.
-/
namespace RSA.Spec

/-- Two correct keys with the same public half, stored alike. Their private exponents, factors (and their order) and CRT
values may differ. -/
structure Twins (k k' : PrivateKey) : Prop where
  pub : k.pub = k'.pub
  shape : SameShape k k'
  correct : WellFormed k
  correct' : WellFormed k'

/-- A private operation as an observer sees it: answer and trace. Requests for the public half are not answered. -/
def watch {σ : Type} (R : RngImpl σ) (fuel : Nat) (rng : Option σ) (k : PrivateKey) : Ask → Option (Leak Bytes)
  | .open1 ct => some (leak.pkcs1v15Decrypt R fuel rng k ct)
  | .openOaep D MGD label ct =>
    some (leak.oaepSchemeDecrypt R fuel rng k ct (DigestState.new D) (DigestState.new MGD) label)
  | .openOaepTyped D MGD label ct => some (leak.oaepSchemeDecryptDigest R fuel D MGD rng k ct label)
  | .sign1 S hashed => some (Leak.ofRes (S.checkHashLen hashed) >>= fun _ => leak.pkcs1v15Sign R fuel rng k S.pfx hashed)
  | .signPss D blinded saltLen hashed =>
    match rng with
    | none => some (Leak.ofRes (.err .invalidPaddingScheme))
    | some s => some (leak.pssSign R fuel s blinded k hashed saltLen (DigestState.new D))
  | _ => none

/-- Each turn is answered by the key `k`, and its observations are seen. -/
def Watched {σ : Type} (R : RngImpl σ) (fuel : Nat) (gens : Nat → Option σ) (k : PrivateKey) (i : Nat) (q : Ask)
    (r : Leak Bytes) : Prop := watch R fuel (gens i) k q = some r

end RSA.Spec
