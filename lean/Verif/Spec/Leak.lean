import Verif.Model.KeyTypes
import Verif.Spec.Rfc8017

namespace RSA

/-- What a caller sees of a decryption: which failure, or success and the length of the message. -/
def Spec.outcome : Res Bytes → Res Nat
  | .ok m => .ok m.length
  | .err e => .err e
  | .panic k => .panic k
  | .loop => .loop

/-- Two keys stored alike: the same sizes of all stored numbers, the same number of primes, CRT values cached in both or in
neither. Nothing is said about the numbers themselves. -/
structure Spec.SameShape (k k' : PrivateKey) : Prop where
  n : k.pub.n.nlimbs = k'.pub.n.nlimbs
  e : k.pub.e.nlimbs = k'.pub.e.nlimbs
  d : k.d.nlimbs = k'.d.nlimbs
  primes : k.primes.map BoxedUint.nlimbs = k'.primes.map BoxedUint.nlimbs
  cache : k.precomputed.map (fun c => (c.dp.nlimbs, c.dq.nlimbs)) = k'.precomputed.map (fun c => (c.dp.nlimbs, c.dq.nlimbs))

/-- Two generators whose blinding draws for the moduli `n` and `n'` turn out alike, draw by draw until the first usable one:
both fail, or both give zero, or both a unit, or both neither. -/
def Spec.SameDraws {σ σ' : Type} (R : RngImpl σ) (R' : RngImpl σ') (n n' : Nat) : Nat → σ → σ' → Prop
  | 0, _, _ => True
  | fuel + 1, s, s' =>
    match R.randMod s n, R'.randMod s' n' with
    | (none, _), (none, _) => True
    | (some r, t), (some r', t') => (r = 0 ↔ r' = 0) ∧ (Nat.Coprime r n ↔ Nat.Coprime r' n') ∧
        (r ≠ 0 → ¬ Nat.Coprime r n → Spec.SameDraws R R' n n' fuel t t')
    | _, _ => False

/-- No generator in either run, or generators whose blinding draws turn out alike. -/
def Spec.SameBlinding {σ σ' : Type} (R : RngImpl σ) (R' : RngImpl σ') (n n' fuel : Nat) : Option σ → Option σ' → Prop
  | none, none => True
  | some s, some s' => Spec.SameDraws R R' n n' fuel s s'
  | _, _ => False

/-- What the caller of a signing or encrypting function can tell from the number of leading zero octets of its output: which
failure, or the number of octets of the output from the first nonzero one on. -/
def Spec.outputOctets {α : Type} (octets : α → Nat) : Res α → Res Nat
  | .ok m => .ok (octets m)
  | .err e => .err e
  | .panic k => .panic k
  | .loop => .loop

/-- The number of octets of an output from its first nonzero one on. -/
def Spec.octetsOf (b : Bytes) : Nat := Spec.octetLen (Spec.os2ip b)

end RSA
