import Verif.Model.WordsKey

/-
Keys built from primes on machines with words of `w` octets: `compute_modulus`, the two computations of the private
exponent, `from_p_q` and `from_primes`.
-/
namespace RSA
namespace words

namespace Uint
variable {w : Nat}

/-- `BoxedUint::one()`. -/
def one : Uint w := wrap 1 1

/-- `&a - &b`: panics on underflow; the result has the larger width. -/
def sub (x y : Uint w) : Res (Uint w) :=
  if y.val ≤ x.val then .ok (wrap (max x.nlimbs y.nlimbs) (x.val - y.val)) else .panic .arith

/-- `a / b` for `b : NonZero`; the quotient has the width of `a`. -/
def div (x y : Uint w) : Uint w := wrap x.nlimbs (x.val / y.val)

/-- `a.gcd(&b)`. -/
def gcd (x y : Uint w) : Uint w := wrap (max x.nlimbs y.nlimbs) (Nat.gcd x.val y.val)

end Uint
open Uint

variable {w : Nat}

/-- src/algorithms/rsa.rs:302-310 `compute_modulus`, without the test that the product is odd. -/
def product (primes : List (Uint w)) : Res (Uint w) :=
  match primes with
  | [] => .panic .unwrap
  | p :: ps => .ok (ps.foldl Uint.mul p)

/-- src/algorithms/rsa.rs:325-327, `for prime in primes { totient *= prime - 1 }`. -/
def totientLoop : List (Uint w) → Uint w → Res (Uint w)
  | [], t => .ok t
  | p :: ps, t => do
    let p1 ← p.sub one
    totientLoop ps (t.mul p1)

/-- src/algorithms/rsa.rs:312-336 `compute_private_exponent_euler_totient`. -/
def eulerExponent (primes : List (Uint w)) (exp : Uint w) : Res (Uint w) := do
  if primes.length < 2 then
    .err .invalidPrime
  else
    let p0 ← primeAt primes 0
    let totient := oneWithPrecision p0.prec
    let totient ← totientLoop primes totient
    let exp ← exp.widen totient.prec
    match exp.invMod totient with
    | some res => .ok res
    | none => .err .invalidPrime

/-- src/algorithms/rsa.rs:338-366 `compute_private_exponent_carmicheal`. -/
def carmichaelExponent (p q exp : Uint w) : Res (Uint w) := do
  let p1 ← p.sub one
  let q1 ← q.sub one
  let g := p1.gcd q1
  let lcm := (p1.div (← expectNonZero g)).mul q1
  let exp ← exp.widen lcm.prec
  match exp.invMod lcm with
  | some d => .ok d
  | none => .err .invalidPrime

/-- src/key.rs:292-346 `from_components`, with two or more factors. -/
def fromFactors (n : Uint w) (hn : n.val % 2 = 1) (e d : Uint w) (primes : List (Uint w)) : Res (PrivKey w) := do
  let k : PrivKey w := { pub := ⟨n, e, hn⟩, d := d, primes := primes, precomputed := none }
  validate k
  tryPrecompute k

/-- src/key.rs:348-368 `from_p_q`; `compute_modulus` panics if the product is even (src/algorithms/rsa.rs:309). -/
def fromPQ (p q publicExponent : Uint w) : Res (PrivKey w) := do
  if p.beq q then
    .err .invalidPrime
  else
    let d ← carmichaelExponent p q publicExponent
    let n ← product [p, q]
    if h : n.val % 2 = 1 then fromFactors n h publicExponent d [p, q] else .panic .unwrap

/-- src/key.rs:381-388: some element equals an earlier one. -/
def hasDuplicate : List (Uint w) → List (Uint w) → Bool
  | _, [] => false
  | seen, p :: ps => seen.any (fun x => p.beq x) || hasDuplicate (seen ++ [p]) ps

/-- src/key.rs:370-394 `from_primes`. -/
def fromPrimes (primes : List (Uint w)) (publicExponent : Uint w) : Res (PrivKey w) := do
  if primes.length < 2 then
    .err .nprimesTooSmall
  else if hasDuplicate [] primes then
    .err .invalidPrime
  else
    let n ← product primes
    if h : n.val % 2 = 1 then
      let d ← eulerExponent primes publicExponent
      fromFactors n h publicExponent d primes
    else .panic .unwrap

end words
end RSA
