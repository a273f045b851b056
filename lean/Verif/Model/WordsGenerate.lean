import Verif.Model.WordsPrimes
import Verif.Model.Generate

/-
Key generation on machines with words of `w` octets.
-/
namespace RSA
namespace words
open Uint

/-- The external prime search on a machine with words of `w` octets (compare `PrimeGen`). -/
structure Search (w : Nat) (σ : Type) where
  gen : σ → Nat → Uint w × σ

variable {w : Nat} {σ : Type}

/-- src/algorithms/generate.rs:123-132 `generate_prime_with_rng`: the sieve factory refuses (panics) below two bits. -/
def generatePrime (G : Search w σ) (s : σ) (bitLength : Nat) : Res (Uint w × σ) :=
  if bitLength < 2 then .panic .unwrap else .ok (G.gen s bitLength)

/-- src/algorithms/generate.rs:84-88, `for (i, prime) in primes.iter_mut().enumerate()`. -/
def generatePrimes (G : Search w σ) : Nat → Nat → σ → Res (List (Uint w) × σ)
  | 0, _, s => .ok ([], s)
  | left + 1, todo, s => do
    let bits := todo / (left + 1) % 2 ^ 32
    let (prime, s) ← generatePrime G s bits
    let todo ← subU todo prime.bits
    let (rest, s) ← generatePrimes G left todo s
    .ok (prime :: rest, s)

/-- src/algorithms/generate.rs:16-21 `RsaPrivateKeyComponents`. -/
structure Parts (w : Nat) where
  n : Uint w
  odd : n.val % 2 = 1
  e : Uint w
  d : Uint w
  primes : List (Uint w)

/-- src/algorithms/generate.rs:67-113, the `'next: loop`; one unit of fuel per turn. `compute_modulus` panics if the product
is even (src/algorithms/rsa.rs:309). -/
def generateLoop (G : Search w σ) (nprimes bitSize : Nat) (exp : Uint w) : Nat → σ → Res (Parts w × σ)
  | 0, _ => .loop
  | fuel + 1, s => do
    let todo := if nprimes ≥ 7 then bitSize + (nprimes - 2) / 5 else bitSize
    let (primes, s) ← generatePrimes G nprimes todo s
    if hasDuplicate [] primes then
      generateLoop G nprimes bitSize exp fuel s
    else
      let n ← product primes
      if h : n.val % 2 = 1 then
        if n.bits ≠ bitSize then
          generateLoop G nprimes bitSize exp fuel s
        else
          match eulerExponent primes exp with
          | .ok d => .ok (⟨n, h, exp, d, primes⟩, s)
          | .err _ => generateLoop G nprimes bitSize exp fuel s
          | .panic k => .panic k
          | .loop => .loop
      else .panic .unwrap

/-- src/algorithms/generate.rs:34-121 `generate_multi_prime_key_with_exp`. -/
def generate (G : Search w σ) (fuel : Nat) (s : σ) (nprimes bitSize : Nat) (exp : Uint w) : Res (Parts w × σ) :=
  if nprimes < 2 then .err .nprimesTooSmall
  else if bitSize < 64 && tooFewPrimes nprimes bitSize then .err .tooFewPrimes
  else generateLoop G nprimes bitSize exp fuel s

/-- src/key.rs:279-290 `RsaPrivateKey::new_with_exp`. -/
def newWithExp (G : Search w σ) (fuel : Nat) (s : σ) (bitSize : Nat) (exp : Uint w) : Res (PrivKey w × σ) := do
  let (c, s) ← generate G fuel s 2 bitSize exp
  let k ← fromFactors c.n c.odd c.e c.d c.primes
  .ok (k, s)

end words
end RSA
