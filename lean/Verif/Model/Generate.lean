import Verif.Model.Key

/- src/algorithms/generate.rs -/
namespace RSA
open BoxedUint

/-- What the external prime search (`sieve_and_find` + `is_prime` with `SetBits::TwoMsb`) returns for a bit length, as a
state machine. No property is built in; theorems that need one state it as a hypothesis. -/
structure PrimeGen (σ : Type) where
  gen : σ → Nat → BoxedUint × σ

/-- src/algorithms/generate.rs:123-132 `generate_prime_with_rng`: the sieve factory refuses (panics) below two bits. -/
def generatePrimeWithRng {σ : Type} (G : PrimeGen σ) (s : σ) (bitLength : Nat) : Res (BoxedUint × σ) :=
  if bitLength < 2 then .panic .unwrap else .ok (G.gen s bitLength)

/-- src/algorithms/generate.rs:44-61, `pi < nprimes as f64` for `bit_size < 64`. The `f64` constant `LN_2` is the rational
6243314768165359 / 2^53; with `q = bit_size / nprimes`, `pi = 2^q / (q * LN_2 - 1) / 8`, negative for `q < 2`. Modelled
without the rounding of the intermediate `f64` results; `Model/Float` has the version with rounding, C73 that they agree. -/
def tooFewPrimes (nprimes bitSize : Nat) : Bool :=
  let q := bitSize / nprimes
  if q < 2 then true
  else 2 ^ q * 2 ^ 53 < 8 * nprimes * (q * 6243314768165359 - 2 ^ 53)

/-- src/algorithms/generate.rs:84-88, `for (i, prime) in primes.iter_mut().enumerate()`: `left = nprimes - i` primes are
still to be drawn. -/
def generatePrimes {σ : Type} (G : PrimeGen σ) : Nat → Nat → σ → Res (List BoxedUint × σ)
  | 0, _, s => .ok ([], s)
  | left + 1, todo, s => do
    let bits := todo / (left + 1) % 2 ^ 32
    let (prime, s) ← generatePrimeWithRng G s bits
    let todo ← subU todo prime.bits
    let (rest, s) ← generatePrimes G left todo s
    .ok (prime :: rest, s)

/-- src/algorithms/generate.rs:16-21 `RsaPrivateKeyComponents`. -/
structure Components where
  n : OddUint
  e : BoxedUint
  d : BoxedUint
  primes : List BoxedUint
  deriving DecidableEq, Repr

/-- src/algorithms/generate.rs:67-113, the `'next: loop`; one unit of fuel per turn. -/
def generateLoop {σ : Type} (G : PrimeGen σ) (nprimes bitSize : Nat) (exp : BoxedUint) :
    Nat → σ → Res (Components × σ)
  | 0, _ => .loop
  | fuel + 1, s => do
    let todo := if nprimes ≥ 7 then bitSize + (nprimes - 2) / 5 else bitSize
    let (primes, s) ← generatePrimes G nprimes todo s
    if PrivateKey.hasDuplicate [] primes then
      generateLoop G nprimes bitSize exp fuel s
    else
      let n ← computeModulus primes
      if n.toBoxedUint.bits ≠ bitSize then
        generateLoop G nprimes bitSize exp fuel s
      else
        match computePrivateExponentEulerTotient primes exp with
        | .ok d => .ok (⟨n, exp, d, primes⟩, s)
        | .err _ => generateLoop G nprimes bitSize exp fuel s
        | .panic k => .panic k
        | .loop => .loop

/-- src/algorithms/generate.rs:34-121 `generate_multi_prime_key_with_exp`. -/
def generateMultiPrimeKeyWithExp {σ : Type} (G : PrimeGen σ) (fuel : Nat) (s : σ) (nprimes bitSize : Nat)
    (exp : BoxedUint) : Res (Components × σ) :=
  if nprimes < 2 then .err .nprimesTooSmall
  else if bitSize < 64 && tooFewPrimes nprimes bitSize then .err .tooFewPrimes
  else generateLoop G nprimes bitSize exp fuel s

/-- src/key.rs:271-272 `EXP`. -/
def defaultExp : UInt64 := 65537

/-- src/key.rs:279-290 `RsaPrivateKey::new_with_exp`. -/
def PrivateKey.newWithExp {σ : Type} (G : PrimeGen σ) (fuel : Nat) (s : σ) (bitSize : Nat) (exp : BoxedUint) :
    Res (PrivateKey × σ) := do
  let (c, s) ← generateMultiPrimeKeyWithExp G fuel s 2 bitSize exp
  let k ← PrivateKey.fromComponents c.n c.e c.d c.primes
  .ok (k, s)

/-- src/key.rs:274-277 `RsaPrivateKey::new`. -/
def PrivateKey.new {σ : Type} (G : PrimeGen σ) (fuel : Nat) (s : σ) (bitSize : Nat) : Res (PrivateKey × σ) :=
  PrivateKey.newWithExp G fuel s bitSize (ofU64 defaultExp)

end RSA
