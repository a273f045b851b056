import Verif.Model.Leak
import Verif.Model.Generate

/-
Building and generating private keys once more, recording observations as in `Model/Leak`: the outcome of every test, every
index, and every call into the bignum crate with the storage sizes of its operands. `Leak.res` of every definition is the
definition of the same name elsewhere in the model (C89_same_program).
-/
namespace RSA
open BoxedUint

namespace leak
open Leak

/-- `if c { return Err(..) }` and what follows. -/
def guardNot {α : Type} (c : Bool) (fail : Res α) (next : Leak α) : Leak α := branch (c = true) (ofRes fail) next

/-- A constructor with a precondition (`Odd::new`, `NonZero::new`, `inv_mod`, `invert`), followed by a test for success. -/
def check {α : Type} (o : Option α) (fail : Res α) : Leak α := do
  emit (.branch o.isSome)
  match o with
  | some a => ofRes (.ok a)
  | none => ofRes fail

/-- `&a - &b`, `&a + &b`: the overflow check is inside the bignum crate. -/
def sub (x y : BoxedUint) : Leak BoxedUint := do
  bn "sub" [x.nlimbs, y.nlimbs]
  ofRes (x.sub y)

def add (x y : BoxedUint) : Leak BoxedUint := do
  bn "add" [x.nlimbs, y.nlimbs]
  ofRes (x.add y)

/-- `&a * &b`, `a / b`, `a % b`, `a.gcd(&b)`, `a.wrapping_mul(&b)`, `a.wrapping_sub(&b)`, `a.rem_vartime(&b)`. -/
def op (name : String) (f : BoxedUint → BoxedUint → BoxedUint) (x y : BoxedUint) : Leak BoxedUint := do
  bn name [x.nlimbs, y.nlimbs]
  ofRes (.ok (f x y))

/-- `a.square()`, `a.sqrt()`. -/
def op1 (name : String) (f : BoxedUint → BoxedUint) (x : BoxedUint) : Leak BoxedUint := do
  bn name [x.nlimbs]
  ofRes (.ok (f x))

/-- A comparison of two numbers. -/
def cmp (name : String) (f : BoxedUint → BoxedUint → Bool) (x y : BoxedUint) : Leak Bool := do
  bn name [x.nlimbs, y.nlimbs]
  ofRes (.ok (f x y))

/-- `is_zero`, `is_even`, `is_one`. -/
def test (name : String) (f : BoxedUint → Bool) (x : BoxedUint) : Leak Bool := do
  bn name [x.nlimbs]
  ofRes (.ok (f x))

/-- `NonZero::new(x).expect(..)`. -/
def expectNonZero (x : BoxedUint) : Leak BoxedUint := do
  bn "NonZero::new" [x.nlimbs]
  check x.nonZero (.panic .unwrap)

/-! ### src/key.rs -/

/-- src/key.rs:588-612 `check_public_with_max_size`. -/
def checkPublicWithMaxSize (n e : BoxedUint) (maxSz : Nat) : Leak Unit := do
  guardNot (decide (n.prec > maxSz)) (.err .modulusTooLarge) do
  let c ← cmp "ge" BoxedUint.ge e n
  guardNot c (.err .invalidModulus) do
  let c ← test "is_even" BoxedUint.isEven n
  guardNot c (.err .invalidModulus) do
  let c ← test "is_zero" BoxedUint.isZero n
  guardNot c (.err .invalidModulus) do
  let c ← test "is_even" BoxedUint.isEven e
  guardNot c (.err .invalidExponent) do
  let c ← cmp "lt" BoxedUint.lt e (ofU64 minPubExponent)
  guardNot c (.err .publicExponentTooSmall) do
  let c ← cmp "gt" BoxedUint.gt e (ofU64 maxPubExponent)
  guardNot c (.err .publicExponentTooLarge) do
  ofRes (.ok ())

/-- src/key.rs:582-586 `check_public`. -/
def checkPublic (k : PublicKey) : Leak Unit := checkPublicWithMaxSize k.n k.e maxSize

/-- src/key.rs:475-481, the loop computing `Πprimes`. -/
def validateProduct : List BoxedUint → BoxedUint → Leak BoxedUint
  | [], m => ofRes (.ok m)
  | p :: ps, m => do
    let c ← cmp "lt" BoxedUint.lt p BoxedUint.one
    guardNot c (.err .invalidPrime) do
    let m ← op "wrapping_mul" BoxedUint.wrappingMul m p
    validateProduct ps m

/-- src/key.rs:494-501, the loop checking `de ≡ 1 mod p-1`. -/
def validateExponents (de : BoxedUint) (dPrec : Nat) : List BoxedUint → Leak Unit
  | [] => ofRes (.ok ())
  | p :: ps => do
    let p ← widen p dPrec
    let x ← op "wrapping_sub" BoxedUint.wrappingSub p BoxedUint.one
    let x ← expectNonZero x
    let congruence ← op "rem_vartime" BoxedUint.rem de x
    let c ← test "is_one" BoxedUint.isOne congruence
    guardNot (!c) (.err .invalidExponent) do
    validateExponents de dPrec ps

/-- src/key.rs:467-504 `validate`. -/
def validate (k : PrivateKey) : Leak Unit := do
  checkPublic k.pub
  let m ← validateProduct k.primes (oneWithPrecision k.pub.n.prec)
  let c ← cmp "eq" BoxedUint.beq m k.pub.n
  guardNot (!c) (.err .invalidModulus) do
  let d ← widen k.d (2 * k.d.prec)
  let de ← op "wrapping_mul" BoxedUint.wrappingMul d k.pub.e
  validateExponents de d.prec k.primes

/-- `Odd::new(x).into_option().ok_or(Error::InvalidPrime)`. -/
def oddOrInvalid (x : BoxedUint) : Leak OddUint := do
  bn "Odd::new" [x.nlimbs]
  check (OddUint.new x) (.err .invalidPrime)

/-- `NonZero::new(x).into_option().ok_or(Error::InvalidPrime)`. -/
def nonZeroOrInvalid (x : BoxedUint) : Leak BoxedUint := do
  bn "NonZero::new" [x.nlimbs]
  check x.nonZero (.err .invalidPrime)

/-- `BoxedMontyParams::new(x)`. -/
def montyParams (x : OddUint) : Leak MontyParams := do
  bn "BoxedMontyParams::new" [x.toBoxedUint.nlimbs]
  ofRes (.ok ⟨x⟩)

/-- src/key.rs:410-449, the values computed by `precompute`. -/
def precomputeValues (d : BoxedUint) (primes : List BoxedUint) : Leak Precomputed := do
  let bits := d.prec
  let p ← widen (← primeAt primes 0) bits
  let q ← widen (← primeAt primes 1) bits
  let pOdd ← oddOrInvalid p
  let pParams ← montyParams pOdd
  let qOdd ← oddOrInvalid q
  let qParams ← montyParams qOdd
  let x ← op "wrapping_sub" BoxedUint.wrappingSub p BoxedUint.one
  let x ← nonZeroOrInvalid x
  let dp ← op "rem_vartime" BoxedUint.rem d x
  let x ← op "wrapping_sub" BoxedUint.wrappingSub q BoxedUint.one
  let x ← nonZeroOrInvalid x
  let dq ← op "rem_vartime" BoxedUint.rem d x
  let qm ← montyNew q pParams
  bn "invert" [limbsOf qm.params]
  let qinv ← check qm.invert (.err .invalidPrime)
  debugAssert (decide (dp.prec = bits))
  debugAssert (decide (dq.prec = bits))
  debugAssert (decide (qinv.params.prec = bits))
  debugAssert (decide (pParams.prec = bits))
  debugAssert (decide (qParams.prec = bits))
  ofRes (.ok { dp := dp, dq := dq, qinv := qinv, pParams := pParams, qParams := qParams })

/-- src/key.rs:404-452 `precompute`. -/
def precompute (k : PrivateKey) : Leak PrivateKey := do
  guardNot k.precomputed.isSome (.ok k) do
  let v ← precomputeValues k.d k.primes
  ofRes (.ok { k with precomputed := some v })

/-- src/key.rs:342-345, `k.precompute().ok(); Ok(k)`. -/
def tryPrecompute (k : PrivateKey) : Leak PrivateKey :=
  let r := precompute k
  match r.res with
  | .err _ => ⟨r.ev, .ok k⟩
  | _ => r

/-! ### src/algorithms/rsa.rs -/

/-- src/algorithms/rsa.rs:233-300 `recover_primes`. -/
def recoverPrimes (n e d : BoxedUint) : Leak (BoxedUint × BoxedUint) := do
  let c ← cmp "le" BoxedUint.le e (ofU64 65536)
  guardNot c (.err .invalidArguments) do
  let bits := d.prec * 2
  let one ← widen BoxedUint.one bits
  let e ← widen e bits
  let d ← widen d bits
  let n ← widen n bits
  let de ← op "mul" BoxedUint.mul d e
  let a1 ← sub de one
  let n1 ← sub n one
  let a2 ← op "gcd" BoxedUint.gcd n1 a1
  let a ← op "mul" BoxedUint.mul a1 a2
  let n ← widen n a.prec
  let nz ← expectNonZero n
  let m ← op "div" BoxedUint.div a nz
  let mn ← op "mul" BoxedUint.mul m n
  let r ← sub a mn
  let num ← sub n r
  let den ← expectNonZero (← add m one)
  let modulusCheck ← op "rem" BoxedUint.rem num den
  let c ← test "is_zero" BoxedUint.isZero modulusCheck
  guardNot (!c) (.err .invalidArguments) do
  let num ← sub n r
  let den ← expectNonZero (← add m one)
  let b ← op "div" BoxedUint.div num den
  let b ← add b one
  let fourN ← op "mul" BoxedUint.mul n (ofU64 4)
  let bSquared ← op1 "square" BoxedUint.square b
  let c ← cmp "le" BoxedUint.le bSquared fourN
  guardNot c (.err .invalidArguments) do
  let diff ← sub bSquared fourN
  let y ← op1 "sqrt" BoxedUint.sqrt diff
  let ySquared ← op1 "square" BoxedUint.square y
  let c ← cmp "eq" BoxedUint.beq ySquared diff
  guardNot (!c) (.err .invalidArguments) do
  let bits := max b.prec y.prec
  let two ← expectNonZero (ofU64 2)
  let two ← widen two bits
  let s ← add b y
  let p ← op "div" BoxedUint.div s two
  let t ← sub b y
  let q ← op "div" BoxedUint.div t two
  ofRes (.ok (p, q))

/-- src/algorithms/rsa.rs:305-308, `for p in primes { out *= p }`. -/
def productLoop : List BoxedUint → BoxedUint → Leak BoxedUint
  | [], out => ofRes (.ok out)
  | p :: ps, out => do
    let out ← op "mul" BoxedUint.mul out p
    productLoop ps out

/-- src/algorithms/rsa.rs:302-310 `compute_modulus`. -/
def computeModulus (primes : List BoxedUint) : Leak OddUint :=
  match primes with
  | [] => ofRes (.panic .unwrap)
  | p :: ps => do
    let out ← productLoop ps p
    bn "Odd::new" [out.nlimbs]
    check (OddUint.new out) (.panic .unwrap)

/-- src/algorithms/rsa.rs:325-327, `for prime in primes { totient *= prime - 1 }`. -/
def totientLoop : List BoxedUint → BoxedUint → Leak BoxedUint
  | [], t => ofRes (.ok t)
  | p :: ps, t => do
    let p1 ← sub p BoxedUint.one
    let t ← op "mul" BoxedUint.mul t p1
    totientLoop ps t

/-- `a.inv_mod(&m)` and the test for success. -/
def invMod (x m : BoxedUint) : Leak BoxedUint := do
  bn "inv_mod" [x.nlimbs, m.nlimbs]
  check (x.invMod m) (.err .invalidPrime)

/-- src/algorithms/rsa.rs:312-336 `compute_private_exponent_euler_totient`. -/
def computePrivateExponentEulerTotient (primes : List BoxedUint) (exp : BoxedUint) : Leak BoxedUint := do
  guardNot (decide (primes.length < 2)) (.err .invalidPrime) do
  let p0 ← primeAt primes 0
  let totient ← totientLoop primes (oneWithPrecision p0.prec)
  let exp ← widen exp totient.prec
  invMod exp totient

/-- src/algorithms/rsa.rs:338-366 `compute_private_exponent_carmicheal`. -/
def computePrivateExponentCarmichael (p q exp : BoxedUint) : Leak BoxedUint := do
  let p1 ← sub p BoxedUint.one
  let q1 ← sub q BoxedUint.one
  let g ← op "gcd" BoxedUint.gcd p1 q1
  let g ← expectNonZero g
  let x ← op "div" BoxedUint.div p1 g
  let lcm ← op "mul" BoxedUint.mul x q1
  let exp ← widen exp lcm.prec
  invMod exp lcm

/-! ### src/key.rs, the constructors -/

/-- src/key.rs:304-315, `match primes.len()`. -/
def factorsOrRecover (nC e d : BoxedUint) (primes : List BoxedUint) : Leak (List BoxedUint) := do
  emit (.compare primes.length 0)
  match primes with
  | [] => do
    let (p, q) ← recoverPrimes nC e d
    ofRes (.ok [p, q])
  | [_] => ofRes (.err .nprimesTooSmall)
  | _ => ofRes (.ok primes)

/-- src/key.rs:292-346 `from_components`. -/
def fromComponents (n : OddUint) (e d : BoxedUint) (primes : List BoxedUint) : Leak PrivateKey := do
  let nParams ← montyParams n
  bn "NonZero::new" [n.toBoxedUint.nlimbs]
  let nC ← check n.toBoxedUint.nonZero (.err .invalidModulus)
  let primes ← factorsOrRecover nC e d primes
  let k : PrivateKey := { pub := { n := nC, e := e, nParams := nParams }, d := d, primes := primes, precomputed := none }
  validate k
  tryPrecompute k

/-- src/key.rs:348-368 `from_p_q`. -/
def fromPQ (p q publicExponent : BoxedUint) : Leak PrivateKey := do
  let c ← cmp "eq" BoxedUint.beq p q
  guardNot c (.err .invalidPrime) do
  let d ← computePrivateExponentCarmichael p q publicExponent
  let primes := [p, q]
  let n ← computeModulus primes
  fromComponents n publicExponent d primes

/-- src/key.rs:382-386, the inner loop: is `p` among the earlier ones? -/
def anyEqual (p : BoxedUint) : List BoxedUint → Leak Bool
  | [] => ofRes (.ok false)
  | x :: xs => do
    let c ← cmp "eq" BoxedUint.beq p x
    branch (c = true) (ofRes (.ok true)) (anyEqual p xs)

/-- src/key.rs:381-388 (and src/algorithms/generate.rs:90-97). -/
def hasDuplicate : List BoxedUint → List BoxedUint → Leak Bool
  | _, [] => ofRes (.ok false)
  | seen, p :: ps => do
    let c ← anyEqual p seen
    if c then ofRes (.ok true) else hasDuplicate (seen ++ [p]) ps

/-- src/key.rs:370-394 `from_primes`. -/
def fromPrimes (primes : List BoxedUint) (publicExponent : BoxedUint) : Leak PrivateKey := do
  guardNot (decide (primes.length < 2)) (.err .nprimesTooSmall) do
  let c ← hasDuplicate [] primes
  if c then ofRes (.err .invalidPrime) else
  let n ← computeModulus primes
  let d ← computePrivateExponentEulerTotient primes publicExponent
  fromComponents n publicExponent d primes

/-! ### src/algorithms/generate.rs -/

/-- src/algorithms/generate.rs:123-132 `generate_prime_with_rng`: the external prime search is one event. -/
def generatePrimeWithRng {σ : Type} (G : PrimeGen σ) (s : σ) (bitLength : Nat) : Leak (BoxedUint × σ) := do
  bn "sieve_and_find" [bitLength]
  ofRes (RSA.generatePrimeWithRng G s bitLength)

/-- src/algorithms/generate.rs:84-88, drawing the primes. -/
def generatePrimes {σ : Type} (G : PrimeGen σ) : Nat → Nat → σ → Leak (List BoxedUint × σ)
  | 0, _, s => ofRes (.ok ([], s))
  | left + 1, todo, s => do
    let bits := todo / (left + 1) % 2 ^ 32
    let (prime, s) ← generatePrimeWithRng G s bits
    bn "bits" [prime.nlimbs]
    let todo ← subU todo prime.bits
    let (rest, s) ← generatePrimes G left todo s
    ofRes (.ok (prime :: rest, s))

/-- src/algorithms/generate.rs:67-113, one turn of the loop: the components, or `none` for another turn. -/
def generateTurn {σ : Type} (G : PrimeGen σ) (nprimes bitSize : Nat) (exp : BoxedUint) (s : σ) :
    Leak (Option Components × σ) := do
  let todo ← branch (nprimes ≥ 7) (ofRes (.ok (bitSize + (nprimes - 2) / 5))) (ofRes (.ok bitSize))
  let (primes, s) ← generatePrimes G nprimes todo s
  let c ← hasDuplicate [] primes
  if c then ofRes (.ok (none, s)) else
  let n ← computeModulus primes
  bn "bits" [n.toBoxedUint.nlimbs]
  branch (n.toBoxedUint.bits ≠ bitSize) (ofRes (.ok (none, s))) do
  let r := computePrivateExponentEulerTotient primes exp
  match r.res with
  | .ok d => ⟨r.ev, .ok (some ⟨n, exp, d, primes⟩, s)⟩
  | .err _ => ⟨r.ev, .ok (none, s)⟩
  | .panic k => ⟨r.ev, .panic k⟩
  | .loop => ⟨r.ev, .loop⟩

/-- src/algorithms/generate.rs:67-113, the `'next: loop`. -/
def generateLoop {σ : Type} (G : PrimeGen σ) (nprimes bitSize : Nat) (exp : BoxedUint) :
    Nat → σ → Leak (Components × σ)
  | 0, _ => ofRes .loop
  | fuel + 1, s => do
    let (o, s) ← generateTurn G nprimes bitSize exp s
    match o with
    | some c => ofRes (.ok (c, s))
    | none => generateLoop G nprimes bitSize exp fuel s

/-- src/algorithms/generate.rs:34-121 `generate_multi_prime_key_with_exp`. -/
def generateMultiPrimeKeyWithExp {σ : Type} (G : PrimeGen σ) (fuel : Nat) (s : σ) (nprimes bitSize : Nat)
    (exp : BoxedUint) : Leak (Components × σ) := do
  guardNot (decide (nprimes < 2)) (.err .nprimesTooSmall) do
  emit (.branch (decide (bitSize < 64)))
  guardNot (decide (bitSize < 64) && tooFewPrimes nprimes bitSize) (.err .tooFewPrimes) do
  generateLoop G nprimes bitSize exp fuel s

/-- src/key.rs:279-290 `RsaPrivateKey::new_with_exp`. -/
def newWithExp {σ : Type} (G : PrimeGen σ) (fuel : Nat) (s : σ) (bitSize : Nat) (exp : BoxedUint) :
    Leak (PrivateKey × σ) := do
  let (c, s) ← generateMultiPrimeKeyWithExp G fuel s 2 bitSize exp
  let k ← fromComponents c.n c.e c.d c.primes
  ofRes (.ok (k, s))

end leak
end RSA
