import Verif.Model.Rsa

/- src/key.rs (behaviour) -/
namespace RSA
open BoxedUint

/-- src/key.rs:211-218 `MIN_PUB_EXPONENT`, `MAX_PUB_EXPONENT`, `MAX_SIZE`. -/
def minPubExponent : UInt64 := 2
def maxPubExponent : UInt64 := ((1 : UInt64) <<< 33) - 1
def maxSize : Nat := 4096

/-- src/key.rs:588-612 `check_public_with_max_size`. -/
def checkPublicWithMaxSize (n e : BoxedUint) (maxSz : Nat) : Res Unit :=
  if n.prec > maxSz then .err .modulusTooLarge
  else if e.ge n || n.isEven || n.isZero then .err .invalidModulus
  else if e.isEven then .err .invalidExponent
  else if e.lt (ofU64 minPubExponent) then .err .publicExponentTooSmall
  else if e.gt (ofU64 maxPubExponent) then .err .publicExponentTooLarge
  else .ok ()

/-- src/key.rs:582-586 `check_public`. -/
def checkPublic (k : PublicKey) : Res Unit := checkPublicWithMaxSize k.n k.e maxSize

namespace PublicKey

/-- src/key.rs:228-239 `RsaPublicKey::new_with_max_size`. -/
def newWithMaxSize (n e : BoxedUint) (maxSz : Nat) : Res PublicKey := do
  checkPublicWithMaxSize n e maxSz
  match OddUint.new n with
  | none => .err .invalidModulus
  | some nOdd =>
    let n ← expectNonZero n
    .ok { n := n, e := e, nParams := ⟨nOdd⟩ }

/-- src/key.rs:220-226 `RsaPublicKey::new`. -/
def new (n e : BoxedUint) : Res PublicKey := newWithMaxSize n e maxSize

/-- src/key.rs:241-253 `RsaPublicKey::new_unchecked`. -/
def newUnchecked (n e : BoxedUint) : Res PublicKey :=
  match OddUint.new n with
  | none => .panic .unwrap
  | some nOdd => do
    let n ← expectNonZero n
    .ok { n := n, e := e, nParams := ⟨nOdd⟩ }

end PublicKey

namespace PrivateKey

/-- src/key.rs:475-481, the loop computing `Πprimes` in `validate`. -/
def validateProduct : List BoxedUint → BoxedUint → Res BoxedUint
  | [], m => .ok m
  | p :: ps, m => if p.lt BoxedUint.one then .err .invalidPrime else validateProduct ps (m.wrappingMul p)

/-- src/key.rs:494-501, the loop checking `de ≡ 1 mod p-1` in `validate`. -/
def validateExponents (de : BoxedUint) (dPrec : Nat) : List BoxedUint → Res Unit
  | [] => .ok ()
  | p :: ps => do
    let p ← p.widen dPrec
    let x ← expectNonZero (p.wrappingSub BoxedUint.one)
    let congruence := de.rem x
    if !congruence.isOne then .err .invalidExponent else validateExponents de dPrec ps

/-- src/key.rs:467-504 `validate`. -/
def validate (k : PrivateKey) : Res Unit := do
  checkPublic k.pub
  let m ← validateProduct k.primes (oneWithPrecision k.pub.n.prec)
  if !(m.beq k.pub.n) then
    .err .invalidModulus
  else
    let d ← k.d.widen (2 * k.d.prec)
    let de := d.wrappingMul k.pub.e
    validateExponents de d.prec k.primes

/-- `Odd::new(x).into_option().ok_or(Error::InvalidPrime)`. -/
def oddOrInvalid (x : BoxedUint) : Res OddUint :=
  match OddUint.new x with
  | some x => .ok x
  | none => .err .invalidPrime

/-- `NonZero::new(x).into_option().ok_or(Error::InvalidPrime)`. -/
def nonZeroOrInvalid (x : BoxedUint) : Res BoxedUint :=
  match x.nonZero with
  | some x => .ok x
  | none => .err .invalidPrime

/-- src/key.rs:410-449, the values computed by `precompute` when nothing is cached. -/
def precomputeValues (d : BoxedUint) (primes : List BoxedUint) : Res Precomputed := do
  let bits := d.prec
  let p ← (← primeAt primes 0).widen bits
  let q ← (← primeAt primes 1).widen bits
  let pParams : MontyParams := ⟨← oddOrInvalid p⟩
  let qParams : MontyParams := ⟨← oddOrInvalid q⟩
  let x ← nonZeroOrInvalid (p.wrappingSub BoxedUint.one)
  let dp := d.rem x
  let x ← nonZeroOrInvalid (q.wrappingSub BoxedUint.one)
  let dq := d.rem x
  let qm ← MontyForm.new q pParams
  match qm.invert with
  | none => .err .invalidPrime
  | some qinv =>
    if dp.prec ≠ bits ∨ dq.prec ≠ bits ∨ qinv.params.prec ≠ bits ∨ pParams.prec ≠ bits ∨ qParams.prec ≠ bits then
      .panic .assert
    else
      .ok { dp := dp, dq := dq, qinv := qinv, pParams := pParams, qParams := qParams }

/-- src/key.rs:404-452 `precompute`: the key afterwards, or the error (the key is then unchanged). -/
def precompute (k : PrivateKey) : Res PrivateKey :=
  if k.precomputed.isSome then .ok k
  else do
    let v ← precomputeValues k.d k.primes
    .ok { k with precomputed := some v }

/-- src/key.rs:454-457 `clear_precomputed`. -/
def clearPrecomputed (k : PrivateKey) : PrivateKey := { k with precomputed := none }

/-- src/key.rs:459-465 `crt_coefficient`. -/
def crtCoefficient (k : PrivateKey) : Res (Option BoxedUint) := do
  let p ← primeAt k.primes 0
  let q ← primeAt k.primes 1
  .ok (q.invMod p)

/-- src/key.rs:342-345, `k.precompute().ok(); Ok(k)`: errors of `precompute` are ignored, panics are not. -/
def tryPrecompute (k : PrivateKey) : Res PrivateKey :=
  match k.precompute with
  | .err _ => .ok k
  | r => r

/-- src/key.rs:292-346 `from_components`. -/
def fromComponents (n : OddUint) (e d : BoxedUint) (primes : List BoxedUint) : Res PrivateKey := do
  let nParams : MontyParams := ⟨n⟩
  match n.toBoxedUint.nonZero with
  | none => .err .invalidModulus
  | some nC =>
    let primes ←
      match primes with
      | [] => do
        let (p, q) ← recoverPrimes nC e d
        .ok [p, q]
      | [_] => .err .nprimesTooSmall
      | _ => .ok primes
    let k : PrivateKey :=
      { pub := { n := nC, e := e, nParams := nParams }, d := d, primes := primes, precomputed := none }
    k.validate
    k.tryPrecompute

/-- src/key.rs:348-368 `from_p_q`. -/
def fromPQ (p q publicExponent : BoxedUint) : Res PrivateKey := do
  if p.beq q then
    .err .invalidPrime
  else
    let d ← computePrivateExponentCarmichael p q publicExponent
    let primes := [p, q]
    let n ← computeModulus primes
    fromComponents n publicExponent d primes

/-- src/key.rs:381-388 (and src/algorithms/generate.rs:90-97): some element equals an earlier one. -/
def hasDuplicate : List BoxedUint → List BoxedUint → Bool
  | _, [] => false
  | seen, p :: ps => seen.any (fun x => p.beq x) || hasDuplicate (seen ++ [p]) ps

/-- src/key.rs:370-394 `from_primes`. -/
def fromPrimes (primes : List BoxedUint) (publicExponent : BoxedUint) : Res PrivateKey := do
  if primes.length < 2 then
    .err .nprimesTooSmall
  else if hasDuplicate [] primes then
    .err .invalidPrime
  else
    let n ← computeModulus primes
    let d ← computePrivateExponentEulerTotient primes publicExponent
    fromComponents n publicExponent d primes

end PrivateKey

end RSA
