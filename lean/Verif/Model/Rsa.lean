import Verif.Model.KeyTypes

/- src/algorithms/rsa.rs -/
namespace RSA
open BoxedUint

/-- src/algorithms/rsa.rs:211-223 `reduce_vartime`. -/
def reduceVartime (x : BoxedUint) (p : MontyParams) : Res MontyForm := do
  let bitsPrecision := p.modulus.toBoxedUint.prec
  let modulus := p.modulus.toBoxedUint
  let x ← if x.prec < bitsPrecision then x.widen bitsPrecision
          else if x.prec = bitsPrecision then .ok x
          else x.shorten bitsPrecision
  let xReduced ← (x.rem modulus).widen p.prec
  MontyForm.new xReduced p

/-- src/algorithms/rsa.rs:205-209 `pow_mod_params`. -/
def powModParams (base exp : BoxedUint) (nParams : MontyParams) : Res BoxedUint := do
  let base ← reduceVartime base nParams
  .ok (base.pow exp).retrieve

/-- src/algorithms/rsa.rs:225-231 `mul_mod_params`. -/
def mulModParams (lhs rhs : BoxedUint) (nParams : MontyParams) : Res BoxedUint := do
  let lhs ← MontyForm.new lhs nParams
  let rhs ← MontyForm.new rhs nParams
  let r ← lhs.mul rhs
  .ok r.retrieve

/-- src/algorithms/rsa.rs:13-23 `rsa_encrypt`. -/
def rsaEncrypt (key : PublicKey) (m : BoxedUint) : Res BoxedUint :=
  powModParams m key.e key.nParams

/-- src/algorithms/rsa.rs:158-168, the `while ir.is_none()` loop of `blind`: returns `(r, r^-1 mod n)`. -/
def blindLoop {σ : Type} (R : RngImpl σ) (n : BoxedUint) : Nat → σ → Res ((BoxedUint × BoxedUint) × σ)
  | 0, _ => .loop
  | fuel + 1, s =>
    match R.randMod s n.val with
    | (none, _) => .err .rng
    | (some rv, s) =>
      let r := wrap n.nlimbs rv
      let r := if r.isZero then oneWithPrecision n.prec else r
      match r.invMod n with
      | some ir => .ok ((r, ir), s)
      | none => blindLoop R n fuel s

/-- src/algorithms/rsa.rs:144-185 `blind` (debug assertions included). -/
def blind {σ : Type} (R : RngImpl σ) (fuel : Nat) (s : σ) (key : PublicKey) (c : BoxedUint) (nParams : MontyParams) :
    Res ((BoxedUint × BoxedUint) × σ) := do
  if !(key.n.beq nParams.modulus.toBoxedUint) then .panic .assert else
  let bits := key.nBitsPrecision
  let ((r, ir), s) ← blindLoop R key.n fuel s
  let rpowe ← powModParams r key.e nParams
  let blinded ← mulModParams c rpowe nParams
  if blinded.prec ≠ bits then .panic .assert else
  if ir.prec ≠ bits then .panic .assert else
  .ok ((blinded, ir), s)

/-- src/algorithms/rsa.rs:187-203 `unblind` (debug assertions included). -/
def unblind (m unblinder : BoxedUint) (nParams : MontyParams) : Res BoxedUint := do
  if m.prec ≠ unblinder.prec then .panic .assert else
  if m.prec ≠ nParams.prec then .panic .assert else
  mulModParams m unblinder nParams

/-- `primes[i]` on a `Vec<BoxedUint>`. -/
def primeAt (l : List BoxedUint) (i : Nat) : Res BoxedUint :=
  match l[i]? with
  | some p => .ok p
  | none => .panic .bounds

/-- src/algorithms/rsa.rs:59-102, the exponentiation of `rsa_decrypt` on the (blinded, widened) `c`. -/
def rsaPrivateExp (k : PrivateKey) (c : BoxedUint) : Res BoxedUint := do
  let isMultiprime := decide (k.primes.length > 2)
  match k.precomputed, isMultiprime with
  | some pre, false =>
    let _p ← primeAt k.primes 0
    let q ← primeAt k.primes 1
    let cp ← MontyForm.new c pre.pParams
    let m1 := cp.pow pre.dp
    let cq ← MontyForm.new c pre.qParams
    let m2 := (cq.pow pre.dq).retrieve
    let m2r ← MontyForm.new m2 pre.pParams
    let m1 ← m1.sub m2r
    let h ← pre.qinv.mul m1
    let m := h.retrieve
    let m := m.wrappingMul q
    let m := m.wrappingAdd m2
    .ok m
  | _, _ => powModParams c k.d k.pub.nParams

/-- src/algorithms/rsa.rs:25-114 `rsa_decrypt`; `rng = none` is Rust's `None`. Returns the RNG state afterwards. -/
def rsaDecrypt {σ : Type} (R : RngImpl σ) (fuel : Nat) (rng : Option σ) (k : PrivateKey) (c : BoxedUint) :
    Res (BoxedUint × Option σ) := do
  let n := k.pub.n
  let d := k.d
  if c.ge n then
    .err .decryption
  else
    let nParams := k.pub.nParams
    let bits := d.prec
    match rng with
    | some s =>
      let ((blinded, unblinder), s) ← blind R fuel s k.pub c nParams
      let c ← blinded.widen bits
      let m ← rsaPrivateExp k c
      let m ← m.shorten nParams.prec
      let res ← unblind m unblinder nParams
      .ok (res, some s)
    | none =>
      let c ← c.widen bits
      let m ← rsaPrivateExp k c
      let m ← m.shorten nParams.prec
      .ok (m, none)

/-- src/algorithms/rsa.rs:116-142 `rsa_decrypt_and_check`. -/
def rsaDecryptAndCheck {σ : Type} (R : RngImpl σ) (fuel : Nat) (k : PrivateKey) (rng : Option σ) (c : BoxedUint) :
    Res (BoxedUint × Option σ) := do
  let (m, rng) ← rsaDecrypt R fuel rng k c
  let check ← rsaEncrypt k.pub m
  if !(c.beq check) then .err .internal else .ok (m, rng)

/-- `NonZero::new(x).expect(..)`. -/
def expectNonZero (x : BoxedUint) : Res BoxedUint :=
  match x.nonZero with
  | some x => .ok x
  | none => .panic .unwrap

/-- src/algorithms/rsa.rs:233-300 `recover_primes`. -/
def recoverPrimes (n e d : BoxedUint) : Res (BoxedUint × BoxedUint) := do
  if e.le (ofU64 65536) then
    .err .invalidArguments
  else
    let bits := d.prec * 2
    let one ← BoxedUint.one.widen bits
    let e ← e.widen bits
    let d ← d.widen bits
    let n ← n.widen bits
    let a1 ← (d.mul e).sub one
    let a2 := (← n.sub one).gcd a1
    let a := a1.mul a2
    let n ← n.widen a.prec
    let m := a.div (← expectNonZero n)
    let r ← a.sub (m.mul n)
    let den ← expectNonZero (← m.add one)
    let num ← n.sub r
    if !(num.rem den).isZero then
      .err .invalidArguments
    else
      let b ← (num.div den).add one
      let four := ofU64 4
      let fourN := n.mul four
      let bSquared := b.square
      if bSquared.le fourN then
        .err .invalidArguments
      else
        let diff ← bSquared.sub fourN
        let y := diff.sqrt
        let ySquared := y.square
        if !(ySquared.beq diff) then
          .err .invalidArguments
        else
          let bits := max b.prec y.prec
          let two ← (← expectNonZero (ofU64 2)).widen bits
          let p := (← b.add y).div two
          let q := (← b.sub y).div two
          .ok (p, q)

/-- src/algorithms/rsa.rs:302-310 `compute_modulus`. -/
def computeModulus (primes : List BoxedUint) : Res OddUint :=
  match primes with
  | [] => .panic .unwrap
  | p :: ps =>
    match OddUint.new (ps.foldl BoxedUint.mul p) with
    | some n => .ok n
    | none => .panic .unwrap

/-- src/algorithms/rsa.rs:325-327, `for prime in primes { totient *= prime - 1 }`. -/
def totientLoop : List BoxedUint → BoxedUint → Res BoxedUint
  | [], t => .ok t
  | p :: ps, t => do
    let p1 ← p.sub BoxedUint.one
    totientLoop ps (t.mul p1)

/-- src/algorithms/rsa.rs:312-336 `compute_private_exponent_euler_totient`. -/
def computePrivateExponentEulerTotient (primes : List BoxedUint) (exp : BoxedUint) : Res BoxedUint := do
  if primes.length < 2 then
    .err .invalidPrime
  else
    let p0 ← primeAt primes 0
    let totient := oneWithPrecision p0.prec
    let totient ← totientLoop primes totient
    let exp ← exp.widen totient.prec
    match exp.invMod totient with
    | some res => .ok res
    | none => .err .invalidPrime

/-- src/algorithms/rsa.rs:338-366 `compute_private_exponent_carmicheal`. -/
def computePrivateExponentCarmichael (p q exp : BoxedUint) : Res BoxedUint := do
  let p1 ← p.sub BoxedUint.one
  let q1 ← q.sub BoxedUint.one
  let g := p1.gcd q1
  let lcm := (p1.div (← expectNonZero g)).mul q1
  let exp ← exp.widen lcm.prec
  match exp.invMod lcm with
  | some d => .ok d
  | none => .err .invalidPrime

end RSA
