import Verif.Model.Words
import Verif.Model.Oaep

/-
The private operations on machines with words of `w` octets: src/algorithms/rsa.rs, `precompute` of src/key.rs, and the
signing and decryption functions built on them, with the octets of a limb as a parameter. Padding is that of the other files.
-/
namespace RSA
namespace words
open BoxedUint (beBytes beVal natInvMod)

namespace Uint
variable {w : Nat}

def isZero (x : Uint w) : Bool := x.val == 0
def beq (x y : Uint w) : Bool := x.val == y.val

/-- `one_with_precision(bits)`. -/
def oneWithPrecision (bits : Nat) : Uint w := wrap (limbsFor w bits) 1

/-- `&a * &b`: limb counts add. -/
def mul (x y : Uint w) : Uint w := wrap (x.nlimbs + y.nlimbs) (x.val * y.val)

/-- `a.wrapping_mul(&b)`: result has the width of `a`. -/
def wrappingMul (x y : Uint w) : Uint w := wrap x.nlimbs (x.val * y.val)

/-- `Wrapping(a) + Wrapping(b)`: result has the larger width. -/
def wrappingAdd (x y : Uint w) : Uint w := wrap (max x.nlimbs y.nlimbs) (x.val + y.val)

/-- `a.wrapping_sub(&1)`: result has the width of `a`. -/
def wrappingDec (x : Uint w) : Uint w := wrap x.nlimbs (x.val + 2 ^ (8 * w * x.nlimbs) - 1 % 2 ^ (8 * w * x.nlimbs))

/-- `a.rem_vartime(&b)`: result has the width of `b`. -/
def rem (x y : Uint w) : Uint w := wrap y.nlimbs (x.val % y.val)

/-- `a.inv_mod(&m)`. -/
def invMod (x m : Uint w) : Option (Uint w) := (natInvMod x.val m.val).map (wrap m.nlimbs)

end Uint
open Uint

variable {w : Nat}

/-- `BoxedMontyParams`: determined by the odd modulus. -/
structure Params (w : Nat) where
  modulus : Uint w
  odd : modulus.val % 2 = 1
  deriving DecidableEq, Repr

/-- `BoxedMontyParams::bits_precision()`. -/
def Params.prec (p : Params w) : Nat := p.modulus.prec

/-- `BoxedMontyForm`: a residue modulo `params.modulus`. -/
structure Monty (w : Nat) where
  params : Params w
  res : Nat
  deriving DecidableEq, Repr

namespace Monty

/-- `BoxedMontyForm::new(x, params)`. -/
def new (x : Uint w) (p : Params w) : Res (Monty w) :=
  if x.prec = p.prec then .ok ⟨p, x.val % p.modulus.val⟩ else .panic .precision

/-- `x.pow(exp)`. -/
def pow (x : Monty w) (e : Uint w) : Monty w := ⟨x.params, MontyForm.powMod x.res e.val x.params.modulus.val⟩

/-- `x * y`. -/
def mul (x y : Monty w) : Res (Monty w) :=
  if x.params = y.params then .ok ⟨x.params, x.res * y.res % x.params.modulus.val⟩ else .panic .precision

/-- `x -= y`. -/
def sub (x y : Monty w) : Res (Monty w) :=
  if x.params = y.params then
    .ok ⟨x.params, (x.res + x.params.modulus.val - y.res % x.params.modulus.val) % x.params.modulus.val⟩
  else .panic .precision

/-- `x.invert()`. -/
def invert (x : Monty w) : Option (Monty w) := (natInvMod x.res x.params.modulus.val).map (fun r => ⟨x.params, r⟩)

/-- `x.retrieve()`. -/
def retrieve (x : Monty w) : Uint w := wrap x.params.modulus.nlimbs x.res

end Monty

/-- src/key.rs:122-135 `PrecomputedValues`. -/
structure Pre (w : Nat) where
  dp : Uint w
  dq : Uint w
  qinv : Monty w
  pParams : Params w
  qParams : Params w
  deriving DecidableEq, Repr

/-- src/key.rs:59-70 `RsaPrivateKey`. -/
structure PrivKey (w : Nat) where
  pub : PubKey w
  d : Uint w
  primes : List (Uint w)
  precomputed : Option (Pre w)
  deriving DecidableEq, Repr

/-- The Montgomery parameters of the modulus of a public key. -/
def PubKey.nParams (k : PubKey w) : Params w := ⟨k.n, k.odd⟩

/-- src/algorithms/rsa.rs:225-231 `mul_mod_params`. -/
def mulModParams (lhs rhs : Uint w) (nParams : Params w) : Res (Uint w) := do
  let lhs ← Monty.new lhs nParams
  let rhs ← Monty.new rhs nParams
  let r ← lhs.mul rhs
  .ok r.retrieve

/-- src/algorithms/rsa.rs:158-168, the loop of `blind`. -/
def blindLoop {σ : Type} (R : RngImpl σ) (n : Uint w) : Nat → σ → Res ((Uint w × Uint w) × σ)
  | 0, _ => .loop
  | fuel + 1, s =>
    match R.randMod s n.val with
    | (none, _) => .err .rng
    | (some rv, s) =>
      let r := wrap n.nlimbs rv
      let r := if r.isZero then oneWithPrecision n.prec else r
      match r.invMod n with
      | some ir => .ok ((r, ir), s)
      | none => blindLoop R n fuel s

/-- src/algorithms/rsa.rs:144-185 `blind`; the Montgomery parameters are those of the key. -/
def blind {σ : Type} (R : RngImpl σ) (fuel : Nat) (s : σ) (key : PubKey w) (c : Uint w) :
    Res ((Uint w × Uint w) × σ) := do
  let bits := key.nBitsPrecision
  let ((r, ir), s) ← blindLoop R key.n fuel s
  let rpowe ← powModParams r key.e key.n
  let blinded ← mulModParams c rpowe key.nParams
  if blinded.prec ≠ bits then .panic .assert else
  if ir.prec ≠ bits then .panic .assert else
  .ok ((blinded, ir), s)

/-- src/algorithms/rsa.rs:187-203 `unblind`. -/
def unblind (m unblinder : Uint w) (nParams : Params w) : Res (Uint w) := do
  if m.prec ≠ unblinder.prec then .panic .assert else
  if m.prec ≠ nParams.prec then .panic .assert else
  mulModParams m unblinder nParams

/-- `primes[i]`. -/
def primeAt (l : List (Uint w)) (i : Nat) : Res (Uint w) :=
  match l[i]? with
  | some p => .ok p
  | none => .panic .bounds

/-- src/algorithms/rsa.rs:59-102, the exponentiation of `rsa_decrypt`. -/
def rsaPrivateExp (k : PrivKey w) (c : Uint w) : Res (Uint w) := do
  let isMultiprime := decide (k.primes.length > 2)
  match k.precomputed, isMultiprime with
  | some pre, false =>
    let _p ← primeAt k.primes 0
    let q ← primeAt k.primes 1
    let cp ← Monty.new c pre.pParams
    let m1 := cp.pow pre.dp
    let cq ← Monty.new c pre.qParams
    let m2 := (cq.pow pre.dq).retrieve
    let m2r ← Monty.new m2 pre.pParams
    let m1 ← m1.sub m2r
    let h ← pre.qinv.mul m1
    let m := h.retrieve
    let m := m.wrappingMul q
    let m := m.wrappingAdd m2
    .ok m
  | _, _ => powModParams c k.d k.pub.n

/-- src/algorithms/rsa.rs:25-114 `rsa_decrypt`. -/
def rsaDecrypt {σ : Type} (R : RngImpl σ) (fuel : Nat) (rng : Option σ) (k : PrivKey w) (c : Uint w) :
    Res (Uint w × Option σ) := do
  let n := k.pub.n
  let d := k.d
  if c.ge n then
    .err .decryption
  else
    let nParams := k.pub.nParams
    let bits := d.prec
    match rng with
    | some s =>
      let ((blinded, unblinder), s) ← blind R fuel s k.pub c
      let c ← blinded.widen bits
      let m ← rsaPrivateExp k c
      let m ← m.shorten nParams.prec
      let res ← unblind m unblinder nParams
      .ok (res, some s)
    | none =>
      let c ← c.widen bits
      let m ← rsaPrivateExp k c
      let m ← m.shorten nParams.prec
      .ok (m, none)

/-- src/algorithms/rsa.rs:116-142 `rsa_decrypt_and_check`. -/
def rsaDecryptAndCheck {σ : Type} (R : RngImpl σ) (fuel : Nat) (k : PrivKey w) (rng : Option σ) (c : Uint w) :
    Res (Uint w × Option σ) := do
  let (m, rng) ← rsaDecrypt R fuel rng k c
  let check ← rsaEncrypt k.pub m
  if !(c.beq check) then .err .internal else .ok (m, rng)

/-- `Odd::new(x).ok_or(InvalidPrime)`. -/
def oddOrInvalid (x : Uint w) : Res (Params w) := if h : x.val % 2 = 1 then .ok ⟨x, h⟩ else .err .invalidPrime

/-- `NonZero::new(x).ok_or(InvalidPrime)`. -/
def nonZeroOrInvalid (x : Uint w) : Res (Uint w) := if x.val = 0 then .err .invalidPrime else .ok x

/-- src/key.rs:410-449, the values computed by `precompute`. -/
def precomputeValues (d : Uint w) (primes : List (Uint w)) : Res (Pre w) := do
  let bits := d.prec
  let p ← (← primeAt primes 0).widen bits
  let q ← (← primeAt primes 1).widen bits
  let pParams ← oddOrInvalid p
  let qParams ← oddOrInvalid q
  let x ← nonZeroOrInvalid p.wrappingDec
  let dp := d.rem x
  let x ← nonZeroOrInvalid q.wrappingDec
  let dq := d.rem x
  let qm ← Monty.new q pParams
  match qm.invert with
  | none => .err .invalidPrime
  | some qinv =>
    if dp.prec ≠ bits ∨ dq.prec ≠ bits ∨ qinv.params.prec ≠ bits ∨ pParams.prec ≠ bits ∨ qParams.prec ≠ bits then
      .panic .assert
    else
      .ok { dp := dp, dq := dq, qinv := qinv, pParams := pParams, qParams := qParams }

/-- src/algorithms/pad.rs:33-41 `uint_to_zeroizing_be_pad`. -/
def uintToZeroizingBePad (input : Uint w) (paddedLen : Nat) : Res Bytes := do
  let lz := input.leadingZeros / 8
  let m := input
  let m := m.toBeBytes
  let b ← sliceFrom m lz
  leftPad b paddedLen

/-- src/pkcs1v15.rs:188-198 `sign`. -/
def pkcs1v15Sign {σ : Type} (R : RngImpl σ) (fuel : Nat) (rng : Option σ) (privKey : PrivKey w) (pfx hashed : Bytes) :
    Res Bytes := do
  let em ← pkcs1v15SignPad pfx hashed privKey.pub.size
  let em ← fromBeSlice w em privKey.pub.nBitsPrecision
  let (m, _) ← rsaDecryptAndCheck R fuel privKey rng em
  uintToZeroizingBePad m privKey.pub.size

/-- src/pss.rs:200-214 `sign_pss_with_salt`. -/
def signPssWithSalt {σ : Type} (R : RngImpl σ) (fuel : Nat) (blindRng : Option σ) (privKey : PrivKey w)
    (hashed salt : Bytes) (digest : DigestState) : Res Bytes := do
  let emBits ← subU privKey.pub.n.bits 1
  let em ← emsaPssEncode hashed emBits salt digest
  let em ← fromBeSlice w em privKey.pub.nBitsPrecision
  let (raw, _) ← rsaDecryptAndCheck R fuel privKey blindRng em
  uintToZeroizingBePad raw privKey.pub.size

/-- src/key.rs:588-612 `check_public_with_max_size`. -/
def checkPublicWithMaxSize (n e : Uint w) (maxSz : Nat) : Res Unit :=
  if n.prec > maxSz then .err .modulusTooLarge
  else if e.ge n || n.val % 2 == 0 || n.isZero then .err .invalidModulus
  else if e.val % 2 == 0 then .err .invalidExponent
  else if e.val < minPubExponent.toNat then .err .publicExponentTooSmall
  else if maxPubExponent.toNat < e.val then .err .publicExponentTooLarge
  else .ok ()

/-- src/key.rs:582-586 `check_public`. -/
def checkPublic (k : PubKey w) : Res Unit := checkPublicWithMaxSize k.n k.e RSA.maxSize

/-- src/pkcs1v15.rs:160-172 `decrypt`. -/
def pkcs1v15Decrypt {σ : Type} (R : RngImpl σ) (fuel : Nat) (rng : Option σ) (privKey : PrivKey w) (ciphertext : Bytes) :
    Res Bytes := do
  checkPublic privKey.pub
  let ciphertext ← fromBeSlice w ciphertext privKey.pub.nBitsPrecision
  let (em, _) ← rsaDecryptAndCheck R fuel privKey rng ciphertext
  let em ← uintToZeroizingBePad em privKey.pub.size
  pkcs1v15EncryptUnpad em privKey.pub.size

/-- src/oaep.rs:239-257 `decrypt`. -/
def oaepDecrypt {σ : Type} (R : RngImpl σ) (fuel : Nat) (rng : Option σ) (privKey : PrivKey w) (ciphertext : Bytes)
    (digest mgfDigest : DigestState) (label : Option Bytes) : Res Bytes := do
  if ciphertext.length ≠ privKey.pub.size then
    .err .decryption
  else
    let ciphertext ← fromBeSlice w ciphertext privKey.pub.nBitsPrecision
    let (em, _) ← rsaDecryptAndCheck R fuel privKey rng ciphertext
    let em ← uintToZeroizingBePad em privKey.pub.size
    RSA.oaepDecrypt em digest mgfDigest label privKey.pub.size

end words
end RSA
