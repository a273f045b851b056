import Verif.Model.Pkcs1v15
import Verif.Model.Oaep

/-
The decryption routines once more, now also recording what the control flow and the memory accesses of the source text
reveal: the outcome of every `if`, `while` and bounds check, every index and range used, the length of every allocation, of
every comparison of slices and of everything hashed. Operations of `subtle` (`ct_eq` on bytes, `conditional_assign`,
`conditional_select`, `Choice` operators) record nothing. Each call into the bignum crate is one event carrying the storage
sizes of its operands: what the bignum crate or the compiler may leak about the values is not modelled.
`Leak.res` of every definition is the definition of the same name elsewhere in the model (C70_same_program).
-/
namespace RSA
open BoxedUint

/-- One observation. -/
inductive Ev
  | branch (b : Bool)
  | read (len i : Nat)
  | write (len i : Nat)
  | range (len lo hi : Nat)
  | copy (n : Nat)
  | alloc (n : Nat)
  | compare (a b : Nat)
  | absorb (n : Nat)
  | finalize (n : Nat)
  | opaque (name : String)
  | bignum (name : String) (sizes : List Nat)
  deriving DecidableEq, Repr

/-- A computation together with its observations. -/
structure Leak (α : Type) where
  ev : List Ev
  res : Res α

namespace Leak

def bind {α β : Type} (x : Leak α) (f : α → Leak β) : Leak β :=
  match x.res with
  | .ok a => ⟨x.ev ++ (f a).ev, (f a).res⟩
  | .err e => ⟨x.ev, .err e⟩
  | .panic k => ⟨x.ev, .panic k⟩
  | .loop => ⟨x.ev, .loop⟩

instance : Monad Leak where
  pure a := ⟨[], .ok a⟩
  bind := Leak.bind

/-- Observe `e`. -/
def emit (e : Ev) : Leak Unit := ⟨[e], .ok ()⟩

/-- No observation. -/
def ofRes {α : Type} (r : Res α) : Leak α := ⟨[], r⟩

end Leak

namespace leak
open Leak

/-- `if c { x } else { y }`, and a bounds check or the test of a `while`: the outcome of the very test that decides is seen. -/
def branch {α : Type} (c : Prop) [Decidable c] (x y : Leak α) : Leak α := do
  emit (.branch (decide c))
  if c then x else y

def idx (l : Bytes) (i : Nat) : Leak UInt8 := do
  emit (.read l.length i)
  ofRes (RSA.idx l i)

def slice (l : Bytes) (lo hi : Nat) : Leak Bytes := do
  emit (.range l.length lo hi)
  ofRes (RSA.slice l lo hi)

/-- `l[lo..].to_vec()` or `&l[lo..]`. -/
def sliceFrom (l : Bytes) (lo : Nat) : Leak Bytes := slice l lo l.length

def copyInto (dst : Bytes) (lo hi : Nat) (src : Bytes) : Leak Bytes := do
  emit (.range dst.length lo hi)
  emit (.copy src.length)
  ofRes (RSA.copyInto dst lo hi src)

def splitAt (l : Bytes) (i : Nat) : Leak (Bytes × Bytes) := do
  emit (.range l.length 0 i)
  ofRes (RSA.splitAt l i)

def subU (a b : Nat) : Leak Nat := do
  branch (b ≤ a) (ofRes (.ok (a - b))) (ofRes (.panic .arith))

/-- `a.ct_eq(b)` on slices: `subtle` looks at the lengths. -/
def ctEq (a b : Bytes) : Leak Bool := do
  emit (.compare a.length b.length)
  ofRes (.ok (a == b))

/-- A `for` loop over a list. -/
def forIn {S E : Type} (body : S → E → Leak S) : List E → S → Leak S
  | [], st => ofRes (.ok st)
  | e :: es, st => do
    let st ← body st e
    forIn body es st

def update (d : DigestState) (x : Bytes) : Leak DigestState := do
  emit (.absorb x.length)
  ofRes (.ok (d.update x))

def finalizeReset (d : DigestState) : Leak (Bytes × DigestState) := do
  emit (.finalize d.buf.length)
  ofRes (.ok d.finalizeReset)

/-! ### src/algorithms/pkcs1v15.rs -/

/-- src/algorithms/pkcs1v15.rs:100-104, the loop body. -/
def pkcs1v15Step (len : Nat) (st : UInt8 × UInt32) (e : UInt8 × Nat) : Leak (UInt8 × UInt32) := do
  emit (.read len e.2)
  let equals0 := e.1 == 0
  let index := if (st.1 == 1) && equals0 then UInt32.ofNat e.2 else st.2 -- `conditional_assign`
  let looking := if equals0 then 0 else st.1 -- `conditional_assign`
  ofRes (.ok (looking, index))

/-- src/algorithms/pkcs1v15.rs:84-118 `decrypt_inner`. -/
def pkcs1v15DecryptInner (em : Bytes) (k : Nat) : Leak (UInt8 × Bytes × UInt32) := do
  branch (k < 11) (ofRes (.err .decryption)) do
    let b0 ← idx em 0
    let firstByteIsZero := b0 == 0
    let b1 ← idx em 1
    let secondByteIsTwo := b1 == 2
    let (looking, index) ← forIn (pkcs1v15Step em.length) (em.zipIdx.drop 2) (1, 0)
    let t : BitVec 32 := (2#32 + 8#32 - index.toBitVec - 1#32).sshiftRight 31 &&& 1#32
    let validPs := t == 1#32
    let found := (~~~looking &&& 1) == 1
    let valid := firstByteIsZero && secondByteIsTwo && found && validPs
    let index := if valid then index + 1 else 0 -- `conditional_select`
    ofRes (.ok (if valid then 1 else 0, em, index)) -- `unwrap_u8`

/-- src/algorithms/pkcs1v15.rs:69-77 `pkcs1v15_encrypt_unpad`. -/
def pkcs1v15EncryptUnpad (em : Bytes) (k : Nat) : Leak Bytes := do
  let (valid, out, index) ← pkcs1v15DecryptInner em k
  branch (valid = 0) (ofRes (.err .decryption)) (sliceFrom out index.toNat)

/-! ### src/algorithms/mgf.rs -/

/-- src/algorithms/mgf.rs:67-75 `inc_counter`. -/
def incCounter (c : Counter) : Leak Counter := do
  let c3 : Counter := { c with b3 := c.b3 + 1 }
  branch (c3.b3 ≠ 0) (ofRes (.ok c3)) do
    let c2 : Counter := { c3 with b2 := c3.b2 + 1 }
    branch (c2.b2 ≠ 0) (ofRes (.ok c2)) do
      let c1 : Counter := { c2 with b1 := c2.b1 + 1 }
      branch (c1.b1 ≠ 0) (ofRes (.ok c1)) do
        let c0 : Counter := { c1 with b0 := c1.b0 + 1 }
        branch (c0.b0 ≠ 0) (ofRes (.ok c0)) (ofRes (.ok c0))

/-- src/algorithms/mgf.rs:22-31 and 56-63, the inner loop; `dlen`, `j` and `olen`, `i` are the lengths and positions in the
digest output and in the buffer. -/
def xorInto (dlen olen : Nat) : Nat → Nat → Bytes → Bytes → Leak (Bytes × Bytes)
  | _, _, [], out => do
    emit (.branch true)
    ofRes (.ok ([], out))
  | _, _, _ :: _, [] => do
    emit (.branch true)
    ofRes (.ok ([], []))
  | j, i, d :: ds, o :: os => do
    emit (.branch false)
    emit (.read dlen j)
    emit (.write olen i)
    let (a, b) ← xorInto dlen olen (j + 1) (i + 1) ds os
    ofRes (.ok ((o ^^^ d) :: a, b))

/-- src/algorithms/mgf.rs:15-33, outer loop of `mgf1_xor`; `olen` is the length of the whole buffer. -/
def mgf1XorLoop (olen : Nat) : Nat → Bytes → DigestState → Bytes → Counter → Leak (Bytes × DigestState)
  | _, [], dg, _, _ => do
    emit (.branch false)
    ofRes (.ok ([], dg))
  | 0, _ :: _, _, _, _ => ofRes .loop
  | fuel + 1, o :: os, dg, seed, counter => do
    emit (.branch true)
    let digestInput := List.replicate (seed.length + 4) (0 : UInt8)
    emit (.alloc (seed.length + 4))
    let digestInput ← copyInto digestInput 0 seed.length seed
    let digestInput ← copyInto digestInput seed.length (seed.length + 4) counter.bytes
    let dg ← update dg digestInput
    let (digestOutput, dg) ← finalizeReset dg
    let (done, rest) ← xorInto digestOutput.length olen 0 (olen - (os.length + 1)) digestOutput (o :: os)
    let counter ← incCounter counter
    let (tail, dg) ← mgf1XorLoop olen fuel rest dg seed counter
    ofRes (.ok (done ++ tail, dg))

/-- src/algorithms/mgf.rs:5-34 `mgf1_xor`. -/
def mgf1Xor (out : Bytes) (dg : DigestState) (seed : Bytes) : Leak (Bytes × DigestState) := do
  branch (out.length ≤ 2 ^ 32) (mgf1XorLoop out.length out.length out dg seed ⟨0, 0, 0, 0⟩) (ofRes (.panic .assert))

/-- src/algorithms/mgf.rs:49-65, outer loop of `mgf1_xor_digest`. -/
def mgf1XorDigestLoop (olen : Nat) : Nat → Bytes → DigestState → Bytes → Counter → Leak (Bytes × DigestState)
  | _, [], dg, _, _ => do
    emit (.branch false)
    ofRes (.ok ([], dg))
  | 0, _ :: _, _, _, _ => ofRes .loop
  | fuel + 1, o :: os, dg, seed, counter => do
    emit (.branch true)
    let dg ← update dg seed
    let dg ← update dg counter.bytes
    let (digestOutput, dg) ← finalizeReset dg
    let (done, rest) ← xorInto digestOutput.length olen 0 (olen - (os.length + 1)) digestOutput (o :: os)
    let counter ← incCounter counter
    let (tail, dg) ← mgf1XorDigestLoop olen fuel rest dg seed counter
    ofRes (.ok (done ++ tail, dg))

/-- src/algorithms/mgf.rs:36-66 `mgf1_xor_digest`. -/
def mgf1XorDigest (out : Bytes) (dg : DigestState) (seed : Bytes) : Leak (Bytes × DigestState) := do
  branch (out.length ≤ 2 ^ 32) (mgf1XorDigestLoop out.length out.length out dg seed ⟨0, 0, 0, 0⟩) (ofRes (.panic .assert))

/-! ### src/algorithms/oaep.rs -/

/-- src/algorithms/oaep.rs:235-241, the loop body (`len` is the length of `db`, `off` the number of octets skipped). -/
def oaepStep (len off : Nat) (st : Bool × UInt32 × Bool) (e : UInt8 × Nat) : Leak (Bool × UInt32 × Bool) := do
  emit (.read len (off + e.2))
  let (looking, index, nonzero) := st
  let equals0 := e.1 == 0
  let equals1 := e.1 == 1
  let index := if looking && equals1 then UInt32.ofNat e.2 else index -- `conditional_assign`
  let looking := looking && !equals1
  let nonzero := nonzero || (looking && !equals0)
  ofRes (.ok (looking, index, nonzero))

/-- src/algorithms/oaep.rs:199-249 `decrypt_inner`. -/
def oaepDecryptInner (em : Bytes) (hSize : Nat) (expectedPHash : Bytes) (k : Nat)
    (mgf : Bytes → Bytes → Leak (Bytes × Bytes)) : Leak (Bool × Bytes × UInt32) := do
  branch (k < 11) (ofRes (.err .decryption)) do
    branch (k < hSize * 2 + 2) (ofRes (.err .decryption)) do
      let b0 ← idx em 0
      let firstByteIsZero := b0 == 0
      let (first, payload) ← splitAt em 1
      let (seed, db) ← splitAt payload hSize
      let (seed, db) ← mgf seed db
      let h ← slice db 0 hSize
      let hashAreEqual ← ctEq h expectedPHash
      let (looking, index, nonzero) ← forIn (oaepStep db.length hSize) (db.drop hSize).zipIdx (true, 0, false)
      let valid := firstByteIsZero && hashAreEqual && !nonzero && !looking
      emit (.alloc (first ++ (seed ++ db)).length) -- `em.to_vec()`
      ofRes (.ok (valid, first ++ (seed ++ db), index + 2 + UInt32.ofNat (hSize * 2)))

/-- src/algorithms/oaep.rs:118-158 `oaep_decrypt`. -/
def oaepDecrypt (em : Bytes) (digest mgfDigest : DigestState) (label : Option Bytes) (k : Nat) : Leak Bytes := do
  let hSize := digest.outputSize
  let label := label.getD []
  branch (label.length ≥ maxLabelLen) (ofRes (.err .decryption)) do
    let digest ← update digest label
    let (expectedPHash, _) ← finalizeReset digest
    let (valid, out, index) ← oaepDecryptInner em hSize expectedPHash k (fun seed db => do
      let (seed, mgfDigest) ← mgf1Xor seed mgfDigest db
      let (db, _) ← mgf1Xor db mgfDigest seed
      ofRes (.ok (seed, db)))
    branch (valid = false) (ofRes (.err .decryption)) (sliceFrom out index.toNat)

/-- src/algorithms/oaep.rs:160-197 `oaep_decrypt_digest::<D, MGD>`. -/
def oaepDecryptDigest (em : Bytes) (D MGD : HashFn) (label : Option Bytes) (k : Nat) : Leak Bytes := do
  let hSize := D.outLen
  let label := label.getD []
  branch (label.length ≥ maxLabelLen) (ofRes (.err .labelTooLong)) do
    emit (.absorb label.length)
    let expectedPHash := D.hash label
    let (valid, out, index) ← oaepDecryptInner em hSize expectedPHash k (fun seed db => do
      let mgfDigest := DigestState.new MGD
      let (seed, mgfDigest) ← mgf1XorDigest seed mgfDigest db
      let (db, _) ← mgf1XorDigest db mgfDigest seed
      ofRes (.ok (seed, db)))
    branch (valid = false) (ofRes (.err .decryption)) (sliceFrom out index.toNat)

/-! ### src/algorithms/pad.rs -/

/-- src/algorithms/pad.rs:10-19 `left_pad`. -/
def leftPad (input : Bytes) (paddedLen : Nat) : Leak Bytes := do
  branch (input.length > paddedLen) (ofRes (.err .invalidPadLen)) do
    let out := List.replicate paddedLen (0 : UInt8)
    emit (.alloc paddedLen)
    let off ← subU paddedLen input.length
    copyInto out off paddedLen input

/-- src/algorithms/pad.rs:33-41 `uint_to_zeroizing_be_pad`. -/
def uintToZeroizingBePad (input : BoxedUint) (paddedLen : Nat) : Leak Bytes := do
  emit (.opaque "leading_zeros")
  let lz := input.leadingZeros / 8
  let m := input
  emit (.alloc (8 * input.nlimbs))
  let m := m.toBeBytes
  let b ← sliceFrom m lz
  leftPad b paddedLen

/-! ### src/algorithms/rsa.rs

An operation of the bignum crate is one event: its name and the storage sizes of its operands. -/

/-- A call into the bignum crate. -/
def bn (name : String) (sizes : List Nat) : Leak Unit := emit (.bignum name sizes)

/-- Number of limbs of a Montgomery modulus. -/
def limbsOf (p : MontyParams) : Nat := p.modulus.toBoxedUint.nlimbs

def widen (x : BoxedUint) (bits : Nat) : Leak BoxedUint := do
  bn "widen" [x.nlimbs, bits]
  ofRes (x.widen bits)

def shorten (x : BoxedUint) (bits : Nat) : Leak BoxedUint := do
  bn "shorten" [x.nlimbs, bits]
  ofRes (x.shorten bits)

def montyNew (x : BoxedUint) (p : MontyParams) : Leak MontyForm := do
  bn "BoxedMontyForm::new" [x.nlimbs, limbsOf p]
  ofRes (MontyForm.new x p)

def montyMul (x y : MontyForm) : Leak MontyForm := do
  bn "BoxedMontyForm::mul" [limbsOf x.params, limbsOf y.params]
  ofRes (x.mul y)

/-- src/algorithms/rsa.rs:211-223 `reduce_vartime`. -/
def reduceVartime (x : BoxedUint) (p : MontyParams) : Leak MontyForm := do
  let bitsPrecision := p.modulus.toBoxedUint.prec
  let modulus := p.modulus.toBoxedUint
  let x ← branch (x.prec < bitsPrecision) (widen x bitsPrecision)
    (branch (x.prec = bitsPrecision) (ofRes (.ok x)) (shorten x bitsPrecision))
  bn "rem_vartime" [x.nlimbs, modulus.nlimbs]
  let xReduced ← widen (x.rem modulus) p.prec
  montyNew xReduced p

/-- src/algorithms/rsa.rs:205-209 `pow_mod_params`. -/
def powModParams (base exp : BoxedUint) (nParams : MontyParams) : Leak BoxedUint := do
  let base ← reduceVartime base nParams
  bn "pow" [limbsOf base.params, exp.nlimbs]
  ofRes (.ok (base.pow exp).retrieve)

/-- src/algorithms/rsa.rs:225-231 `mul_mod_params`. -/
def mulModParams (lhs rhs : BoxedUint) (nParams : MontyParams) : Leak BoxedUint := do
  let lhs ← montyNew lhs nParams
  let rhs ← montyNew rhs nParams
  let r ← montyMul lhs rhs
  ofRes (.ok r.retrieve)

/-- src/algorithms/rsa.rs:13-23 `rsa_encrypt`. -/
def rsaEncrypt (key : PublicKey) (m : BoxedUint) : Leak BoxedUint :=
  powModParams m key.e key.nParams

/-- src/algorithms/rsa.rs:158-168, the `while ir.is_none()` loop of `blind`. -/
def blindLoop {σ : Type} (R : RngImpl σ) (n : BoxedUint) : Nat → σ → Leak ((BoxedUint × BoxedUint) × σ)
  | 0, _ => ofRes .loop
  | fuel + 1, s => do
    bn "try_random_mod" [n.nlimbs]
    match R.randMod s n.val with
    | (none, _) => do
      emit (.branch false)
      ofRes (.err .rng)
    | (some rv, s) => do
      emit (.branch true)
      let r := wrap n.nlimbs rv
      let r ← branch (r.isZero = true) (ofRes (.ok (oneWithPrecision n.prec))) (ofRes (.ok r))
      bn "inv_mod" [r.nlimbs, n.nlimbs]
      match r.invMod n with
      | some ir => do
        emit (.branch true)
        ofRes (.ok ((r, ir), s))
      | none => do
        emit (.branch false)
        blindLoop R n fuel s

/-- A debug assertion. -/
def debugAssert (b : Bool) : Leak Unit := do
  branch (b = true) (ofRes (.ok ())) (ofRes (.panic .assert))

/-- src/algorithms/rsa.rs:144-185 `blind`. -/
def blind {σ : Type} (R : RngImpl σ) (fuel : Nat) (s : σ) (key : PublicKey) (c : BoxedUint) (nParams : MontyParams) :
    Leak ((BoxedUint × BoxedUint) × σ) := do
  debugAssert (key.n.beq nParams.modulus.toBoxedUint)
  let bits := key.nBitsPrecision
  let ((r, ir), s) ← blindLoop R key.n fuel s
  let rpowe ← powModParams r key.e nParams
  let blinded ← mulModParams c rpowe nParams
  debugAssert (decide (blinded.prec = bits))
  debugAssert (decide (ir.prec = bits))
  ofRes (.ok ((blinded, ir), s))

/-- src/algorithms/rsa.rs:187-203 `unblind`. -/
def unblind (m unblinder : BoxedUint) (nParams : MontyParams) : Leak BoxedUint := do
  debugAssert (decide (m.prec = unblinder.prec))
  debugAssert (decide (m.prec = nParams.prec))
  mulModParams m unblinder nParams

/-- `primes[i]`. -/
def primeAt (l : List BoxedUint) (i : Nat) : Leak BoxedUint := do
  emit (.read l.length i)
  ofRes (RSA.primeAt l i)

/-- src/algorithms/rsa.rs:59-102, the exponentiation of `rsa_decrypt`. -/
def rsaPrivateExp (k : PrivateKey) (c : BoxedUint) : Leak BoxedUint := do
  let isMultiprime := decide (k.primes.length > 2)
  emit (.branch k.precomputed.isSome)
  emit (.branch isMultiprime)
  match k.precomputed, isMultiprime with
  | some pre, false =>
    let _p ← primeAt k.primes 0
    let q ← primeAt k.primes 1
    let cp ← montyNew c pre.pParams
    bn "pow" [limbsOf cp.params, pre.dp.nlimbs]
    let m1 := cp.pow pre.dp
    let cq ← montyNew c pre.qParams
    bn "pow" [limbsOf cq.params, pre.dq.nlimbs]
    let m2 := (cq.pow pre.dq).retrieve
    let m2r ← montyNew m2 pre.pParams
    bn "BoxedMontyForm::sub" [limbsOf m1.params, limbsOf m2r.params]
    let m1 ← ofRes (m1.sub m2r)
    let h ← montyMul pre.qinv m1
    let m := h.retrieve
    bn "wrapping_mul" [m.nlimbs, q.nlimbs]
    let m := m.wrappingMul q
    bn "wrapping_add" [m.nlimbs, m2.nlimbs]
    let m := m.wrappingAdd m2
    ofRes (.ok m)
  | _, _ => powModParams c k.d k.pub.nParams

/-- src/algorithms/rsa.rs:25-114 `rsa_decrypt`. -/
def rsaDecrypt {σ : Type} (R : RngImpl σ) (fuel : Nat) (rng : Option σ) (k : PrivateKey) (c : BoxedUint) :
    Leak (BoxedUint × Option σ) := do
  let n := k.pub.n
  let d := k.d
  bn "cmp" [c.nlimbs, n.nlimbs]
  branch (c.ge n = true) (ofRes (.err .decryption)) do
    let nParams := k.pub.nParams
    let bits := d.prec
    emit (.branch rng.isSome)
    match rng with
    | some s =>
      let ((blinded, unblinder), s) ← blind R fuel s k.pub c nParams
      let c ← widen blinded bits
      let m ← rsaPrivateExp k c
      let m ← shorten m nParams.prec
      let res ← unblind m unblinder nParams
      ofRes (.ok (res, some s))
    | none =>
      let c ← widen c bits
      let m ← rsaPrivateExp k c
      let m ← shorten m nParams.prec
      ofRes (.ok (m, none))

/-- src/algorithms/rsa.rs:116-142 `rsa_decrypt_and_check`. -/
def rsaDecryptAndCheck {σ : Type} (R : RngImpl σ) (fuel : Nat) (k : PrivateKey) (rng : Option σ) (c : BoxedUint) :
    Leak (BoxedUint × Option σ) := do
  let (m, rng) ← rsaDecrypt R fuel rng k c
  let check ← rsaEncrypt k.pub m
  bn "eq" [c.nlimbs, check.nlimbs]
  branch (c.beq check = false) (ofRes (.err .internal)) (ofRes (.ok (m, rng)))

/-! ### Scheme level. The ciphertext and the public key are public, so nothing is recorded about the tests made on them. -/

/-- src/pkcs1v15.rs:160-172 `decrypt`. -/
def pkcs1v15Decrypt {σ : Type} (R : RngImpl σ) (fuel : Nat) (rng : Option σ) (privKey : PrivateKey) (ciphertext : Bytes) :
    Leak Bytes := do
  ofRes (checkPublic privKey.pub)
  let ciphertext ← ofRes (fromBeSlice ciphertext privKey.pub.nBitsPrecision)
  let (em, _) ← rsaDecryptAndCheck R fuel privKey rng ciphertext
  let em ← uintToZeroizingBePad em privKey.pub.size
  pkcs1v15EncryptUnpad em privKey.pub.size

/-- src/oaep.rs:239-257 `decrypt`. -/
def oaepSchemeDecrypt {σ : Type} (R : RngImpl σ) (fuel : Nat) (rng : Option σ) (privKey : PrivateKey) (ciphertext : Bytes)
    (digest mgfDigest : DigestState) (label : Option Bytes) : Leak Bytes := do
  if ciphertext.length ≠ privKey.pub.size then
    ofRes (.err .decryption)
  else
    let ciphertext ← ofRes (fromBeSlice ciphertext privKey.pub.nBitsPrecision)
    let (em, _) ← rsaDecryptAndCheck R fuel privKey rng ciphertext
    let em ← uintToZeroizingBePad em privKey.pub.size
    oaepDecrypt em digest mgfDigest label privKey.pub.size

/-- src/oaep.rs:272-289 `decrypt_digest::<_, D, MGD>`. -/
def oaepSchemeDecryptDigest {σ : Type} (R : RngImpl σ) (fuel : Nat) (D MGD : HashFn) (rng : Option σ)
    (privKey : PrivateKey) (ciphertext : Bytes) (label : Option Bytes) : Leak Bytes := do
  ofRes (checkPublic privKey.pub)
  if ciphertext.length ≠ privKey.pub.size then
    ofRes (.err .decryption)
  else
    let ciphertext ← ofRes (fromBeSlice ciphertext privKey.pub.nBitsPrecision)
    let (em, _) ← rsaDecryptAndCheck R fuel privKey rng ciphertext
    let em ← uintToZeroizingBePad em privKey.pub.size
    oaepDecryptDigest em D MGD label privKey.pub.size

end leak
end RSA
