import Verif.Model.WordsPrivate
import Verif.Model.Encoding

/-
Key validation, reading of DER documents and encryption on machines with words of `w` octets. DER parsing and padding,
which work on octet strings, are those of the other files. Of `from_components` only the part with two factors or more is
repeated, which is all that a document leads to.
-/
namespace RSA
namespace words
open BoxedUint (beBytes beVal)
open Uint der

variable {w : Nat}

/-- `NonZero::new(x).expect(..)`. -/
def expectNonZero (x : Uint w) : Res (Uint w) := if x.val = 0 then .panic .unwrap else .ok x

/-- src/key.rs:475-481, the loop computing `Πprimes` in `validate`. -/
def validateProduct : List (Uint w) → Uint w → Res (Uint w)
  | [], m => .ok m
  | p :: ps, m => if p.val < 1 then .err .invalidPrime else validateProduct ps (m.wrappingMul p)

/-- src/key.rs:494-501, the loop checking `de ≡ 1 mod p-1` in `validate`. -/
def validateExponents (de : Uint w) (dPrec : Nat) : List (Uint w) → Res Unit
  | [] => .ok ()
  | p :: ps => do
    let p ← p.widen dPrec
    let x ← expectNonZero p.wrappingDec
    let congruence := de.rem x
    if congruence.val != 1 then .err .invalidExponent else validateExponents de dPrec ps

/-- src/key.rs:467-504 `validate`. -/
def validate (k : PrivKey w) : Res Unit := do
  checkPublic k.pub
  let m ← validateProduct k.primes (oneWithPrecision k.pub.n.prec)
  if !(m.beq k.pub.n) then
    .err .invalidModulus
  else
    let d ← k.d.widen (2 * k.d.prec)
    let de := d.wrappingMul k.pub.e
    validateExponents de d.prec k.primes

/-- src/key.rs:404-452 `precompute`, errors ignored as in src/key.rs:342-345. -/
def tryPrecompute (k : PrivKey w) : Res (PrivKey w) :=
  if k.precomputed.isSome then .ok k
  else
    match precomputeValues k.d k.primes with
    | .ok v => .ok { k with precomputed := some v }
    | .err _ => .ok k
    | .panic r => .panic r
    | .loop => .loop

/-- src/key.rs:292-346 `from_components`, with two factors. -/
def fromTwo (n : Uint w) (hn : n.val % 2 = 1) (e d p q : Uint w) : Res (PrivKey w) := do
  let k : PrivKey w := { pub := ⟨n, e, hn⟩, d := d, primes := [p, q], precomputed := none }
  validate k
  tryPrecompute k

/-- src/key.rs:220-239 `RsaPublicKey::new`. -/
def newPublic (n e : Uint w) : Res (PubKey w) := do
  checkPublicWithMaxSize n e RSA.maxSize
  if h : n.val % 2 = 1 then .ok ⟨n, e, h⟩ else .err .invalidModulus

/-- src/encoding.rs:42-44 `uint_from_slice`. -/
def uintFromSlice (w : Nat) (data : Bytes) (bits : Nat) : Res (Uint w) :=
  match fromBeSlice w data bits with
  | .err _ => .err .pkcs8
  | r => r

/-- src/encoding.rs:46-78 `TryFrom<PrivateKeyInfoRef> for RsaPrivateKey`. -/
def tryFromInfo (w : Nat) (i : PrivateKeyInfo) : Res (PrivKey w) := do
  verifyAlgorithmId i.algorithm
  let k ← decodeRsaPrivateKey i.privateKey
  if k.multi then
    .err .pkcs8
  else
    let bits ← lenBitsChecked k.modulus.length
    let n ← uintFromSlice w k.modulus bits
    if h : n.val % 2 = 1 then
      let bitsE ← lenBitsChecked k.publicExponent.length
      let e ← uintFromSlice w k.publicExponent bitsE
      let d ← uintFromSlice w k.privateExponent bits
      let prime1 ← uintFromSlice w k.prime1 bits
      let prime2 ← uintFromSlice w k.prime2 bits
      mapErrMalformed (fromTwo n h e d prime1 prime2)
    else .err .pkcs8

/-- src/encoding.rs:80-101 `TryFrom<SubjectPublicKeyInfoRef> for RsaPublicKey`. -/
def tryFromSpki (w : Nat) (i : SubjectPublicKeyInfo) : Res (PubKey w) := do
  verifyAlgorithmId i.algorithm
  if i.unusedBits ≠ 0 then
    .err .pkcs8
  else
    let k ← decodeRsaPublicKey i.subjectPublicKey
    let bits ← lenBitsChecked k.modulus.length
    let n ← uintFromSlice w k.modulus bits
    let bitsE ← lenBitsChecked k.publicExponent.length
    let e ← uintFromSlice w k.publicExponent bitsE
    mapErrMalformed (newPublic n e)

/-- `DecodePrivateKey::from_pkcs8_der`. -/
def fromPkcs8Der (w : Nat) (b : Bytes) : Res (PrivKey w) := do
  let i ← decodePrivateKeyInfo b
  tryFromInfo w i

/-- `DecodePublicKey::from_public_key_der`. -/
def fromPublicKeyDer (w : Nat) (b : Bytes) : Res (PubKey w) := do
  let i ← decodeSubjectPublicKeyInfo b
  tryFromSpki w i

/-- src/pkcs1v15.rs:138-148 `encrypt`. -/
def pkcs1v15Encrypt {σ : Type} (R : RngImpl σ) (fuel : Nat) (rng : σ) (pubKey : PubKey w) (msg : Bytes) :
    Res (Bytes × σ) := do
  checkPublic pubKey
  let (em, rng) ← pkcs1v15EncryptPad R fuel rng msg pubKey.size
  let int ← fromBeSlice w em pubKey.nBitsPrecision
  let c ← uintToBePad (← rsaEncrypt pubKey int) pubKey.size
  .ok (c, rng)

/-- src/oaep.rs:189-203 `encrypt`. -/
def oaepEncrypt {σ : Type} (R : RngImpl σ) (rng : σ) (pubKey : PubKey w) (msg : Bytes) (digest mgfDigest : DigestState)
    (label : Option Bytes) : Res (Bytes × σ) := do
  checkPublic pubKey
  let (em, rng) ← RSA.oaepEncrypt R rng msg digest mgfDigest label pubKey.size
  let int ← fromBeSlice w em pubKey.nBitsPrecision
  let c ← uintToBePad (← rsaEncrypt pubKey int) pubKey.size
  .ok (c, rng)

end words
end RSA
