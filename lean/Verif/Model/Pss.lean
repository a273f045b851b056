import Verif.Model.Pkcs1v15
import Verif.Model.PssPad

/- src/pss.rs and src/pss/*.rs -/
namespace RSA
open BoxedUint
namespace pss

/-- src/pss.rs:127-142 `verify`. -/
def verify (pubKey : PublicKey) (hashed : Bytes) (sig : BoxedUint) (sigLen : Nat) (digest : DigestState)
    (saltLen : Nat) : Res Unit := do
  if sigLen ≠ pubKey.size then
    .err .verification
  else
    let raw ← rsaEncrypt pubKey sig
    let em ← uintToBePad raw pubKey.size
    emsaPssVerify hashed em saltLen digest pubKey.n.bits

/-- src/pss.rs:144-161 `verify_digest::<D>`. -/
def verifyDigest (D : HashFn) (pubKey : PublicKey) (hashed : Bytes) (sig : BoxedUint) (saltLen : Nat) : Res Unit := do
  let n := pubKey.n
  if sig.ge n || sig.prec != pubKey.nBitsPrecision then
    .err .verification
  else
    let em ← uintToBePad (← rsaEncrypt pubKey sig) pubKey.size
    emsaPssVerifyDigest hashed em saltLen D pubKey.n.bits

/-- src/pss.rs:200-214 `sign_pss_with_salt`. -/
def signPssWithSalt {σ : Type} (R : RngImpl σ) (fuel : Nat) (blindRng : Option σ) (privKey : PrivateKey)
    (hashed salt : Bytes) (digest : DigestState) : Res Bytes := do
  let emBits ← subU privKey.pub.n.bits 1
  let em ← emsaPssEncode hashed emBits salt digest
  let em ← fromBeSlice em privKey.pub.nBitsPrecision
  let (raw, _) ← rsaDecryptAndCheck R fuel privKey blindRng em
  uintToZeroizingBePad raw privKey.pub.size

/-- src/pss.rs:216-230 `sign_pss_with_salt_digest::<_, D>`. -/
def signPssWithSaltDigest {σ : Type} (R : RngImpl σ) (fuel : Nat) (D : HashFn) (blindRng : Option σ)
    (privKey : PrivateKey) (hashed salt : Bytes) : Res Bytes := do
  let emBits ← subU privKey.pub.n.bits 1
  let em ← emsaPssEncodeDigest hashed emBits salt D
  let em ← fromBeSlice em privKey.pub.nBitsPrecision
  let (raw, _) ← rsaDecryptAndCheck R fuel privKey blindRng em
  uintToZeroizingBePad raw privKey.pub.size

/-- src/pss.rs:168-180 `sign`; `blind.then_some(rng)` passes the generator on after the salt was drawn. -/
def sign {σ : Type} (R : RngImpl σ) (fuel : Nat) (rng : σ) (blind : Bool) (privKey : PrivateKey) (hashed : Bytes)
    (saltLen : Nat) (digest : DigestState) : Res Bytes := do
  let (salt, rng) ← R.tryFill rng saltLen
  signPssWithSalt R fuel (if blind then some rng else none) privKey hashed salt digest

/-- src/pss.rs:182-193 `sign_digest::<_, D>`. -/
def signDigest {σ : Type} (R : RngImpl σ) (fuel : Nat) (D : HashFn) (rng : σ) (blind : Bool) (privKey : PrivateKey)
    (hashed : Bytes) (saltLen : Nat) : Res Bytes := do
  let (salt, rng) ← R.tryFill rng saltLen
  signPssWithSaltDigest R fuel D (if blind then some rng else none) privKey hashed salt

/-- src/pss.rs:42-51 `struct Pss`. -/
structure Pss where
  blinded : Bool
  digest : DigestState
  saltLen : Nat

namespace Pss

/-- src/pss.rs:60-67 `Pss::new_with_salt::<T>`. -/
def newWithSalt (T : HashFn) (len : Nat) : Pss := { blinded := false, digest := DigestState.new T, saltLen := len }

/-- src/pss.rs:54-58 `Pss::new::<T>`. -/
def new (T : HashFn) : Pss := newWithSalt T T.outLen

/-- src/pss.rs:75-85 `Pss::new_blinded_with_salt::<T>`. -/
def newBlindedWithSalt (T : HashFn) (len : Nat) : Pss :=
  { blinded := true, digest := DigestState.new T, saltLen := len }

/-- src/pss.rs:69-73 `Pss::new_blinded::<T>`. -/
def newBlinded (T : HashFn) : Pss := newBlindedWithSalt T T.outLen

/-- src/pss.rs:89-103 `SignatureScheme::sign for Pss`. -/
def sign {σ : Type} (S : Pss) (R : RngImpl σ) (fuel : Nat) (rng : Option σ) (privKey : PrivateKey) (hashed : Bytes) :
    Res Bytes :=
  match rng with
  | none => .err .invalidPaddingScheme
  | some rng => pss.sign R fuel rng S.blinded privKey hashed S.saltLen S.digest

/-- src/pss.rs:105-114 `SignatureScheme::verify for Pss`. -/
def verify (S : Pss) (pubKey : PublicKey) (hashed sig : Bytes) : Res Unit := do
  let bits ← lenBitsU32 sig.length
  let s ← fromBeSlice sig bits
  pss.verify pubKey hashed s sig.length S.digest S.saltLen

end Pss

/-- src/pss/signature.rs:18-21 `Signature`. -/
structure Signature where
  inner : BoxedUint
  deriving DecidableEq, Repr

/-- src/pss/signature.rs:33-48 `TryFrom<&[u8]> for Signature`. -/
def Signature.tryFrom (b : Bytes) : Res Signature := do
  let bits ← lenBitsU32 b.length
  let inner ← fromBeSlice b bits
  .ok ⟨inner⟩

/-- src/pss/signature.rs:50-54 `From<Signature> for Box<[u8]>`. -/
def Signature.toBytes (s : Signature) : Bytes := s.inner.toBeBytes

/-- src/pss/signature.rs:18 derived `PartialEq`. -/
def Signature.eq (a b : Signature) : Bool := a.inner.beq b.inner

/-- src/pss/signing_key.rs:36-43 `SigningKey<D>`. -/
structure SigningKey (D : HashFn) where
  inner : PrivateKey
  saltLen : Nat
  deriving DecidableEq, Repr

/-- src/pss/blinded_signing_key.rs:26-33 `BlindedSigningKey<D>`. -/
structure BlindedSigningKey (D : HashFn) where
  inner : PrivateKey
  saltLen : Nat
  deriving DecidableEq, Repr

/-- src/pss/verifying_key.rs:22-29 `VerifyingKey<D>`. -/
structure VerifyingKey (D : HashFn) where
  inner : PublicKey
  saltLen : Nat
  deriving DecidableEq, Repr

/-- `pkcs1::RsaPssParams` (external): hash, MGF1 with the same hash, salt length, default trailer. -/
structure PssParams where
  hashOid : Bytes
  mgfHashOid : Bytes
  saltLen : UInt8
  deriving DecidableEq, Repr

/-- src/pss.rs:241-251 `get_pss_signature_algo_id::<D>` (the parameters as a record; their DER is in Model/AlgId.lean). -/
def getPssSignatureAlgoId (oid : Bytes) (saltLen : UInt8) : PssParams :=
  { hashOid := oid, mgfHashOid := oid, saltLen := saltLen }

/-- src/pss.rs:232-239 `get_default_pss_signature_algo_id::<D>`. -/
def getDefaultPssSignatureAlgoId (D : HashFn) (oid : Bytes) : PssParams :=
  getPssSignatureAlgoId oid (UInt8.ofNat D.outLen)

namespace SigningKey
variable {D : HashFn}

/-- src/pss/signing_key.rs:55-62 `new_with_salt_len`. -/
def newWithSaltLen (key : PrivateKey) (saltLen : Nat) : SigningKey D := { inner := key, saltLen := saltLen }

/-- src/pss/signing_key.rs:49-53 `new`. -/
def new (key : PrivateKey) : SigningKey D := newWithSaltLen key D.outLen

/-- src/pss/signing_key.rs:93-106 `try_sign_digest_with_rng`. -/
def trySignDigestWithRng {σ : Type} (R : RngImpl σ) (fuel : Nat) (rng : σ) (k : SigningKey D) (digest : Bytes) :
    Res Signature := do
  let s ← signDigest R fuel D rng false k.inner (D.hash digest) k.saltLen
  Signature.tryFrom s

/-- src/pss/signing_key.rs:108-119 `try_sign_with_rng`. -/
def trySignWithRng {σ : Type} (R : RngImpl σ) (fuel : Nat) (rng : σ) (k : SigningKey D) (msg : Bytes) :
    Res Signature := trySignDigestWithRng R fuel rng k msg

/-- src/pss/signing_key.rs:121-134 `sign_prehash_with_rng`. -/
def signPrehashWithRng {σ : Type} (R : RngImpl σ) (fuel : Nat) (rng : σ) (k : SigningKey D) (prehash : Bytes) :
    Res Signature := do
  let s ← signDigest R fuel D rng false k.inner prehash k.saltLen
  Signature.tryFrom s

/-- src/pss/signing_key.rs:214-226 `verifying_key`. -/
def verifyingKey (k : SigningKey D) : VerifyingKey D := { inner := k.inner.toPublicKey, saltLen := k.saltLen }

/-- src/pss/signing_key.rs:178-185 `signature_algorithm_identifier` (`salt_len as u8` truncates). -/
def signatureAlgorithmIdentifier (oid : Bytes) (k : SigningKey D) : PssParams :=
  getPssSignatureAlgoId oid (UInt8.ofNat k.saltLen)

/-- src/pss/signing_key.rs:242-249 `PartialEq`. -/
def eq (a b : SigningKey D) : Bool := a.inner.eq b.inner && a.saltLen == b.saltLen

end SigningKey

namespace BlindedSigningKey
variable {D : HashFn}

/-- src/pss/blinded_signing_key.rs:46-54 `new_with_salt_len`. -/
def newWithSaltLen (key : PrivateKey) (saltLen : Nat) : BlindedSigningKey D := { inner := key, saltLen := saltLen }

/-- src/pss/blinded_signing_key.rs:39-44 `new`. -/
def new (key : PrivateKey) : BlindedSigningKey D := newWithSaltLen key D.outLen

/-- src/pss/blinded_signing_key.rs:87-100 `try_sign_with_rng`. -/
def trySignWithRng {σ : Type} (R : RngImpl σ) (fuel : Nat) (rng : σ) (k : BlindedSigningKey D) (msg : Bytes) :
    Res Signature := do
  let s ← signDigest R fuel D rng true k.inner (D.hash msg) k.saltLen
  Signature.tryFrom s

/-- src/pss/blinded_signing_key.rs:102-115 `try_sign_digest_with_rng`. -/
def trySignDigestWithRng {σ : Type} (R : RngImpl σ) (fuel : Nat) (rng : σ) (k : BlindedSigningKey D)
    (digest : Bytes) : Res Signature := do
  let s ← signDigest R fuel D rng true k.inner (D.hash digest) k.saltLen
  Signature.tryFrom s

/-- src/pss/blinded_signing_key.rs:117-130 `sign_prehash_with_rng`. -/
def signPrehashWithRng {σ : Type} (R : RngImpl σ) (fuel : Nat) (rng : σ) (k : BlindedSigningKey D)
    (prehash : Bytes) : Res Signature := do
  let s ← signDigest R fuel D rng true k.inner prehash k.saltLen
  Signature.tryFrom s

/-- src/pss/blinded_signing_key.rs:190-202 `verifying_key`. -/
def verifyingKey (k : BlindedSigningKey D) : VerifyingKey D :=
  { inner := k.inner.toPublicKey, saltLen := k.saltLen }

/-- src/pss/blinded_signing_key.rs:154-161 `signature_algorithm_identifier`. -/
def signatureAlgorithmIdentifier (oid : Bytes) (k : BlindedSigningKey D) : PssParams :=
  getPssSignatureAlgoId oid (UInt8.ofNat k.saltLen)

/-- src/pss/blinded_signing_key.rs:217-224 `PartialEq`. -/
def eq (a b : BlindedSigningKey D) : Bool := a.inner.eq b.inner && a.saltLen == b.saltLen

end BlindedSigningKey

namespace VerifyingKey
variable {D : HashFn}

/-- src/pss/verifying_key.rs:41-48 `new_with_salt_len`. -/
def newWithSaltLen (key : PublicKey) (saltLen : Nat) : VerifyingKey D := { inner := key, saltLen := saltLen }

/-- src/pss/verifying_key.rs:35-39 `new`. -/
def new (key : PublicKey) : VerifyingKey D := newWithSaltLen key D.outLen

/-- src/pss/verifying_key.rs:60-73 `verify_digest`. -/
def verifyDigest (k : VerifyingKey D) (digest : Bytes) (s : Signature) : Res Unit :=
  pss.verifyDigest D k.inner (D.hash digest) s.inner k.saltLen

/-- src/pss/verifying_key.rs:75-83 `verify_prehash`. -/
def verifyPrehash (k : VerifyingKey D) (prehash : Bytes) (s : Signature) : Res Unit :=
  pss.verifyDigest D k.inner prehash s.inner k.saltLen

/-- src/pss/verifying_key.rs:85-98 `verify`. -/
def verify (k : VerifyingKey D) (msg : Bytes) (s : Signature) : Res Unit :=
  pss.verifyDigest D k.inner (D.hash msg) s.inner k.saltLen

/-- src/pss/verifying_key.rs:183-190 `PartialEq`. -/
def eq (a b : VerifyingKey D) : Bool := a.inner.eq b.inner && a.saltLen == b.saltLen

end VerifyingKey

end pss
end RSA
