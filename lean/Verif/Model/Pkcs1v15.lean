import Verif.Model.Key
import Verif.Model.Pad
import Verif.Model.Pkcs1v15Pad

/- src/pkcs1v15.rs -/
namespace RSA
open BoxedUint

/-- `len as u32 * 8` (the cast truncates, the product panics on overflow when overflow checks are on). -/
def lenBitsU32 (len : Nat) : Res Nat := if len % 2 ^ 32 * 8 < 2 ^ 32 then .ok (len % 2 ^ 32 * 8) else .panic .arith

/-- src/dummy_rng.rs:6-22 `DummyRng`. Every call would panic (`unimplemented!`); it is only ever passed as the type of
an absent generator (`None`), see `dummyRng_unused`-style theorems. Modelled as a generator that always fails. -/
def dummyRng : RngImpl Unit where
  fill := fun s _ => (none, s)
  randMod := fun s _ => (none, s)
  fill_len := by intro s n b h; exact absurd h (by simp)
  randMod_lt := by intro s n r h; exact absurd h (by simp)

namespace pkcs1v15

/-- src/pkcs1v15.rs:138-148 `encrypt`. -/
def encrypt {σ : Type} (R : RngImpl σ) (fuel : Nat) (rng : σ) (pubKey : PublicKey) (msg : Bytes) :
    Res (Bytes × σ) := do
  checkPublic pubKey
  let (em, rng) ← pkcs1v15EncryptPad R fuel rng msg pubKey.size
  let int ← fromBeSlice em pubKey.nBitsPrecision
  let c ← uintToBePad (← rsaEncrypt pubKey int) pubKey.size
  .ok (c, rng)

/-- src/pkcs1v15.rs:160-172 `decrypt`. -/
def decrypt {σ : Type} (R : RngImpl σ) (fuel : Nat) (rng : Option σ) (privKey : PrivateKey) (ciphertext : Bytes) :
    Res Bytes := do
  checkPublic privKey.pub
  let ciphertext ← fromBeSlice ciphertext privKey.pub.nBitsPrecision
  let (em, _) ← rsaDecryptAndCheck R fuel privKey rng ciphertext
  let em ← uintToZeroizingBePad em privKey.pub.size
  pkcs1v15EncryptUnpad em privKey.pub.size

/-- src/pkcs1v15.rs:188-198 `sign`. -/
def sign {σ : Type} (R : RngImpl σ) (fuel : Nat) (rng : Option σ) (privKey : PrivateKey) (pfx hashed : Bytes) :
    Res Bytes := do
  let em ← pkcs1v15SignPad pfx hashed privKey.pub.size
  let em ← fromBeSlice em privKey.pub.nBitsPrecision
  let (m, _) ← rsaDecryptAndCheck R fuel privKey rng em
  uintToZeroizingBePad m privKey.pub.size

/-- src/pkcs1v15.rs:202-211 `verify`. -/
def verify (pubKey : PublicKey) (pfx hashed : Bytes) (sig : BoxedUint) : Res Unit := do
  let n := pubKey.n
  if sig.ge n || sig.prec != pubKey.nBitsPrecision then
    .err .verification
  else
    let em ← uintToBePad (← rsaEncrypt pubKey sig) pubKey.size
    pkcs1v15SignUnpad pfx hashed em pubKey.size

/-- src/pkcs1v15.rs:60-66 `struct Pkcs1v15Sign`. -/
structure Pkcs1v15Sign where
  hashLen : Option Nat
  pfx : Bytes
  deriving DecidableEq, Repr

namespace Pkcs1v15Sign

/-- src/pkcs1v15.rs:68-81 `Pkcs1v15Sign::new::<D>`; `oid` = `D::OID.as_bytes()`. -/
def new (D : HashFn) (oid : Bytes) : Res Pkcs1v15Sign := do
  let p ← pkcs1v15GeneratePrefix oid D.outLen
  .ok { hashLen := some D.outLen, pfx := p }

/-- src/pkcs1v15.rs:83-91 `Pkcs1v15Sign::new_unprefixed`. -/
def newUnprefixed : Pkcs1v15Sign := { hashLen := none, pfx := [] }

/-- src/pkcs1v15.rs:109-113, 119-123: `hashed.len()` against the expected digest length. -/
def checkHashLen (S : Pkcs1v15Sign) (hashed : Bytes) : Res Unit :=
  match S.hashLen with
  | some l => if hashed.length ≠ l then .err .inputNotHashed else .ok ()
  | none => .ok ()

/-- src/pkcs1v15.rs:103-116 `SignatureScheme::sign for Pkcs1v15Sign`. -/
def sign {σ : Type} (S : Pkcs1v15Sign) (R : RngImpl σ) (fuel : Nat) (rng : Option σ) (privKey : PrivateKey)
    (hashed : Bytes) : Res Bytes := do
  S.checkHashLen hashed
  pkcs1v15.sign R fuel rng privKey S.pfx hashed

/-- src/pkcs1v15.rs:118-131 `SignatureScheme::verify for Pkcs1v15Sign`. -/
def verify (S : Pkcs1v15Sign) (pubKey : PublicKey) (hashed sig : Bytes) : Res Unit := do
  S.checkHashLen hashed
  let bits ← lenBitsU32 sig.length
  let s ← fromBeSlice sig bits
  pkcs1v15.verify pubKey S.pfx hashed s

end Pkcs1v15Sign

/-- src/pkcs1v15/signature.rs:18-21 `Signature`. -/
structure Signature where
  inner : BoxedUint
  deriving DecidableEq, Repr

/-- src/pkcs1v15/signature.rs:33-47 `TryFrom<&[u8]> for Signature` (the error is boxed into `signature::Error`; here it
is kept). -/
def Signature.tryFrom (b : Bytes) : Res Signature := do
  let bits ← lenBitsU32 b.length
  let inner ← fromBeSlice b bits
  .ok ⟨inner⟩

/-- src/pkcs1v15/signature.rs:49-53 `From<Signature> for Box<[u8]>` (and `to_bytes`, `to_vec` through it). -/
def Signature.toBytes (s : Signature) : Bytes := s.inner.toBeBytes

/-- src/pkcs1v15/signature.rs:18 derived `PartialEq`. -/
def Signature.eq (a b : Signature) : Bool := a.inner.beq b.inner

/-- src/pkcs1v15/signing_key.rs:29-36 `SigningKey<D>`. -/
structure SigningKey (D : HashFn) where
  inner : PrivateKey
  pfx : Bytes
  deriving DecidableEq, Repr

/-- src/pkcs1v15/verifying_key.rs:27-34 `VerifyingKey<D>`. -/
structure VerifyingKey (D : HashFn) where
  inner : PublicKey
  pfx : Bytes
  deriving DecidableEq, Repr

namespace SigningKey
variable {D : HashFn}

/-- src/pkcs1v15/signing_key.rs:42-49 `SigningKey::new`. -/
def new (oid : Bytes) (key : PrivateKey) : Res (SigningKey D) := do
  let p ← pkcs1v15GeneratePrefix oid D.outLen
  .ok { inner := key, pfx := p }

/-- src/pkcs1v15/signing_key.rs:77-88 `SigningKey::new_unprefixed`. -/
def newUnprefixed (key : PrivateKey) : SigningKey D := { inner := key, pfx := [] }

/-- src/pkcs1v15/signing_key.rs:104-113 `DigestSigner::try_sign_digest`. -/
def trySignDigest (k : SigningKey D) (digest : Bytes) : Res Signature := do
  let s ← sign dummyRng 0 none k.inner k.pfx (D.hash digest)
  Signature.tryFrom s

/-- src/pkcs1v15/signing_key.rs:115-124 `PrehashSigner::sign_prehash`. -/
def signPrehash (k : SigningKey D) (prehash : Bytes) : Res Signature := do
  let s ← sign dummyRng 0 none k.inner k.pfx prehash
  Signature.tryFrom s

/-- src/pkcs1v15/signing_key.rs:126-139 `RandomizedDigestSigner::try_sign_digest_with_rng`; `digest` = the bytes absorbed
by the digest object. -/
def trySignDigestWithRng {σ : Type} (R : RngImpl σ) (fuel : Nat) (rng : σ) (k : SigningKey D) (digest : Bytes) :
    Res Signature := do
  let s ← sign R fuel (some rng) k.inner k.pfx (D.hash digest)
  Signature.tryFrom s

/-- src/pkcs1v15/signing_key.rs:141-154 `RandomizedSigner::try_sign_with_rng`. -/
def trySignWithRng {σ : Type} (R : RngImpl σ) (fuel : Nat) (rng : σ) (k : SigningKey D) (msg : Bytes) :
    Res Signature := do
  let s ← sign R fuel (some rng) k.inner k.pfx (D.hash msg)
  Signature.tryFrom s

/-- src/pkcs1v15/signing_key.rs:156-165 `Signer::try_sign`. -/
def trySign (k : SigningKey D) (msg : Bytes) : Res Signature := do
  let s ← sign dummyRng 0 none k.inner k.pfx (D.hash msg)
  Signature.tryFrom s

/-- src/pkcs1v15/signing_key.rs:216-229 `Keypair::verifying_key`. -/
def verifyingKey (k : SigningKey D) : VerifyingKey D := { inner := k.inner.toPublicKey, pfx := k.pfx }

/-- src/pkcs1v15/signing_key.rs:260-267 `PartialEq`. -/
def eq (a b : SigningKey D) : Bool := a.inner.eq b.inner && a.pfx == b.pfx

end SigningKey

namespace VerifyingKey
variable {D : HashFn}

/-- src/pkcs1v15/verifying_key.rs:40-47 `VerifyingKey::new`. -/
def new (oid : Bytes) (key : PublicKey) : Res (VerifyingKey D) := do
  let p ← pkcs1v15GeneratePrefix oid D.outLen
  .ok { inner := key, pfx := p }

/-- src/pkcs1v15/verifying_key.rs:60-71 `VerifyingKey::new_unprefixed`. -/
def newUnprefixed (key : PublicKey) : VerifyingKey D := { inner := key, pfx := [] }

/-- src/pkcs1v15/verifying_key.rs:78-91 `DigestVerifier::verify_digest`. -/
def verifyDigest (k : VerifyingKey D) (digest : Bytes) (s : Signature) : Res Unit :=
  pkcs1v15.verify k.inner k.pfx (D.hash digest) s.inner

/-- src/pkcs1v15/verifying_key.rs:93-100 `PrehashVerifier::verify_prehash`. -/
def verifyPrehash (k : VerifyingKey D) (prehash : Bytes) (s : Signature) : Res Unit :=
  pkcs1v15.verify k.inner k.pfx prehash s.inner

/-- src/pkcs1v15/verifying_key.rs:102-115 `Verifier::verify`. -/
def verify (k : VerifyingKey D) (msg : Bytes) (s : Signature) : Res Unit :=
  pkcs1v15.verify k.inner k.pfx (D.hash msg) s.inner

/-- src/pkcs1v15/verifying_key.rs:206-213 `PartialEq`. -/
def eq (a b : VerifyingKey D) : Bool := a.inner.eq b.inner && a.pfx == b.pfx

end VerifyingKey

/-- src/pkcs1v15/encrypting_key.rs:13-15 `EncryptingKey`. -/
structure EncryptingKey where
  inner : PublicKey
  deriving DecidableEq, Repr

/-- src/pkcs1v15/encrypting_key.rs:24-28 `encrypt_with_rng`. -/
def EncryptingKey.encryptWithRng {σ : Type} (R : RngImpl σ) (fuel : Nat) (rng : σ) (k : EncryptingKey) (msg : Bytes) :
    Res (Bytes × σ) := encrypt R fuel rng k.inner msg

/-- src/pkcs1v15/decrypting_key.rs:18-20 `DecryptingKey`. -/
structure DecryptingKey where
  inner : PrivateKey
  deriving DecidableEq, Repr

/-- src/pkcs1v15/decrypting_key.rs:29-33 `Decryptor::decrypt`. -/
def DecryptingKey.decrypt (k : DecryptingKey) (ciphertext : Bytes) : Res Bytes :=
  pkcs1v15.decrypt dummyRng 0 none k.inner ciphertext

/-- src/pkcs1v15/decrypting_key.rs:35-43 `RandomizedDecryptor::decrypt_with_rng`. -/
def DecryptingKey.decryptWithRng {σ : Type} (R : RngImpl σ) (fuel : Nat) (rng : σ) (k : DecryptingKey)
    (ciphertext : Bytes) : Res Bytes := pkcs1v15.decrypt R fuel (some rng) k.inner ciphertext

/-- src/pkcs1v15/decrypting_key.rs:45-52 `EncryptingKeypair::encrypting_key`. -/
def DecryptingKey.encryptingKey (k : DecryptingKey) : EncryptingKey := ⟨PublicKey.ofPrivate k.inner⟩

end pkcs1v15

end RSA
