import Verif.Model.Pkcs1v15
import Verif.Model.OaepPad

/- src/oaep.rs and src/oaep/*.rs -/
namespace RSA
open BoxedUint
namespace oaep

/-- src/oaep.rs:189-203 `encrypt`. -/
def encrypt {σ : Type} (R : RngImpl σ) (rng : σ) (pubKey : PublicKey) (msg : Bytes) (digest mgfDigest : DigestState)
    (label : Option Bytes) : Res (Bytes × σ) := do
  checkPublic pubKey
  let (em, rng) ← oaepEncrypt R rng msg digest mgfDigest label pubKey.size
  let int ← fromBeSlice em pubKey.nBitsPrecision
  let c ← uintToBePad (← rsaEncrypt pubKey int) pubKey.size
  .ok (c, rng)

/-- src/oaep.rs:212-224 `encrypt_digest::<_, D, MGD>`. -/
def encryptDigest {σ : Type} (R : RngImpl σ) (D MGD : HashFn) (rng : σ) (pubKey : PublicKey) (msg : Bytes)
    (label : Option Bytes) : Res (Bytes × σ) := do
  checkPublic pubKey
  let (em, rng) ← oaepEncryptDigest R rng msg D MGD label pubKey.size
  let int ← fromBeSlice em pubKey.nBitsPrecision
  let c ← uintToBePad (← rsaEncrypt pubKey int) pubKey.size
  .ok (c, rng)

/-- src/oaep.rs:239-257 `decrypt`. -/
def decrypt {σ : Type} (R : RngImpl σ) (fuel : Nat) (rng : Option σ) (privKey : PrivateKey) (ciphertext : Bytes)
    (digest mgfDigest : DigestState) (label : Option Bytes) : Res Bytes := do
  if ciphertext.length ≠ privKey.pub.size then
    .err .decryption
  else
    let ciphertext ← fromBeSlice ciphertext privKey.pub.nBitsPrecision
    let (em, _) ← rsaDecryptAndCheck R fuel privKey rng ciphertext
    let em ← uintToZeroizingBePad em privKey.pub.size
    oaepDecrypt em digest mgfDigest label privKey.pub.size

/-- src/oaep.rs:272-289 `decrypt_digest::<_, D, MGD>`. -/
def decryptDigest {σ : Type} (R : RngImpl σ) (fuel : Nat) (D MGD : HashFn) (rng : Option σ) (privKey : PrivateKey)
    (ciphertext : Bytes) (label : Option Bytes) : Res Bytes := do
  checkPublic privKey.pub
  if ciphertext.length ≠ privKey.pub.size then
    .err .decryption
  else
    let ciphertext ← fromBeSlice ciphertext privKey.pub.nBitsPrecision
    let (em, _) ← rsaDecryptAndCheck R fuel privKey rng ciphertext
    let em ← uintToZeroizingBePad em privKey.pub.size
    oaepDecryptDigest em D MGD label privKey.pub.size

/-- src/oaep.rs:38-47 `struct Oaep`. -/
structure Oaep where
  digest : DigestState
  mgfDigest : DigestState
  label : Option Bytes

namespace Oaep

/-- src/oaep.rs:70-76 `Oaep::new::<T>`. -/
def new (T : HashFn) : Oaep := { digest := DigestState.new T, mgfDigest := DigestState.new T, label := none }

/-- src/oaep.rs:79-87 `Oaep::new_with_label::<T, _>`. -/
def newWithLabel (T : HashFn) (label : Bytes) : Oaep :=
  { digest := DigestState.new T, mgfDigest := DigestState.new T, label := some label }

/-- src/oaep.rs:110-119 `Oaep::new_with_mgf_hash::<T, U>`. -/
def newWithMgfHash (T U : HashFn) : Oaep :=
  { digest := DigestState.new T, mgfDigest := DigestState.new U, label := none }

/-- src/oaep.rs:122-134 `Oaep::new_with_mgf_hash_and_label::<T, U, _>`. -/
def newWithMgfHashAndLabel (T U : HashFn) (label : Bytes) : Oaep :=
  { digest := DigestState.new T, mgfDigest := DigestState.new U, label := some label }

/-- src/oaep.rs:138-152 `PaddingScheme::decrypt for Oaep`. -/
def decrypt {σ : Type} (P : Oaep) (R : RngImpl σ) (fuel : Nat) (rng : Option σ) (privKey : PrivateKey)
    (ciphertext : Bytes) : Res Bytes :=
  oaep.decrypt R fuel rng privKey ciphertext P.digest P.mgfDigest P.label

/-- src/oaep.rs:154-168 `PaddingScheme::encrypt for Oaep`. -/
def encrypt {σ : Type} (P : Oaep) (R : RngImpl σ) (rng : σ) (pubKey : PublicKey) (msg : Bytes) : Res (Bytes × σ) :=
  oaep.encrypt R rng pubKey msg P.digest P.mgfDigest P.label

end Oaep

/-- src/oaep/encrypting_key.rs:15-24 `EncryptingKey<D, MGD>`. -/
structure EncryptingKey (D MGD : HashFn) where
  inner : PublicKey
  label : Option Bytes
  deriving DecidableEq, Repr

/-- src/oaep/decrypting_key.rs:20-29 `DecryptingKey<D, MGD>`. -/
structure DecryptingKey (D MGD : HashFn) where
  inner : PrivateKey
  label : Option Bytes
  deriving DecidableEq, Repr

variable {D MGD : HashFn}

/-- src/oaep/encrypting_key.rs:31-50 `new`, `new_with_label`. -/
def EncryptingKey.new (key : PublicKey) : EncryptingKey D MGD := { inner := key, label := none }
def EncryptingKey.newWithLabel (key : PublicKey) (label : Bytes) : EncryptingKey D MGD :=
  { inner := key, label := some label }

/-- src/oaep/encrypting_key.rs:52-60 `encrypt_with_rng`. -/
def EncryptingKey.encryptWithRng {σ : Type} (R : RngImpl σ) (rng : σ) (k : EncryptingKey D MGD) (msg : Bytes) :
    Res (Bytes × σ) := encryptDigest R D MGD rng k.inner msg k.label

/-- src/oaep/encrypting_key.rs:62-70 `PartialEq`. -/
def EncryptingKey.eq (a b : EncryptingKey D MGD) : Bool := a.inner.eq b.inner && a.label == b.label

/-- src/oaep/decrypting_key.rs:36-54 `new`, `new_with_label`. -/
def DecryptingKey.new (key : PrivateKey) : DecryptingKey D MGD := { inner := key, label := none }
def DecryptingKey.newWithLabel (key : PrivateKey) (label : Bytes) : DecryptingKey D MGD :=
  { inner := key, label := some label }

/-- src/oaep/decrypting_key.rs:57-65 `Decryptor::decrypt`. -/
def DecryptingKey.decrypt (k : DecryptingKey D MGD) (ciphertext : Bytes) : Res Bytes :=
  decryptDigest dummyRng 0 D MGD none k.inner ciphertext k.label

/-- src/oaep/decrypting_key.rs:67-79 `RandomizedDecryptor::decrypt_with_rng`. -/
def DecryptingKey.decryptWithRng {σ : Type} (R : RngImpl σ) (fuel : Nat) (rng : σ) (k : DecryptingKey D MGD)
    (ciphertext : Bytes) : Res Bytes := decryptDigest R fuel D MGD (some rng) k.inner ciphertext k.label

/-- src/oaep/decrypting_key.rs:88-96 `PartialEq`. -/
def DecryptingKey.eq (a b : DecryptingKey D MGD) : Bool := a.inner.eq b.inner && a.label == b.label

end oaep
end RSA
