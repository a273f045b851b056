import Verif.Model.Pss
import Verif.Model.Oaep

/- The generic entry points of src/key.rs over src/traits/padding.rs -/
namespace RSA

/-- src/traits/padding.rs:10-30 `PaddingScheme` and its two implementations (src/pkcs1v15.rs:34-56, src/oaep.rs:137-169). -/
inductive PaddingScheme
  | pkcs1v15Encrypt
  | oaep (P : oaep.Oaep)

/-- src/traits/padding.rs:32-49 `SignatureScheme` and its two implementations (src/pkcs1v15.rs:103-132, src/pss.rs:88-115). -/
inductive SignatureScheme
  | pkcs1v15Sign (S : pkcs1v15.Pkcs1v15Sign)
  | pss (S : pss.Pss)

/-- `PaddingScheme::encrypt`. -/
def PaddingScheme.encrypt {σ : Type} (P : PaddingScheme) (R : RngImpl σ) (fuel : Nat) (rng : σ) (pubKey : PublicKey)
    (msg : Bytes) : Res (Bytes × σ) :=
  match P with
  | .pkcs1v15Encrypt => pkcs1v15.encrypt R fuel rng pubKey msg
  | .oaep P => P.encrypt R rng pubKey msg

/-- `PaddingScheme::decrypt`. -/
def PaddingScheme.decrypt {σ : Type} (P : PaddingScheme) (R : RngImpl σ) (fuel : Nat) (rng : Option σ)
    (privKey : PrivateKey) (ciphertext : Bytes) : Res Bytes :=
  match P with
  | .pkcs1v15Encrypt => pkcs1v15.decrypt R fuel rng privKey ciphertext
  | .oaep P => P.decrypt R fuel rng privKey ciphertext

/-- `SignatureScheme::sign`. -/
def SignatureScheme.sign {σ : Type} (S : SignatureScheme) (R : RngImpl σ) (fuel : Nat) (rng : Option σ)
    (privKey : PrivateKey) (hashed : Bytes) : Res Bytes :=
  match S with
  | .pkcs1v15Sign S => S.sign R fuel rng privKey hashed
  | .pss S => S.sign R fuel rng privKey hashed

/-- `SignatureScheme::verify`. -/
def SignatureScheme.verify (S : SignatureScheme) (pubKey : PublicKey) (hashed sig : Bytes) : Res Unit :=
  match S with
  | .pkcs1v15Sign S => S.verify pubKey hashed sig
  | .pss S => S.verify pubKey hashed sig

/-- src/key.rs:189-197 `RsaPublicKey::encrypt`. -/
def PublicKey.encrypt {σ : Type} (k : PublicKey) (R : RngImpl σ) (fuel : Nat) (rng : σ) (padding : PaddingScheme)
    (msg : Bytes) : Res (Bytes × σ) := padding.encrypt R fuel rng k msg

/-- src/key.rs:199-207 `RsaPublicKey::verify`. -/
def PublicKey.verify (k : PublicKey) (scheme : SignatureScheme) (hashed sig : Bytes) : Res Unit :=
  scheme.verify k hashed sig

/-- src/key.rs:506-509 `RsaPrivateKey::decrypt`. -/
def PrivateKey.decrypt (k : PrivateKey) (padding : PaddingScheme) (ciphertext : Bytes) : Res Bytes :=
  padding.decrypt dummyRng 0 none k ciphertext

/-- src/key.rs:511-521 `RsaPrivateKey::decrypt_blinded`. -/
def PrivateKey.decryptBlinded {σ : Type} (k : PrivateKey) (R : RngImpl σ) (fuel : Nat) (rng : σ)
    (padding : PaddingScheme) (ciphertext : Bytes) : Res Bytes :=
  padding.decrypt R fuel (some rng) k ciphertext

/-- src/key.rs:523-526 `RsaPrivateKey::sign`. -/
def PrivateKey.sign (k : PrivateKey) (padding : SignatureScheme) (digestIn : Bytes) : Res Bytes :=
  padding.sign dummyRng 0 none k digestIn

/-- src/key.rs:528-545 `RsaPrivateKey::sign_with_rng`. -/
def PrivateKey.signWithRng {σ : Type} (k : PrivateKey) (R : RngImpl σ) (fuel : Nat) (rng : σ)
    (padding : SignatureScheme) (digestIn : Bytes) : Res Bytes :=
  padding.sign R fuel (some rng) k digestIn

end RSA
