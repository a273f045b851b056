import Verif.Model.Encoding

/-
`to_pkcs1_der` / `from_pkcs1_der`. The traits `EncodeRsaPrivateKey`, `DecodeRsaPrivateKey`, `EncodeRsaPublicKey` and
`DecodeRsaPublicKey` are re-exported by this crate (src/lib.rs:241 `pub use pkcs1`) and implemented by the `pkcs1` crate
for everything that implements the PKCS#8 traits of src/encoding.rs; what follows renders those blanket implementations
(external, assumed).
-/
namespace RSA
open BoxedUint der

/-- `RsaPrivateKey::from_pkcs1_der`: `try_from(PrivateKeyInfoRef { algorithm: ALGORITHM_ID, private_key:
OctetStringRef::new(bytes)?, .. })`, so src/encoding.rs:46-78 does the work. -/
def PrivateKey.fromPkcs1Der (b : Bytes) : Res PrivateKey :=
  if b.length < maxLen then PrivateKey.tryFromInfo ⟨algorithmId, b⟩ else .err .pkcs8

/-- `RsaPublicKey::from_pkcs1_der`, over src/encoding.rs:80-101. (A `BitStringRef` adds one octet to the length.) -/
def PublicKey.fromPkcs1Der (b : Bytes) : Res PublicKey :=
  if b.length + 1 < maxLen then PublicKey.tryFromSpki ⟨algorithmId, 0, b⟩ else .err .pkcs8

/-- Encoding of a parsed `pkcs1::RsaPrivateKey`; `other_prime_infos` does not occur in what src/encoding.rs:103-151
writes. -/
def PrivateKey.toPkcs1Der (k : PrivateKey) : Res Bytes := do
  let doc ← k.toPkcs8Der
  let i ← decodePrivateKeyInfo doc
  assertAlgorithmOid i.algorithm rsaEncryptionOid
  let r ← decodeRsaPrivateKey i.privateKey
  encodeRsaPrivateKey r

/-- `RsaPublicKey::to_pkcs1_der`, over src/encoding.rs:153-173. -/
def PublicKey.toPkcs1Der (k : PublicKey) : Res Bytes := do
  let doc ← k.toPublicKeyDer
  let i ← decodeSubjectPublicKeyInfo doc
  assertAlgorithmOid i.algorithm rsaEncryptionOid
  let r ← decodeRsaPublicKey i.subjectPublicKey
  encodeRsaPublicKey r

end RSA
