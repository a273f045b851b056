import Verif.Model.Key
import Verif.Model.Der
import Verif.Model.Api

/- src/encoding.rs, and the serde / TryFrom conversions of the wrapper key types -/
namespace RSA
open BoxedUint der

/-- src/encoding.rs:21-40 `verify_algorithm_id` (`parameters_any()` fails when the parameters are absent). -/
def verifyAlgorithmId (a : AlgorithmId) : Res Unit :=
  if a.oid = rsaEncryptionOid then
    match a.parameters with
    | none => .err .pkcs8
    | some p => if p ≠ nullAny then .err .pkcs8 else .ok ()
  else if a.oid = rsassaPssOid then
    if a.parameters.isSome then .err .pkcs8 else .ok ()
  else .err .pkcs8

/-- src/encoding.rs:42-44 `uint_from_slice`. -/
def uintFromSlice (data : Bytes) (bits : Nat) : Res BoxedUint :=
  match fromBeSlice data bits with
  | .err _ => .err .pkcs8
  | r => r

/-- `u32::try_from(len).map_err(|_| KeyMalformed)? * 8` (src/encoding.rs:60, 65-67, 91, 94-96). -/
def lenBitsChecked (len : Nat) : Res Nat :=
  if len < 2 ^ 32 then (if len * 8 < 2 ^ 32 then .ok (len * 8) else .panic .arith) else .err .pkcs8

/-- `.map_err(|_| KeyMalformed)`. -/
def mapErrMalformed {α : Type} (r : Res α) : Res α :=
  match r with
  | .err _ => .err .pkcs8
  | r => r

/-- src/encoding.rs:46-78 `TryFrom<PrivateKeyInfoRef> for RsaPrivateKey`. -/
def PrivateKey.tryFromInfo (i : PrivateKeyInfo) : Res PrivateKey := do
  verifyAlgorithmId i.algorithm
  let k ← decodeRsaPrivateKey i.privateKey
  if k.multi then
    .err .pkcs8
  else
    let bits ← lenBitsChecked k.modulus.length
    let n ← uintFromSlice k.modulus bits
    match OddUint.new n with
    | none => .err .pkcs8
    | some n =>
      let bitsE ← lenBitsChecked k.publicExponent.length
      let e ← uintFromSlice k.publicExponent bitsE
      let d ← uintFromSlice k.privateExponent bits
      let prime1 ← uintFromSlice k.prime1 bits
      let prime2 ← uintFromSlice k.prime2 bits
      mapErrMalformed (PrivateKey.fromComponents n e d [prime1, prime2])

/-- src/encoding.rs:80-101 `TryFrom<SubjectPublicKeyInfoRef> for RsaPublicKey`. -/
def PublicKey.tryFromSpki (i : SubjectPublicKeyInfo) : Res PublicKey := do
  verifyAlgorithmId i.algorithm
  if i.unusedBits ≠ 0 then
    .err .pkcs8
  else
    let k ← decodeRsaPublicKey i.subjectPublicKey
    let bits ← lenBitsChecked k.modulus.length
    let n ← uintFromSlice k.modulus bits
    let bitsE ← lenBitsChecked k.publicExponent.length
    let e ← uintFromSlice k.publicExponent bitsE
    mapErrMalformed (PublicKey.new n e)

/-- src/encoding.rs:118-125, `d % NonZero::new(&primes[i].widen(bits) - 1).unwrap()`. -/
def crtExponent (d p : BoxedUint) : Res BoxedUint := do
  let p ← p.widen d.prec
  let x ← expectNonZero (← p.sub BoxedUint.one)
  .ok (d.rem x)

/-- src/encoding.rs:103-151 `to_pkcs8_der`. -/
def PrivateKey.toPkcs8Der (k : PrivateKey) : Res Bytes := do
  if k.primes.length > 2 then
    .err .pkcs8
  else
    let modulus := k.pub.n.toBeBytes
    let publicExponent := k.pub.e.toBeBytes
    let privateExponent := k.d.toBeBytes
    let p ← primeAt k.primes 0
    let q ← primeAt k.primes 1
    let exponent1 ← crtExponent k.d p
    let exponent2 ← crtExponent k.d q
    match ← k.crtCoefficient with
    | none => .err .pkcs8
    | some coefficient => do
      let privateKey ← encodeRsaPrivateKey
        { multi := false
          modulus := uintRef modulus
          publicExponent := uintRef publicExponent
          privateExponent := uintRef privateExponent
          prime1 := uintRef p.toBeBytes
          prime2 := uintRef q.toBeBytes
          exponent1 := uintRef exponent1.toBeBytes
          exponent2 := uintRef exponent2.toBeBytes
          coefficient := uintRef coefficient.toBeBytes }
      encodePrivateKeyInfo ⟨algorithmId, privateKey⟩

/-- src/encoding.rs:153-173 `to_public_key_der`. -/
def PublicKey.toPublicKeyDer (k : PublicKey) : Res Bytes := do
  let subjectPublicKey ← encodeRsaPublicKey
    { modulus := uintRef k.n.toBeBytes, publicExponent := uintRef k.e.toBeBytes }
  encodeSubjectPublicKeyInfo ⟨algorithmId, 0, subjectPublicKey⟩

/-- `DecodePrivateKey::from_pkcs8_der` (blanket implementation of the `pkcs8` crate over `TryFrom<PrivateKeyInfoRef>`);
also `Deserialize` (src/key.rs:647-656) after the serde byte layer. -/
def PrivateKey.fromPkcs8Der (b : Bytes) : Res PrivateKey := do
  let i ← decodePrivateKeyInfo b
  PrivateKey.tryFromInfo i

/-- `DecodePublicKey::from_public_key_der`; also `Deserialize` (src/key.rs:625-634) after the serde byte layer. -/
def PublicKey.fromPublicKeyDer (b : Bytes) : Res PublicKey := do
  let i ← decodeSubjectPublicKeyInfo b
  PublicKey.tryFromSpki i

/-- `AlgorithmIdentifier::assert_algorithm_oid` (external). -/
def assertAlgorithmOid (a : AlgorithmId) (oid : Bytes) : Res Unit := if a.oid = oid then .ok () else .err .pkcs8

namespace pkcs1v15

/-- src/pkcs1v15/signing_key.rs:244-256 `TryFrom<PrivateKeyInfoRef> for SigningKey<D>`. -/
def SigningKey.tryFromInfo {D : HashFn} (oid : Bytes) (i : PrivateKeyInfo) : Res (SigningKey D) := do
  assertAlgorithmOid i.algorithm rsaEncryptionOid
  let k ← PrivateKey.tryFromInfo i
  SigningKey.new oid k

/-- src/pkcs1v15/verifying_key.rs:193-204 `TryFrom<SubjectPublicKeyInfoRef> for VerifyingKey<D>`. -/
def VerifyingKey.tryFromSpki {D : HashFn} (oid : Bytes) (i : SubjectPublicKeyInfo) : Res (VerifyingKey D) := do
  assertAlgorithmOid i.algorithm rsaEncryptionOid
  let k ← PublicKey.tryFromSpki i
  VerifyingKey.new oid k

/-- src/pkcs1v15/signing_key.rs:189-196, 269-281 `to_pkcs8_der`, `Serialize` (before the serde byte layer). -/
def SigningKey.serialize {D : HashFn} (k : SigningKey D) : Res Bytes := k.inner.toPkcs8Der

/-- src/pkcs1v15/signing_key.rs:283-295 `Deserialize` (after the serde byte layer). -/
def SigningKey.deserialize {D : HashFn} (oid b : Bytes) : Res (SigningKey D) := do
  let i ← decodePrivateKeyInfo b
  SigningKey.tryFromInfo oid i

/-- src/pkcs1v15/verifying_key.rs:153-160, 215-227 `to_public_key_der`, `Serialize`. -/
def VerifyingKey.serialize {D : HashFn} (k : VerifyingKey D) : Res Bytes := k.inner.toPublicKeyDer

/-- src/pkcs1v15/verifying_key.rs:229-241 `Deserialize`. -/
def VerifyingKey.deserialize {D : HashFn} (oid b : Bytes) : Res (VerifyingKey D) := do
  let i ← decodeSubjectPublicKeyInfo b
  VerifyingKey.tryFromSpki oid i

/-- src/pkcs1v15/decrypting_key.rs:17, src/pkcs1v15/encrypting_key.rs:12 derived `Serialize`/`Deserialize`: the inner key. -/
def DecryptingKey.serialize (k : DecryptingKey) : Res Bytes := k.inner.toPkcs8Der
def DecryptingKey.deserialize (b : Bytes) : Res DecryptingKey := do
  let k ← PrivateKey.fromPkcs8Der b
  .ok ⟨k⟩
def EncryptingKey.serialize (k : EncryptingKey) : Res Bytes := k.inner.toPublicKeyDer
def EncryptingKey.deserialize (b : Bytes) : Res EncryptingKey := do
  let k ← PublicKey.fromPublicKeyDer b
  .ok ⟨k⟩

/-- src/pkcs1v15.rs:213-251 `RsaSignatureAssociatedOid`: sha1/sha224/sha256/sha384/sha512WithRSAEncryption arcs, content
octets. -/
def sha1WithRsaOid : Bytes := [0x2a, 0x86, 0x48, 0x86, 0xf7, 0x0d, 0x01, 0x01, 0x05]
def sha224WithRsaOid : Bytes := [0x2a, 0x86, 0x48, 0x86, 0xf7, 0x0d, 0x01, 0x01, 0x0e]
def sha256WithRsaOid : Bytes := [0x2a, 0x86, 0x48, 0x86, 0xf7, 0x0d, 0x01, 0x01, 0x0b]
def sha384WithRsaOid : Bytes := [0x2a, 0x86, 0x48, 0x86, 0xf7, 0x0d, 0x01, 0x01, 0x0c]
def sha512WithRsaOid : Bytes := [0x2a, 0x86, 0x48, 0x86, 0xf7, 0x0d, 0x01, 0x01, 0x0d]

end pkcs1v15

namespace pss

/-- src/pss/signing_key.rs:228-238 `TryFrom<PrivateKeyInfoRef> for SigningKey<D>`. -/
def SigningKey.tryFromInfo {D : HashFn} (i : PrivateKeyInfo) : Res (SigningKey D) := do
  verifyAlgorithmId i.algorithm
  let k ← PrivateKey.tryFromInfo i
  .ok (SigningKey.new k)

/-- src/pss/blinded_signing_key.rs:204-213 `TryFrom<PrivateKeyInfoRef> for BlindedSigningKey<D>`. -/
def BlindedSigningKey.tryFromInfo {D : HashFn} (i : PrivateKeyInfo) : Res (BlindedSigningKey D) := do
  let k ← PrivateKey.tryFromInfo i
  .ok (BlindedSigningKey.new k)

/-- src/pss/verifying_key.rs:163-181 `TryFrom<SubjectPublicKeyInfoRef> for VerifyingKey<D>`. -/
def VerifyingKey.tryFromSpki {D : HashFn} (i : SubjectPublicKeyInfo) : Res (VerifyingKey D) := do
  if i.algorithm.oid = rsassaPssOid ∨ i.algorithm.oid = rsaEncryptionOid then
    let k ← PublicKey.tryFromSpki i
    .ok (VerifyingKey.new k)
  else .err .pkcs8

/-- src/pss/signing_key.rs:187-194, 251-277 `to_pkcs8_der`, `Serialize`, `Deserialize`. -/
def SigningKey.serialize {D : HashFn} (k : SigningKey D) : Res Bytes := k.inner.toPkcs8Der
def SigningKey.deserialize {D : HashFn} (b : Bytes) : Res (SigningKey D) := do
  let i ← decodePrivateKeyInfo b
  SigningKey.tryFromInfo i

/-- src/pss/blinded_signing_key.rs:163-170, 226-252 `to_pkcs8_der`, `Serialize`, `Deserialize`. -/
def BlindedSigningKey.serialize {D : HashFn} (k : BlindedSigningKey D) : Res Bytes := k.inner.toPkcs8Der
def BlindedSigningKey.deserialize {D : HashFn} (b : Bytes) : Res (BlindedSigningKey D) := do
  let i ← decodePrivateKeyInfo b
  BlindedSigningKey.tryFromInfo i

/-- src/pss/verifying_key.rs:136-143, 192-218 `to_public_key_der`, `Serialize`, `Deserialize`. -/
def VerifyingKey.serialize {D : HashFn} (k : VerifyingKey D) : Res Bytes := k.inner.toPublicKeyDer
def VerifyingKey.deserialize {D : HashFn} (b : Bytes) : Res (VerifyingKey D) := do
  let i ← decodeSubjectPublicKeyInfo b
  VerifyingKey.tryFromSpki i

end pss

namespace oaep
variable {D MGD : HashFn}

/-- src/oaep/decrypting_key.rs:19, src/oaep/encrypting_key.rs:14 derived `Serialize`/`Deserialize`: the inner key as DER
and the label. -/
def DecryptingKey.serialize (k : DecryptingKey D MGD) : Res (Bytes × Option Bytes) := do
  let b ← k.inner.toPkcs8Der
  .ok (b, k.label)
def DecryptingKey.deserialize (s : Bytes × Option Bytes) : Res (DecryptingKey D MGD) := do
  let k ← PrivateKey.fromPkcs8Der s.1
  .ok ⟨k, s.2⟩
def EncryptingKey.serialize (k : EncryptingKey D MGD) : Res (Bytes × Option Bytes) := do
  let b ← k.inner.toPublicKeyDer
  .ok (b, k.label)
def EncryptingKey.deserialize (s : Bytes × Option Bytes) : Res (EncryptingKey D MGD) := do
  let k ← PublicKey.fromPublicKeyDer s.1
  .ok ⟨k, s.2⟩

end oaep

end RSA
