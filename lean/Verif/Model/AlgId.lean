import Verif.Model.Encoding

/- Algorithm identifiers published by the key types -/
namespace RSA
open der

/-- 1.3.14.3.2.26 (`id-sha1`), content octets. -/
def sha1Oid : Bytes := [0x2b, 0x0e, 0x03, 0x02, 0x1a]

/-- 1.2.840.113549.1.1.8 (`id-mgf1`), content octets. -/
def mgf1Oid : Bytes := [0x2a, 0x86, 0x48, 0x86, 0xf7, 0x0d, 0x01, 0x01, 0x08]

/-- A field that is left out when it has its default value, otherwise wrapped in an explicit context tag. -/
def optField (isDefault : Bool) (tag : UInt8) (content : Res Bytes) : Res Bytes :=
  if isDefault then .ok [] else content >>= fun c => tlv tag c

/-- Contents of the SEQUENCE `pkcs1::RsaPssParams` (external): `hash [0]`, `mask_gen [1]`, `salt_len [2]`, each left out
at its default (SHA-1, MGF1 with SHA-1, 20); the trailer field always has its default and is left out. -/
def pss.PssParams.encode (p : pss.PssParams) : Res Bytes := do
  let h ← optField (p.hashOid = sha1Oid) 0xa0 (encodeAlgorithmId ⟨p.hashOid, some nullAny⟩)
  let m ← optField (p.mgfHashOid = sha1Oid) 0xa1 (do
    let o ← tlv 0x06 mgf1Oid
    let a ← encodeAlgorithmId ⟨p.mgfHashOid, some nullAny⟩
    tlv 0x30 (o ++ a))
  let s ← optField (p.saltLen = 20) 0xa2 (encodeUint [p.saltLen])
  .ok (h ++ m ++ s)

/-- src/pss.rs:241-251 `get_pss_signature_algo_id::<D>`: `id-RSASSA-PSS` with the parameters above as an `Any`. -/
def pss.algoId (p : pss.PssParams) : Res AlgorithmId := do
  let c ← p.encode
  .ok { oid := rsassaPssOid, parameters := some (0x30, c) }

namespace pss

/-- src/pss/signing_key.rs:178-185 `signature_algorithm_identifier` and its DER form. -/
def SigningKey.signatureAlgorithmDer {D : HashFn} (oid : Bytes) (k : SigningKey D) : Res Bytes := do
  let a ← algoId (k.signatureAlgorithmIdentifier oid)
  encodeAlgorithmId a

/-- src/pss/blinded_signing_key.rs:154-161. -/
def BlindedSigningKey.signatureAlgorithmDer {D : HashFn} (oid : Bytes) (k : BlindedSigningKey D) : Res Bytes := do
  let a ← algoId (k.signatureAlgorithmIdentifier oid)
  encodeAlgorithmId a

/-- src/pss.rs:232-239 `get_default_pss_signature_algo_id::<D>` and its DER form. -/
def defaultSignatureAlgorithmDer (D : HashFn) (oid : Bytes) : Res Bytes := do
  let a ← algoId (getDefaultPssSignatureAlgoId D oid)
  encodeAlgorithmId a

end pss

namespace pkcs1v15

/-- src/pkcs1v15/signing_key.rs:231-243, src/pkcs1v15/verifying_key.rs:180-191 `SIGNATURE_ALGORITHM_IDENTIFIER`;
`sigOid` = `<D as RsaSignatureAssociatedOid>::OID`. -/
def signatureAlgorithmIdentifier (sigOid : Bytes) : AlgorithmId := { oid := sigOid, parameters := some nullAny }

/-- src/pkcs1v15.rs:213-251: the five implementations of `RsaSignatureAssociatedOid`. -/
inductive OidHash
  | sha1 | sha224 | sha256 | sha384 | sha512
  deriving DecidableEq, Repr

/-- `<D as RsaSignatureAssociatedOid>::OID`. -/
def OidHash.signatureOid : OidHash → Bytes
  | .sha1 => sha1WithRsaOid
  | .sha224 => sha224WithRsaOid
  | .sha256 => sha256WithRsaOid
  | .sha384 => sha384WithRsaOid
  | .sha512 => sha512WithRsaOid

end pkcs1v15

/-- `ALGORITHM_IDENTIFIER` of every key type (src/pkcs1v15/signing_key.rs:180-187, src/pkcs1v15/verifying_key.rs:130-137,
src/pss/signing_key.rs:169-176, src/pss/blinded_signing_key.rs:145-152, src/pss/verifying_key.rs:113-120). -/
def associatedAlgorithmIdentifier : AlgorithmId := algorithmId

end RSA
