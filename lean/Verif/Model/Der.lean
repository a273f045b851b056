import Verif.Model.BoxedUint

/-
The parts of the external crates `der`, `pkcs1`, `pkcs8`, `spki` that src/encoding.rs goes through
(not part of /repo; trusted base).
-/
namespace RSA
namespace der

/-- Largest length the `der` crate handles. -/
def maxLen : Nat := 2 ^ 28

/-- DER length octets. -/
def encodeLen (n : Nat) : Bytes :=
  if n < 0x80 then beBytesL 1 n
  else if n < 0x100 then 0x81 :: beBytesL 1 n
  else if n < 0x10000 then 0x82 :: beBytesL 2 n
  else if n < 0x1000000 then 0x83 :: beBytesL 3 n
  else 0x84 :: beBytesL 4 n
where
  /-- big-endian octets -/
  beBytesL (len n : Nat) : Bytes := BoxedUint.beBytes len n

/-- One TLV; over-long contents are an error of the encoder. -/
def tlv (tag : UInt8) (content : Bytes) : Res Bytes :=
  if content.length < maxLen then .ok (tag :: (encodeLen content.length ++ content)) else .err .pkcs8

/-- Read `k` length octets in long form; must not be representable in fewer octets. -/
def decodeLongLen (k : Nat) (minVal : Nat) (b : Bytes) : Option (Nat × Bytes) :=
  if k ≤ b.length then
    let v := BoxedUint.beVal (b.take k)
    if minVal ≤ v ∧ v < maxLen then some (v, b.drop k) else none
  else none

/-- Read DER length octets (definite form, minimal). -/
def decodeLen : Bytes → Option (Nat × Bytes)
  | [] => none
  | b :: rest =>
    if b < 0x80 then some (b.toNat, rest)
    else if b = 0x81 then decodeLongLen 1 0x80 rest
    else if b = 0x82 then decodeLongLen 2 0x100 rest
    else if b = 0x83 then decodeLongLen 3 0x10000 rest
    else if b = 0x84 then decodeLongLen 4 0x1000000 rest
    else none

/-- Read one TLV with the given tag: its content and what follows. -/
def readTlv (tag : UInt8) : Bytes → Option (Bytes × Bytes)
  | [] => none
  | t :: rest =>
    if t = tag then
      match decodeLen rest with
      | some (len, rest) => if len ≤ rest.length then some (rest.take len, rest.drop len) else none
      | none => none
    else none

/-- Turn a failed read into the error of the calling `?`. -/
def orErr {α : Type} (x : Option α) : Res α :=
  match x with
  | some a => .ok a
  | none => .err .pkcs8

/-- All input must have been consumed. -/
def finish (b : Bytes) : Res Unit := if b = [] then .ok () else .err .pkcs8

/-- `UintRef::new`: strips leading zeros (keeping one byte). -/
def uintRef : Bytes → Bytes
  | [] => []
  | [b] => [b]
  | b :: c :: rest => if b = 0 then uintRef (c :: rest) else b :: c :: rest

/-- Content octets of an unsigned INTEGER held as a `UintRef`. -/
def uintContent (b : Bytes) : Bytes :=
  match b with
  | [] => [0]
  | x :: _ => if x ≥ 0x80 then 0 :: b else b

/-- Decode the content octets of an unsigned INTEGER: minimal, non-negative. -/
def uintOfContent : Bytes → Option Bytes
  | [] => none
  | [b] => if b ≥ 0x80 then none else some [b]
  | b :: c :: rest =>
    if b = 0 then (if c ≥ 0x80 then some (c :: rest) else none)
    else if b ≥ 0x80 then none
    else some (b :: c :: rest)

/-- INTEGER from a `UintRef`. -/
def encodeUint (b : Bytes) : Res Bytes := tlv 0x02 (uintContent b)

/-- Read an unsigned INTEGER. -/
def readUint (b : Bytes) : Res (Bytes × Bytes) := do
  let (c, rest) ← orErr (readTlv 0x02 b)
  let v ← orErr (uintOfContent c)
  .ok (v, rest)

/-- `spki::AlgorithmIdentifier<AnyRef>`: OID content octets, optional parameters (tag, content). -/
structure AlgorithmId where
  oid : Bytes
  parameters : Option (UInt8 × Bytes)
  deriving DecidableEq, Repr

/-- `pkcs1::ALGORITHM_OID` = 1.2.840.113549.1.1.1 (rsaEncryption), content octets. -/
def rsaEncryptionOid : Bytes := [0x2a, 0x86, 0x48, 0x86, 0xf7, 0x0d, 0x01, 0x01, 0x01]

/-- src/encoding.rs:18-19 `ID_RSASSA_PSS` = 1.2.840.113549.1.1.10, content octets. -/
def rsassaPssOid : Bytes := [0x2a, 0x86, 0x48, 0x86, 0xf7, 0x0d, 0x01, 0x01, 0x0a]

/-- ASN.1 NULL as an `AnyRef`. -/
def nullAny : UInt8 × Bytes := (0x05, [])

/-- `pkcs1::ALGORITHM_ID`: rsaEncryption with NULL parameters. -/
def algorithmId : AlgorithmId := { oid := rsaEncryptionOid, parameters := some nullAny }

/-- DER of an `AlgorithmIdentifier`. -/
def encodeAlgorithmId (a : AlgorithmId) : Res Bytes := do
  let o ← tlv 0x06 a.oid
  let p ← match a.parameters with
    | some (t, v) => tlv t v
    | none => .ok []
  tlv 0x30 (o ++ p)

/-- Read an `AlgorithmIdentifier`: OID then at most one parameter of any type. -/
def readAlgorithmId (b : Bytes) : Res (AlgorithmId × Bytes) := do
  let (c, rest) ← orErr (readTlv 0x30 b)
  let (oid, c) ← orErr (readTlv 0x06 c)
  match c with
  | [] => .ok ({ oid := oid, parameters := none }, rest)
  | t :: _ => do
    let (v, c') ← orErr (readTlv t c)
    finish c'
    .ok ({ oid := oid, parameters := some (t, v) }, rest)

/-- `pkcs1::RsaPrivateKey` (integers as `UintRef` bytes); `multi` = `other_prime_infos.is_some()`, i.e. version `Multi`. -/
structure RsaPrivateKey where
  multi : Bool
  modulus : Bytes
  publicExponent : Bytes
  privateExponent : Bytes
  prime1 : Bytes
  prime2 : Bytes
  exponent1 : Bytes
  exponent2 : Bytes
  coefficient : Bytes
  deriving DecidableEq, Repr

/-- `pkcs1::RsaPrivateKey { .. }.to_der()`; the version follows `other_prime_infos`, whose content is not rendered (src/
only encodes `None`). -/
def encodeRsaPrivateKey (k : RsaPrivateKey) : Res Bytes := do
  let v ← encodeUint [if k.multi then 1 else 0]
  let n ← encodeUint k.modulus
  let e ← encodeUint k.publicExponent
  let d ← encodeUint k.privateExponent
  let p ← encodeUint k.prime1
  let q ← encodeUint k.prime2
  let dp ← encodeUint k.exponent1
  let dq ← encodeUint k.exponent2
  let c ← encodeUint k.coefficient
  tlv 0x30 (v ++ n ++ e ++ d ++ p ++ q ++ dp ++ dq ++ c)

/-- `pkcs1::RsaPrivateKey::try_from(bytes)`: version 0 without, version 1 with `otherPrimeInfos`. -/
def decodeRsaPrivateKey (b : Bytes) : Res RsaPrivateKey := do
  let (c, rest) ← orErr (readTlv 0x30 b)
  finish rest
  let (v, c) ← readUint c
  let (n, c) ← readUint c
  let (e, c) ← readUint c
  let (d, c) ← readUint c
  let (p, c) ← readUint c
  let (q, c) ← readUint c
  let (dp, c) ← readUint c
  let (dq, c) ← readUint c
  let (qi, c) ← readUint c
  let multi ←
    if v = [0] then do
      finish c
      .ok false
    else if v = [1] then do
      let (_, c) ← orErr (readTlv 0x30 c)
      finish c
      .ok true
    else .err .pkcs8
  .ok ⟨multi, n, e, d, p, q, dp, dq, qi⟩

/-- `pkcs1::RsaPublicKey`. -/
structure RsaPublicKey where
  modulus : Bytes
  publicExponent : Bytes
  deriving DecidableEq, Repr

/-- `pkcs1::RsaPublicKey::to_der`. -/
def encodeRsaPublicKey (k : RsaPublicKey) : Res Bytes := do
  let n ← encodeUint k.modulus
  let e ← encodeUint k.publicExponent
  tlv 0x30 (n ++ e)

/-- `pkcs1::RsaPublicKey::try_from(bytes)`. -/
def decodeRsaPublicKey (b : Bytes) : Res RsaPublicKey := do
  let (c, rest) ← orErr (readTlv 0x30 b)
  finish rest
  let (n, c) ← readUint c
  let (e, c) ← readUint c
  finish c
  .ok ⟨n, e⟩

/-- `pkcs8::PrivateKeyInfoRef`. -/
structure PrivateKeyInfo where
  algorithm : AlgorithmId
  privateKey : Bytes
  deriving DecidableEq, Repr

/-- `PrivateKeyInfoRef::new(alg, key).try_into::<SecretDocument>()`: version 0, no public key. -/
def encodePrivateKeyInfo (i : PrivateKeyInfo) : Res Bytes := do
  let v ← encodeUint [0]
  let a ← encodeAlgorithmId i.algorithm
  let k ← tlv 0x04 i.privateKey
  tlv 0x30 (v ++ a ++ k)

/-- `PrivateKeyInfoRef::try_from(bytes)`: version 0, or version 1 with a public key; attributes skipped. -/
def decodePrivateKeyInfo (b : Bytes) : Res PrivateKeyInfo := do
  let (c, rest) ← orErr (readTlv 0x30 b)
  finish rest
  let (v, c) ← readUint c
  let (a, c) ← readAlgorithmId c
  let (k, c) ← orErr (readTlv 0x04 c)
  -- attributes [0]
  let c ← match c with
    | 0xa0 :: _ => do
      let (_, c) ← orErr (readTlv 0xa0 c)
      .ok c
    | _ => .ok c
  -- publicKey [1]
  if v = [0] then do
    finish c
    .ok ⟨a, k⟩
  else if v = [1] then do
    let (_, c) ← orErr (readTlv 0x81 c)
    finish c
    .ok ⟨a, k⟩
  else .err .pkcs8

/-- `spki::SubjectPublicKeyInfoRef`; the BIT STRING as (unused bits, bytes). -/
structure SubjectPublicKeyInfo where
  algorithm : AlgorithmId
  unusedBits : UInt8
  subjectPublicKey : Bytes
  deriving DecidableEq, Repr

/-- `SubjectPublicKeyInfoRef { .. }.try_into::<Document>()`. -/
def encodeSubjectPublicKeyInfo (i : SubjectPublicKeyInfo) : Res Bytes := do
  let a ← encodeAlgorithmId i.algorithm
  let k ← tlv 0x03 (i.unusedBits :: i.subjectPublicKey)
  tlv 0x30 (a ++ k)

/-- `SubjectPublicKeyInfoRef::try_from(bytes)`. -/
def decodeSubjectPublicKeyInfo (b : Bytes) : Res SubjectPublicKeyInfo := do
  let (c, rest) ← orErr (readTlv 0x30 b)
  finish rest
  let (a, c) ← readAlgorithmId c
  let (k, c) ← orErr (readTlv 0x03 c)
  finish c
  match k with
  | [] => .err .pkcs8
  | u :: bs => if u > 7 ∨ (u ≠ 0 ∧ bs = []) then .err .pkcs8 else .ok ⟨a, u, bs⟩

end der
end RSA
