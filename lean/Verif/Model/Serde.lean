import Verif.Model.Encoding

/- The byte layer of the serde implementations, and the textual forms of signatures -/
namespace RSA

/-- What a serializer is handed and a deserializer presents: a string or a byte array. -/
inductive SerdeData
  | str (s : List Char)
  | bytes (b : Bytes)
  deriving DecidableEq, Repr

/-- One digit of `{:x}`. -/
def hexCharLower (n : Nat) : Char :=
  if n < 10 then Char.ofNat (48 + n) else Char.ofNat (87 + n)

/-- One digit of `{:X}`. -/
def hexCharUpper (n : Nat) : Char :=
  if n < 10 then Char.ofNat (48 + n) else Char.ofNat (55 + n)

/-- `{:02x}` of every byte (also `base16ct::lower::encode`). -/
def hexLower : Bytes → List Char
  | [] => []
  | b :: bs => hexCharLower (b.toNat / 16) :: hexCharLower (b.toNat % 16) :: hexLower bs

/-- `{:02X}` of every byte. -/
def hexUpper : Bytes → List Char
  | [] => []
  | b :: bs => hexCharUpper (b.toNat / 16) :: hexCharUpper (b.toNat % 16) :: hexUpper bs

/-- Value of a hexadecimal digit of either case. -/
def hexVal (c : Char) : Option Nat :=
  if 48 ≤ c.toNat ∧ c.toNat ≤ 57 then some (c.toNat - 48)
  else if 97 ≤ c.toNat ∧ c.toNat ≤ 102 then some (c.toNat - 87)
  else if 65 ≤ c.toNat ∧ c.toNat ≤ 70 then some (c.toNat - 55)
  else none

/-- `base16ct::mixed::decode_vec` (external): an even number of hexadecimal digits. -/
def hexDecode : List Char → Option Bytes
  | [] => some []
  | [_] => none
  | c :: d :: rest =>
    match hexVal c, hexVal d, hexDecode rest with
    | some h, some l, some bs => some (UInt8.ofNat (16 * h + l) :: bs)
    | _, _, _ => none

/-- `serdect::slice::serialize_hex_lower_or_bin` (external): hexadecimal for human readable formats, bytes otherwise. -/
def serializeHexLowerOrBin (humanReadable : Bool) (b : Bytes) : SerdeData :=
  if humanReadable then .str (hexLower b) else .bytes b

/-- `serdect::slice::deserialize_hex_or_bin_vec` (external). The error is the deserializer's own; it is represented by the
error every caller in /repo maps key errors to. -/
def deserializeHexOrBin (humanReadable : Bool) (d : SerdeData) : Res Bytes :=
  match humanReadable, d with
  | true, .str s => der.orErr (hexDecode s)
  | false, .bytes b => .ok b
  | _, _ => .err .pkcs8

/-- `.map_err(de::Error::custom)` / `.map_err(ser::Error::custom)`: some serde error. -/
def serdeErr {α : Type} (r : Res α) : Res α :=
  match r with
  | .err _ => .err .pkcs8
  | r => r

/-- src/key.rs:614-623 `Serialize for RsaPublicKey`. -/
def PublicKey.serdeSerialize (hr : Bool) (k : PublicKey) : Res SerdeData := do
  let der ← serdeErr k.toPublicKeyDer
  .ok (serializeHexLowerOrBin hr der)

/-- src/key.rs:625-634 `Deserialize for RsaPublicKey`. -/
def PublicKey.serdeDeserialize (hr : Bool) (d : SerdeData) : Res PublicKey := do
  let b ← deserializeHexOrBin hr d
  serdeErr (PublicKey.fromPublicKeyDer b)

/-- src/key.rs:636-645 `Serialize for RsaPrivateKey`. -/
def PrivateKey.serdeSerialize (hr : Bool) (k : PrivateKey) : Res SerdeData := do
  let der ← serdeErr k.toPkcs8Der
  .ok (serializeHexLowerOrBin hr der)

/-- src/key.rs:647-656 `Deserialize for RsaPrivateKey`. -/
def PrivateKey.serdeDeserialize (hr : Bool) (d : SerdeData) : Res PrivateKey := do
  let b ← deserializeHexOrBin hr d
  serdeErr (PrivateKey.fromPkcs8Der b)

namespace pkcs1v15

/-- src/pkcs1v15/signature.rs:55-62 `LowerHex for Signature`. -/
def Signature.lowerHex (s : Signature) : List Char := hexLower s.toBytes

/-- src/pkcs1v15/signature.rs:64-71 `UpperHex for Signature`. -/
def Signature.upperHex (s : Signature) : List Char := hexUpper s.toBytes

/-- src/pkcs1v15/signature.rs:73-77 `Display for Signature`. -/
def Signature.display (s : Signature) : List Char := s.upperHex

/-- src/pkcs1v15/signature.rs:27-31 `to_bitstring`: unused bits and octets (`BitString::new` accepts 0 unused bits with any
octets the `der` crate can hold). -/
def Signature.toBitstring (s : Signature) : Res (Nat × Bytes) :=
  if s.toBytes.length < der.maxLen then .ok (0, s.toBytes) else .err .pkcs8

/-- src/pkcs1v15/signature.rs:79-87 `Serialize for Signature`. -/
def Signature.serdeSerialize (hr : Bool) (s : Signature) : Res SerdeData := .ok (serializeHexLowerOrBin hr s.toBytes)

/-- src/pkcs1v15/signature.rs:89-100 `Deserialize for Signature`. -/
def Signature.serdeDeserialize (hr : Bool) (d : SerdeData) : Res Signature := do
  let b ← deserializeHexOrBin hr d
  serdeErr (Signature.tryFrom b)

/-- src/pkcs1v15/signing_key.rs:269-281 `Serialize for SigningKey<D>`. -/
def SigningKey.serdeSerialize {D : HashFn} (hr : Bool) (k : SigningKey D) : Res SerdeData := do
  let der ← serdeErr k.serialize
  .ok (serializeHexLowerOrBin hr der)

/-- src/pkcs1v15/signing_key.rs:283-295 `Deserialize for SigningKey<D>`. -/
def SigningKey.serdeDeserialize {D : HashFn} (oid : Bytes) (hr : Bool) (d : SerdeData) : Res (SigningKey D) := do
  let b ← deserializeHexOrBin hr d
  serdeErr (SigningKey.deserialize oid b)

/-- src/pkcs1v15/verifying_key.rs:215-227 `Serialize for VerifyingKey<D>`. -/
def VerifyingKey.serdeSerialize {D : HashFn} (hr : Bool) (k : VerifyingKey D) : Res SerdeData := do
  let der ← serdeErr k.serialize
  .ok (serializeHexLowerOrBin hr der)

/-- src/pkcs1v15/verifying_key.rs:229-241 `Deserialize for VerifyingKey<D>`. -/
def VerifyingKey.serdeDeserialize {D : HashFn} (oid : Bytes) (hr : Bool) (d : SerdeData) : Res (VerifyingKey D) := do
  let b ← deserializeHexOrBin hr d
  serdeErr (VerifyingKey.deserialize oid b)

end pkcs1v15

namespace pss

/-- `LowerHex` of a `BoxedUint` (external): sixteen digits for every limb, most significant first. -/
def limbsHexLower (x : BoxedUint) : List Char :=
  ((List.range x.nlimbs).map fun i =>
    (List.range 16).map fun j => hexCharLower (x.val / 16 ^ (16 * (x.nlimbs - 1 - i) + (15 - j)) % 16)).flatten

/-- `UpperHex` of a `BoxedUint` (external). -/
def limbsHexUpper (x : BoxedUint) : List Char :=
  ((List.range x.nlimbs).map fun i =>
    (List.range 16).map fun j => hexCharUpper (x.val / 16 ^ (16 * (x.nlimbs - 1 - i) + (15 - j)) % 16)).flatten

/-- src/pss/signature.rs:56-60 `LowerHex for Signature`: the number's own formatting. -/
def Signature.lowerHex (s : Signature) : List Char := limbsHexLower s.inner

/-- src/pss/signature.rs:62-66 `UpperHex for Signature`. -/
def Signature.upperHex (s : Signature) : List Char := limbsHexUpper s.inner

/-- src/pss/signature.rs:68-72 `Display for Signature`. -/
def Signature.display (s : Signature) : List Char := s.upperHex

/-- src/pss/signature.rs:27-31 `to_bitstring`. -/
def Signature.toBitstring (s : Signature) : Res (Nat × Bytes) :=
  if s.toBytes.length < der.maxLen then .ok (0, s.toBytes) else .err .pkcs8

/-- src/pss/signature.rs:74-82 `Serialize for Signature`. -/
def Signature.serdeSerialize (hr : Bool) (s : Signature) : Res SerdeData := .ok (serializeHexLowerOrBin hr s.toBytes)

/-- src/pss/signature.rs:84-95 `Deserialize for Signature`. -/
def Signature.serdeDeserialize (hr : Bool) (d : SerdeData) : Res Signature := do
  let b ← deserializeHexOrBin hr d
  serdeErr (Signature.tryFrom b)

/-- src/pss/signing_key.rs:251-263 `Serialize for SigningKey<D>`. -/
def SigningKey.serdeSerialize {D : HashFn} (hr : Bool) (k : SigningKey D) : Res SerdeData := do
  let der ← serdeErr k.serialize
  .ok (serializeHexLowerOrBin hr der)

/-- src/pss/signing_key.rs:265-277 `Deserialize for SigningKey<D>`. -/
def SigningKey.serdeDeserialize {D : HashFn} (hr : Bool) (d : SerdeData) : Res (SigningKey D) := do
  let b ← deserializeHexOrBin hr d
  serdeErr (SigningKey.deserialize b)

/-- src/pss/blinded_signing_key.rs:226-238 `Serialize for BlindedSigningKey<D>`. -/
def BlindedSigningKey.serdeSerialize {D : HashFn} (hr : Bool) (k : BlindedSigningKey D) : Res SerdeData := do
  let der ← serdeErr k.serialize
  .ok (serializeHexLowerOrBin hr der)

/-- src/pss/blinded_signing_key.rs:240-252 `Deserialize for BlindedSigningKey<D>`. -/
def BlindedSigningKey.serdeDeserialize {D : HashFn} (hr : Bool) (d : SerdeData) : Res (BlindedSigningKey D) := do
  let b ← deserializeHexOrBin hr d
  serdeErr (BlindedSigningKey.deserialize b)

/-- src/pss/verifying_key.rs:192-204 `Serialize for VerifyingKey<D>`. -/
def VerifyingKey.serdeSerialize {D : HashFn} (hr : Bool) (k : VerifyingKey D) : Res SerdeData := do
  let der ← serdeErr k.serialize
  .ok (serializeHexLowerOrBin hr der)

/-- src/pss/verifying_key.rs:206-218 `Deserialize for VerifyingKey<D>`. -/
def VerifyingKey.serdeDeserialize {D : HashFn} (hr : Bool) (d : SerdeData) : Res (VerifyingKey D) := do
  let b ← deserializeHexOrBin hr d
  serdeErr (VerifyingKey.deserialize b)

end pss

end RSA
