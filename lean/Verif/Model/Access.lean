import Verif.Model.Generate
import Verif.Model.Pss
import Verif.Model.Oaep

/- Accessors, conversions between key types, random constructors, `Debug` of the wrapper types, `Display` of errors.
Where a trait only forwards (`AsRef`, `From`, derived `Clone`), the definition is the forwarded field. -/
namespace RSA
open BoxedUint

/-! ### src/traits/keys.rs, src/key.rs -/

/-- src/traits/keys.rs:59-67 `CrtValue`. -/
structure CrtValue where
  exp : BoxedUint
  coeff : BoxedUint
  r : BoxedUint
  deriving DecidableEq, Repr

/-- src/traits/keys.rs:69-82 `Zeroize` and `Drop for CrtValue`. -/
def CrtValue.zeroize (v : CrtValue) : CrtValue := ⟨v.exp.zeroize, v.coeff.zeroize, v.r.zeroize⟩

/-- src/key.rs:149-153 `Drop for PrecomputedValues`: what the released memory held. -/
def Precomputed.dropped (p : Precomputed) : Precomputed := p.zeroize

/-- src/traits/keys.rs:9-30 `PublicKeyParts` (the two methods without a default), collected. -/
structure PublicParts where
  n : BoxedUint
  e : BoxedUint
  nParams : MontyParams
  deriving DecidableEq, Repr

/-- src/key.rs:174-186 `PublicKeyParts for RsaPublicKey`: `n`, `e`, `n_params`. -/
def PublicKey.parts (k : PublicKey) : PublicParts := { n := k.n, e := k.e, nParams := k.nParams }

/-- src/key.rs:256-268 `PublicKeyParts for RsaPrivateKey`: `n`, `e`, `n_params` of the public part. -/
def PrivateKey.publicParts (k : PrivateKey) : PublicParts := { n := k.pub.n, e := k.pub.e, nParams := k.pub.nParams }

/-- src/key.rs:98-102 `AsRef<RsaPublicKey> for RsaPrivateKey`. -/
def PrivateKey.asRef (k : PrivateKey) : PublicKey := k.pub

/-- src/traits/keys.rs:32-57 `PrivateKeyParts`, the results of its methods collected. -/
structure PrivateParts where
  d : BoxedUint
  primes : List BoxedUint
  dp : Option BoxedUint
  dq : Option BoxedUint
  qinv : Option MontyForm
  crtValues : Option (List CrtValue)
  pParams : Option MontyParams
  qParams : Option MontyParams

/-- src/key.rs:548-580 `PrivateKeyParts for RsaPrivateKey` (`crt_values` always answers `None`). -/
def PrivateKey.parts (k : PrivateKey) : PrivateParts :=
  { d := k.d
    primes := k.primes
    dp := k.precomputed.map (fun p => p.dp)
    dq := k.precomputed.map (fun p => p.dq)
    qinv := k.precomputed.map (fun p => p.qinv)
    crtValues := none
    pParams := k.precomputed.map (fun p => p.pParams)
    qParams := k.precomputed.map (fun p => p.qParams) }

/-! ### `Debug` -/

/-- What a `Debug` implementation hands to the formatter: derived implementations print every field, in order. -/
inductive DebugTree
  | str (s : String)
  | nat (n : Nat)
  | bool (b : Bool)
  | bytes (b : Bytes)
  | optBytes (b : Option Bytes)
  | pubkey (k : PublicKey)
  | secret (f : String × List DebugField)
  | node (name : String) (fields : List (String × DebugTree))

/-- src/pss.rs:117-125 `Debug for Pss`. -/
def pss.Pss.debug (S : pss.Pss) : DebugTree :=
  .node "PSS" [("blinded", .bool S.blinded), ("digest", .str "..."), ("salt_len", .nat S.saltLen)]

/-- src/oaep.rs:171-179 `Debug for Oaep`. -/
def oaep.Oaep.debug (P : oaep.Oaep) : DebugTree :=
  .node "OAEP" [("digest", .str "..."), ("mgf_digest", .str "..."), ("label", .optBytes P.label)]

/-- src/pkcs1v15/signing_key.rs:28 derived `Debug` (the phantom field prints the type name only). -/
def pkcs1v15.SigningKey.debug {D : HashFn} (k : pkcs1v15.SigningKey D) : DebugTree :=
  .node "SigningKey" [("inner", .secret k.inner.debugFields), ("prefix", .bytes k.pfx), ("phantom", .str "PhantomData")]

/-- src/pss/signing_key.rs:34 derived `Debug`. -/
def pss.SigningKey.debug {D : HashFn} (k : pss.SigningKey D) : DebugTree :=
  .node "SigningKey" [("inner", .secret k.inner.debugFields), ("salt_len", .nat k.saltLen), ("phantom", .str "PhantomData")]

/-- src/pss/blinded_signing_key.rs:25 derived `Debug`. -/
def pss.BlindedSigningKey.debug {D : HashFn} (k : pss.BlindedSigningKey D) : DebugTree :=
  .node "BlindedSigningKey"
    [("inner", .secret k.inner.debugFields), ("salt_len", .nat k.saltLen), ("phantom", .str "PhantomData")]

/-- src/pkcs1v15/decrypting_key.rs:16 derived `Debug`. -/
def pkcs1v15.DecryptingKey.debug (k : pkcs1v15.DecryptingKey) : DebugTree :=
  .node "DecryptingKey" [("inner", .secret k.inner.debugFields)]

/-- src/oaep/decrypting_key.rs:18 derived `Debug`. -/
def oaep.DecryptingKey.debug {D MGD : HashFn} (k : oaep.DecryptingKey D MGD) : DebugTree :=
  .node "DecryptingKey" [("inner", .secret k.inner.debugFields), ("label", .optBytes k.label),
    ("phantom", .str "PhantomData"), ("mg_phantom", .str "PhantomData")]

/-! ### src/errors.rs

src/errors.rs:110-139, the `From` implementations: errors of `pkcs1`, `pkcs8` and `crypto_bigint` become the variants `pkcs1`,
`pkcs8` and `decode`, (`?` on errors of the generator is mapped to `rng` at the call sites); `signature::Error` keeps the crate error as its source (`std`) or drops it, so the
model uses the crate error in its place. -/

/-- src/errors.rs:79-107 `Display for Error`; `ext` renders the payloads of the external errors (`Pkcs1`, `Pkcs8`, `Decode`),
which the model drops. -/
def Error.display (ext : Error → String) : Error → String
  | .invalidPaddingScheme => "invalid padding scheme"
  | .decryption => "decryption error"
  | .verification => "verification error"
  | .messageTooLong => "message too long"
  | .inputNotHashed => "input must be hashed"
  | .nprimesTooSmall => "nprimes must be >= 2"
  | .tooFewPrimes => "too few primes of given length to generate an RSA key"
  | .invalidPrime => "invalid prime value"
  | .invalidModulus => "invalid modulus"
  | .invalidExponent => "invalid exponent"
  | .invalidCoefficient => "invalid coefficient"
  | .modulusTooLarge => "modulus too large"
  | .publicExponentTooSmall => "public exponent too small"
  | .publicExponentTooLarge => "public exponent too large"
  | .pkcs1 => ext .pkcs1
  | .pkcs8 => ext .pkcs8
  | .internal => "internal error"
  | .labelTooLong => "label too long"
  | .invalidPadLen => "invalid padding length"
  | .invalidArguments => "invalid arguments"
  | .decode e => ext (.decode e)
  | .rng => "rng error"

/-! ### src/traits/encryption.rs

src/traits/encryption.rs:9-38 declares `RandomizedEncryptor`, `Decryptor`, `RandomizedDecryptor`, `EncryptingKeypair` without bodies; the
implementations are `EncryptingKey.encryptWithRng`, `DecryptingKey.decrypt`, `DecryptingKey.decryptWithRng`, of the two schemes, and
`pkcs1v15.DecryptingKey.encryptingKey`. -/

/-! ### src/pkcs1v15 -/
namespace pkcs1v15

/-- src/pkcs1v15.rs:93-99 `Pkcs1v15Sign::new_raw` (deprecated alias of `new_unprefixed`). -/
def Pkcs1v15Sign.newRaw : Pkcs1v15Sign := Pkcs1v15Sign.newUnprefixed

/-- src/pkcs1v15/encrypting_key.rs:17-22 `EncryptingKey::new`. -/
def EncryptingKey.new (key : PublicKey) : EncryptingKey := ⟨key⟩

/-- src/pkcs1v15/decrypting_key.rs:22-27 `DecryptingKey::new`. -/
def DecryptingKey.new (key : PrivateKey) : DecryptingKey := ⟨key⟩

variable {D : HashFn}

/-- src/pkcs1v15/signing_key.rs:51-58 `SigningKey::random`. -/
def SigningKey.random {σ : Type} (G : PrimeGen σ) (fuel : Nat) (s : σ) (oid : Bytes) (bitSize : Nat) :
    Res (SigningKey D × σ) := do
  let (key, s) ← PrivateKey.new G fuel s bitSize
  let p ← pkcs1v15GeneratePrefix oid D.outLen
  .ok ({ inner := key, pfx := p }, s)

/-- src/pkcs1v15/signing_key.rs:60-64 `SigningKey::new_with_prefix` (deprecated alias). -/
def SigningKey.newWithPrefix (oid : Bytes) (key : PrivateKey) : Res (SigningKey D) := SigningKey.new oid key

/-- src/pkcs1v15/signing_key.rs:66-70 `SigningKey::random_with_prefix` (deprecated alias). -/
def SigningKey.randomWithPrefix {σ : Type} (G : PrimeGen σ) (fuel : Nat) (s : σ) (oid : Bytes) (bitSize : Nat) :
    Res (SigningKey D × σ) := SigningKey.random G fuel s oid bitSize

/-- src/pkcs1v15/signing_key.rs:90-97 `SigningKey::random_unprefixed`. -/
def SigningKey.randomUnprefixed {σ : Type} (G : PrimeGen σ) (fuel : Nat) (s : σ) (bitSize : Nat) :
    Res (SigningKey D × σ) := do
  let (key, s) ← PrivateKey.new G fuel s bitSize
  .ok ({ inner := key, pfx := [] }, s)

/-- src/pkcs1v15/signing_key.rs:171-178, 207-215 `AsRef<RsaPrivateKey>`, `From<SigningKey> for RsaPrivateKey`. -/
def SigningKey.asRef (k : SigningKey D) : PrivateKey := k.inner

/-- src/pkcs1v15/signing_key.rs:198-206 `From<RsaPrivateKey> for SigningKey`. -/
def SigningKey.ofKey (oid : Bytes) (key : PrivateKey) : Res (SigningKey D) := SigningKey.new oid key

/-- src/pkcs1v15/verifying_key.rs:49-53, 162-169 `VerifyingKey::new_with_prefix` (deprecated alias), `From<RsaPublicKey>`. -/
def VerifyingKey.newWithPrefix (oid : Bytes) (key : PublicKey) : Res (VerifyingKey D) := VerifyingKey.new oid key

/-- src/pkcs1v15/verifying_key.rs:121-128, 171-179 `AsRef<RsaPublicKey>`, `From<VerifyingKey> for RsaPublicKey`. -/
def VerifyingKey.asRef (k : VerifyingKey D) : PublicKey := k.inner

/-- src/pkcs1v15/verifying_key.rs:140-151 `Clone`. -/
def VerifyingKey.clone (k : VerifyingKey D) : VerifyingKey D := { inner := k.inner, pfx := k.pfx }

end pkcs1v15

/-! ### src/pss -/
namespace pss
variable {D : HashFn}

/-- src/pss/signing_key.rs:70-80 `SigningKey::random_with_salt_len`. -/
def SigningKey.randomWithSaltLen {σ : Type} (G : PrimeGen σ) (fuel : Nat) (s : σ) (bitSize saltLen : Nat) :
    Res (SigningKey D × σ) := do
  let (key, s) ← PrivateKey.new G fuel s bitSize
  .ok ({ inner := key, saltLen := saltLen }, s)

/-- src/pss/signing_key.rs:64-68 `SigningKey::random`. -/
def SigningKey.random {σ : Type} (G : PrimeGen σ) (fuel : Nat) (s : σ) (bitSize : Nat) : Res (SigningKey D × σ) :=
  SigningKey.randomWithSaltLen G fuel s bitSize D.outLen

/-- src/pss/signing_key.rs:82-86 `SigningKey::salt_len`. -/
def SigningKey.getSaltLen (k : SigningKey D) : Nat := k.saltLen

/-- src/pss/signing_key.rs:136-144 `PrehashSigner::sign_prehash` (feature `os_rng`): `os` is the operating system's
generator in the state it happens to be in. -/
def SigningKey.signPrehash {τ : Type} (os : RngImpl τ) (fuel : Nat) (s : τ) (k : SigningKey D) (prehash : Bytes) :
    Res Signature := k.signPrehashWithRng os fuel s prehash

/-- src/pss/signing_key.rs:146-154 `Signer::try_sign` (feature `os_rng`). -/
def SigningKey.trySign {τ : Type} (os : RngImpl τ) (fuel : Nat) (s : τ) (k : SigningKey D) (msg : Bytes) :
    Res Signature := k.trySignWithRng os fuel s msg

/-- src/pss/signing_key.rs:160-167, 205-213 `AsRef<RsaPrivateKey>`, `From<SigningKey> for RsaPrivateKey`. -/
def SigningKey.asRef (k : SigningKey D) : PrivateKey := k.inner

/-- src/pss/signing_key.rs:196-203 `From<RsaPrivateKey> for SigningKey`. -/
def SigningKey.ofKey (key : PrivateKey) : SigningKey D := SigningKey.new key

/-- src/pss/blinded_signing_key.rs:63-75 `BlindedSigningKey::random_with_salt_len`. -/
def BlindedSigningKey.randomWithSaltLen {σ : Type} (G : PrimeGen σ) (fuel : Nat) (s : σ) (bitSize saltLen : Nat) :
    Res (BlindedSigningKey D × σ) := do
  let (key, s) ← PrivateKey.new G fuel s bitSize
  .ok ({ inner := key, saltLen := saltLen }, s)

/-- src/pss/blinded_signing_key.rs:56-61 `BlindedSigningKey::random`. -/
def BlindedSigningKey.random {σ : Type} (G : PrimeGen σ) (fuel : Nat) (s : σ) (bitSize : Nat) :
    Res (BlindedSigningKey D × σ) := BlindedSigningKey.randomWithSaltLen G fuel s bitSize D.outLen

/-- src/pss/blinded_signing_key.rs:77-80 `BlindedSigningKey::salt_len`. -/
def BlindedSigningKey.getSaltLen (k : BlindedSigningKey D) : Nat := k.saltLen

/-- src/pss/blinded_signing_key.rs:136-143, 181-189 `AsRef<RsaPrivateKey>`, `From<BlindedSigningKey> for RsaPrivateKey`. -/
def BlindedSigningKey.asRef (k : BlindedSigningKey D) : PrivateKey := k.inner

/-- src/pss/blinded_signing_key.rs:172-179 `From<RsaPrivateKey> for BlindedSigningKey`. -/
def BlindedSigningKey.ofKey (key : PrivateKey) : BlindedSigningKey D := BlindedSigningKey.new key

/-- src/pss/verifying_key.rs:50-53 `VerifyingKey::salt_len`. -/
def VerifyingKey.getSaltLen (k : VerifyingKey D) : Nat := k.saltLen

/-- src/pss/verifying_key.rs:104-111, 154-162 `AsRef<RsaPublicKey>`, `From<VerifyingKey> for RsaPublicKey`. -/
def VerifyingKey.asRef (k : VerifyingKey D) : PublicKey := k.inner

/-- src/pss/verifying_key.rs:145-152 `From<RsaPublicKey> for VerifyingKey`. -/
def VerifyingKey.ofKey (key : PublicKey) : VerifyingKey D := VerifyingKey.new key

/-- src/pss/verifying_key.rs:123-134 `Clone`. -/
def VerifyingKey.clone (k : VerifyingKey D) : VerifyingKey D := { inner := k.inner, saltLen := k.saltLen }

end pss
end RSA
