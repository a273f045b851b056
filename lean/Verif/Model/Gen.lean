import Verif.Model.Api

/-
The operations that take a generator `&mut R`, once more, with the generator as what it is in Rust: a reference to a state
that belongs to the caller. Every outcome, error or not, comes with the state in which the caller finds the generator
afterwards. (The other models drop the state when an operation fails, and the ones that return only octets drop it always.)
The bodies are those of the same functions in Model/Pkcs1v15Pad.lean, Rsa.lean, Pkcs1v15.lean, OaepPad.lean, Oaep.lean,
Pss.lean and Api.lean; `C96_same` proves the outcomes equal.
-/
namespace RSA
open BoxedUint

/-- A computation with a generator in a state of type `σ`. -/
def Gen (σ α : Type) : Type := σ → Res α × σ

namespace Gen

variable {σ α β : Type}

/-- A step that does not touch the generator. -/
def lift (r : Res α) : Gen σ α := fun s => (r, s)

/-- Sequencing: on anything but success the rest is skipped, and the generator stays as it is. -/
def bind (m : Gen σ α) (f : α → Gen σ β) : Gen σ β := fun s =>
  match m s with
  | (.ok a, s) => f a s
  | (.err e, s) => (.err e, s)
  | (.panic k, s) => (.panic k, s)
  | (.loop, s) => (.loop, s)

instance : Monad (Gen σ) where
  pure a := lift (.ok a)
  bind := bind

instance : MonadLift Res (Gen σ) where
  monadLift := lift

end Gen

namespace gen

variable {σ : Type}

/-- `rng.try_fill_bytes(buf)` with `|buf| = n`, failures mapped to `Error::Rng`. -/
def tryFill (R : RngImpl σ) (n : Nat) : Gen σ Bytes := fun s =>
  match R.fill s n with
  | (some b, s) => (.ok b, s)
  | (none, s) => (.err .rng, s)

/-- `BoxedUint::try_random_mod_vartime(rng, n)`, failures mapped to `Error::Rng`. -/
def tryRandomMod (R : RngImpl σ) (n : Nat) : Gen σ Nat := fun s =>
  match R.randMod s n with
  | (some r, s) => (.ok r, s)
  | (none, s) => (.err .rng, s)

/-! ### src/algorithms/pkcs1v15.rs -/

/-- src/algorithms/pkcs1v15.rs:30-32, the `while *el == 0` loop of `non_zero_random_bytes`. -/
def rerollByte (R : RngImpl σ) : Nat → Gen σ UInt8
  | 0 => Gen.lift .loop
  | fuel + 1 => do
    let b ← tryFill R 1
    let el ← idx b 0
    if el = 0 then rerollByte R fuel else Gen.lift (.ok el)

/-- src/algorithms/pkcs1v15.rs:27-34, the `for el in data` loop of `non_zero_random_bytes`. -/
def fixZeros (R : RngImpl σ) (fuel : Nat) : Bytes → Gen σ Bytes
  | [] => Gen.lift (.ok [])
  | el :: rest => do
    let el ← (if el = 0 then rerollByte R fuel else Gen.lift (.ok el) : Gen σ UInt8)
    let rest ← fixZeros R fuel rest
    Gen.lift (.ok (el :: rest))

/-- src/algorithms/pkcs1v15.rs:18-37 `non_zero_random_bytes` on a slice of length `len`. -/
def nonZeroRandomBytes (R : RngImpl σ) (fuel len : Nat) : Gen σ Bytes := do
  let data ← tryFill R len
  fixZeros R fuel data

/-- src/algorithms/pkcs1v15.rs:39-60 `pkcs1v15_encrypt_pad`. -/
def pkcs1v15EncryptPad (R : RngImpl σ) (fuel : Nat) (msg : Bytes) (k : Nat) : Gen σ Bytes := do
  if msg.length + 11 > k then
    Gen.lift (.err .messageTooLong)
  else
    let em := List.replicate k (0 : UInt8)
    let em ← setIdx em 1 2
    let hi ← subU k msg.length
    let hi1 ← subU hi 1
    let cur ← slice em 2 hi1
    let ps ← nonZeroRandomBytes R fuel cur.length
    let em ← copyInto em 2 hi1 ps
    let em ← setIdx em hi1 0
    let em ← copyInto em hi k msg
    Gen.lift (.ok em)

/-! ### src/algorithms/oaep.rs -/

/-- src/algorithms/oaep.rs:21-50 `encrypt_internal`. -/
def oaepEncryptInternal (R : RngImpl σ) (msg pHash : Bytes) (hSize k : Nat)
    (mgf : Bytes → Bytes → Res (Bytes × Bytes)) : Gen σ Bytes := do
  if msg.length + 2 * hSize + 2 > k then
    Gen.lift (.err .messageTooLong)
  else
    let em := List.replicate k (0 : UInt8)
    let (first, payload) ← splitAt em 1
    let (seed, db) ← splitAt payload hSize
    let seed ← tryFill R seed.length
    let dbLen ← subU k hSize
    let dbLen ← subU dbLen 1
    let db ← copyInto db 0 hSize pHash
    let o ← subU dbLen msg.length
    let o1 ← subU o 1
    let db ← setIdx db o1 1
    let db ← copyInto db o db.length msg
    let (seed, db) ← mgf seed db
    Gen.lift (.ok (first ++ (seed ++ db)))

/-- src/algorithms/oaep.rs:52-82 `oaep_encrypt`. -/
def oaepEncrypt (R : RngImpl σ) (msg : Bytes) (digest mgfDigest : DigestState) (label : Option Bytes) (k : Nat) :
    Gen σ Bytes :=
  if (label.getD []).length ≥ maxLabelLen then
    Gen.lift (.err .labelTooLong)
  else
    oaepEncryptInternal R msg (digest.update (label.getD [])).finalizeReset.1 digest.outputSize k (fun seed db => do
      let (db, mgfDigest) ← mgf1Xor db mgfDigest seed
      let (seed, _) ← mgf1Xor seed mgfDigest db
      .ok (seed, db))

/-- src/algorithms/oaep.rs:84-116 `oaep_encrypt_digest::<D, MGD>`. -/
def oaepEncryptDigest (R : RngImpl σ) (msg : Bytes) (D MGD : HashFn) (label : Option Bytes) (k : Nat) : Gen σ Bytes :=
  if (label.getD []).length ≥ maxLabelLen then
    Gen.lift (.err .labelTooLong)
  else
    oaepEncryptInternal R msg (D.hash (label.getD [])) D.outLen k (fun seed db => do
      let mgfDigest := DigestState.new MGD
      let (db, mgfDigest) ← mgf1XorDigest db mgfDigest seed
      let (seed, _) ← mgf1XorDigest seed mgfDigest db
      .ok (seed, db))

/-! ### src/algorithms/rsa.rs -/

/-- src/algorithms/rsa.rs:158-168, the `while ir.is_none()` loop of `blind`. -/
def blindLoop (R : RngImpl σ) (n : BoxedUint) : Nat → Gen σ (BoxedUint × BoxedUint)
  | 0 => Gen.lift .loop
  | fuel + 1 => do
    let rv ← tryRandomMod R n.val
    let r := wrap n.nlimbs rv
    let r := if r.isZero then oneWithPrecision n.prec else r
    match r.invMod n with
    | some ir => Gen.lift (.ok (r, ir))
    | none => blindLoop R n fuel

/-- src/algorithms/rsa.rs:144-185 `blind`. -/
def blind (R : RngImpl σ) (fuel : Nat) (key : PublicKey) (c : BoxedUint) (nParams : MontyParams) :
    Gen σ (BoxedUint × BoxedUint) := do
  if !(key.n.beq nParams.modulus.toBoxedUint) then Gen.lift (.panic .assert) else
  let bits := key.nBitsPrecision
  let (r, ir) ← blindLoop R key.n fuel
  let rpowe ← powModParams r key.e nParams
  let blinded ← mulModParams c rpowe nParams
  if blinded.prec ≠ bits then Gen.lift (.panic .assert) else
  if ir.prec ≠ bits then Gen.lift (.panic .assert) else
  Gen.lift (.ok (blinded, ir))

/-- src/algorithms/rsa.rs:25-114 `rsa_decrypt`; `blinding` says whether the generator is passed (`Some(rng)` or `None`). -/
def rsaDecrypt (R : RngImpl σ) (fuel : Nat) (blinding : Bool) (k : PrivateKey) (c : BoxedUint) : Gen σ BoxedUint := do
  if c.ge k.pub.n then
    Gen.lift (.err .decryption)
  else
    let nParams := k.pub.nParams
    let bits := k.d.prec
    if blinding then
      let (blinded, unblinder) ← blind R fuel k.pub c nParams
      let c ← blinded.widen bits
      let m ← rsaPrivateExp k c
      let m ← m.shorten nParams.prec
      unblind m unblinder nParams
    else
      let c ← c.widen bits
      let m ← rsaPrivateExp k c
      m.shorten nParams.prec

/-- src/algorithms/rsa.rs:116-142 `rsa_decrypt_and_check`. -/
def rsaDecryptAndCheck (R : RngImpl σ) (fuel : Nat) (k : PrivateKey) (blinding : Bool) (c : BoxedUint) :
    Gen σ BoxedUint := do
  let m ← rsaDecrypt R fuel blinding k c
  let check ← rsaEncrypt k.pub m
  if !(c.beq check) then Gen.lift (.err .internal) else Gen.lift (.ok m)

/-! ### src/pkcs1v15.rs -/

/-- src/pkcs1v15.rs:138-148 `encrypt`. -/
def pkcs1v15Encrypt (R : RngImpl σ) (fuel : Nat) (pubKey : PublicKey) (msg : Bytes) : Gen σ Bytes := do
  checkPublic pubKey
  let em ← pkcs1v15EncryptPad R fuel msg pubKey.size
  let int ← fromBeSlice em pubKey.nBitsPrecision
  uintToBePad (← rsaEncrypt pubKey int) pubKey.size

/-- src/pkcs1v15.rs:160-172 `decrypt`. -/
def pkcs1v15Decrypt (R : RngImpl σ) (fuel : Nat) (blinding : Bool) (privKey : PrivateKey) (ciphertext : Bytes) :
    Gen σ Bytes := do
  checkPublic privKey.pub
  let ciphertext ← fromBeSlice ciphertext privKey.pub.nBitsPrecision
  let em ← rsaDecryptAndCheck R fuel privKey blinding ciphertext
  let em ← uintToZeroizingBePad em privKey.pub.size
  pkcs1v15EncryptUnpad em privKey.pub.size

/-- src/pkcs1v15.rs:188-198 `sign`. -/
def pkcs1v15Sign (R : RngImpl σ) (fuel : Nat) (blinding : Bool) (privKey : PrivateKey) (pfx hashed : Bytes) :
    Gen σ Bytes := do
  let em ← pkcs1v15SignPad pfx hashed privKey.pub.size
  let em ← fromBeSlice em privKey.pub.nBitsPrecision
  let m ← rsaDecryptAndCheck R fuel privKey blinding em
  uintToZeroizingBePad m privKey.pub.size

/-- src/pkcs1v15.rs:103-116 `SignatureScheme::sign for Pkcs1v15Sign`. -/
def pkcs1v15SchemeSign (R : RngImpl σ) (fuel : Nat) (S : pkcs1v15.Pkcs1v15Sign) (blinding : Bool) (privKey : PrivateKey)
    (hashed : Bytes) : Gen σ Bytes := do
  S.checkHashLen hashed
  pkcs1v15Sign R fuel blinding privKey S.pfx hashed

/-! ### src/oaep.rs -/

/-- src/oaep.rs:189-203 `encrypt`. -/
def oaepSchemeEncrypt (R : RngImpl σ) (pubKey : PublicKey) (msg : Bytes) (digest mgfDigest : DigestState)
    (label : Option Bytes) : Gen σ Bytes := do
  checkPublic pubKey
  let em ← oaepEncrypt R msg digest mgfDigest label pubKey.size
  let int ← fromBeSlice em pubKey.nBitsPrecision
  uintToBePad (← rsaEncrypt pubKey int) pubKey.size

/-- src/oaep.rs:212-224 `encrypt_digest::<_, D, MGD>`. -/
def oaepSchemeEncryptDigest (R : RngImpl σ) (D MGD : HashFn) (pubKey : PublicKey) (msg : Bytes)
    (label : Option Bytes) : Gen σ Bytes := do
  checkPublic pubKey
  let em ← oaepEncryptDigest R msg D MGD label pubKey.size
  let int ← fromBeSlice em pubKey.nBitsPrecision
  uintToBePad (← rsaEncrypt pubKey int) pubKey.size

/-- src/oaep.rs:239-257 `decrypt`. -/
def oaepSchemeDecrypt (R : RngImpl σ) (fuel : Nat) (blinding : Bool) (privKey : PrivateKey) (ciphertext : Bytes)
    (digest mgfDigest : DigestState) (label : Option Bytes) : Gen σ Bytes := do
  if ciphertext.length ≠ privKey.pub.size then
    Gen.lift (.err .decryption)
  else
    let ciphertext ← fromBeSlice ciphertext privKey.pub.nBitsPrecision
    let em ← rsaDecryptAndCheck R fuel privKey blinding ciphertext
    let em ← uintToZeroizingBePad em privKey.pub.size
    oaepDecrypt em digest mgfDigest label privKey.pub.size

/-- src/oaep.rs:272-289 `decrypt_digest::<_, D, MGD>`. -/
def oaepSchemeDecryptDigest (R : RngImpl σ) (fuel : Nat) (D MGD : HashFn) (blinding : Bool) (privKey : PrivateKey)
    (ciphertext : Bytes) (label : Option Bytes) : Gen σ Bytes := do
  checkPublic privKey.pub
  if ciphertext.length ≠ privKey.pub.size then
    Gen.lift (.err .decryption)
  else
    let ciphertext ← fromBeSlice ciphertext privKey.pub.nBitsPrecision
    let em ← rsaDecryptAndCheck R fuel privKey blinding ciphertext
    let em ← uintToZeroizingBePad em privKey.pub.size
    oaepDecryptDigest em D MGD label privKey.pub.size

/-! ### src/pss.rs -/

/-- src/pss.rs:200-214 `sign_pss_with_salt`. -/
def signPssWithSalt (R : RngImpl σ) (fuel : Nat) (blinding : Bool) (privKey : PrivateKey) (hashed salt : Bytes)
    (digest : DigestState) : Gen σ Bytes := do
  let emBits ← subU privKey.pub.n.bits 1
  let em ← emsaPssEncode hashed emBits salt digest
  let em ← fromBeSlice em privKey.pub.nBitsPrecision
  let raw ← rsaDecryptAndCheck R fuel privKey blinding em
  uintToZeroizingBePad raw privKey.pub.size

/-- src/pss.rs:216-230 `sign_pss_with_salt_digest::<_, D>`. -/
def signPssWithSaltDigest (R : RngImpl σ) (fuel : Nat) (D : HashFn) (blinding : Bool) (privKey : PrivateKey)
    (hashed salt : Bytes) : Gen σ Bytes := do
  let emBits ← subU privKey.pub.n.bits 1
  let em ← emsaPssEncodeDigest hashed emBits salt D
  let em ← fromBeSlice em privKey.pub.nBitsPrecision
  let raw ← rsaDecryptAndCheck R fuel privKey blinding em
  uintToZeroizingBePad raw privKey.pub.size

/-- src/pss.rs:168-180 `sign`. -/
def pssSign (R : RngImpl σ) (fuel : Nat) (blind : Bool) (privKey : PrivateKey) (hashed : Bytes) (saltLen : Nat)
    (digest : DigestState) : Gen σ Bytes := do
  let salt ← tryFill R saltLen
  signPssWithSalt R fuel blind privKey hashed salt digest

/-- src/pss.rs:182-193 `sign_digest::<_, D>`. -/
def pssSignDigest (R : RngImpl σ) (fuel : Nat) (D : HashFn) (blind : Bool) (privKey : PrivateKey) (hashed : Bytes)
    (saltLen : Nat) : Gen σ Bytes := do
  let salt ← tryFill R saltLen
  signPssWithSaltDigest R fuel D blind privKey hashed salt

end gen
end RSA
