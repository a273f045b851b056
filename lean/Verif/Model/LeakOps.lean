import Verif.Model.Leak
import Verif.Model.Pss

/-
Signing and encryption with the observations of `Verif/Model/Leak.lean`: what their control flow and memory accesses reveal.
A request to the generator records its size and whether it succeeded, and nothing about the bytes.
`Leak.res` of every definition is the definition of the same name elsewhere in the model (C76_same_program).
-/
namespace RSA
open BoxedUint
namespace leak
open Leak

/-- `l[i] = b`. -/
def setIdx (l : Bytes) (i : Nat) (b : UInt8) : Leak Bytes := do
  emit (.write l.length i)
  ofRes (RSA.setIdx l i b)

def addU (a b : Nat) : Leak Nat := do
  branch (a + b < 2 ^ 64) (ofRes (.ok (a + b))) (ofRes (.panic .arith))

/-- `vec![b; n]`. -/
def newVec (n : Nat) (b : UInt8) : Leak Bytes := do
  emit (.alloc n)
  ofRes (.ok (List.replicate n b))

/-- `BoxedUint::from_be_slice`. -/
def fromBeSlice (b : Bytes) (bits : Nat) : Leak BoxedUint := do
  bn "from_be_slice" [b.length, bits]
  ofRes (BoxedUint.fromBeSlice b bits)

/-- `rng.try_fill_bytes` on a buffer of `n` octets. -/
def tryFill {σ : Type} (R : RngImpl σ) (s : σ) (n : Nat) : Leak (Bytes × σ) := do
  emit (.range n 0 n)
  emit (.branch (R.fill s n).1.isSome)
  ofRes (R.tryFill s n)

/-! ### src/algorithms/pad.rs -/

/-- src/algorithms/pad.rs:24-28 `uint_to_be_pad`. -/
def uintToBePad (input : BoxedUint) (paddedLen : Nat) : Leak Bytes := do
  emit (.opaque "leading_zeros")
  let lz := input.leadingZeros / 8
  emit (.alloc (8 * input.nlimbs))
  let b ← sliceFrom input.toBeBytes lz
  leftPad b paddedLen

/-! ### src/algorithms/pkcs1v15.rs -/

/-- src/algorithms/pkcs1v15.rs:30-32, the `while *el == 0` loop of `non_zero_random_bytes`. -/
def rerollByte {σ : Type} (R : RngImpl σ) : Nat → σ → Leak (UInt8 × σ)
  | 0, _ => ofRes .loop
  | fuel + 1, s => do
    let (b, s) ← tryFill R s 1
    let el ← idx b 0
    branch (el = 0) (rerollByte R fuel s) (ofRes (.ok (el, s)))

/-- src/algorithms/pkcs1v15.rs:27-34, the `for el in data` loop of `non_zero_random_bytes`. -/
def fixZeros {σ : Type} (R : RngImpl σ) (fuel : Nat) : Bytes → σ → Leak (Bytes × σ)
  | [], s => ofRes (.ok ([], s))
  | el :: rest, s => do
    let (el, s) ← branch (el = 0) (rerollByte R fuel s) (ofRes (.ok (el, s)))
    let (rest, s) ← fixZeros R fuel rest s
    ofRes (.ok (el :: rest, s))

/-- src/algorithms/pkcs1v15.rs:18-37 `non_zero_random_bytes` on a slice of length `len`. -/
def nonZeroRandomBytes {σ : Type} (R : RngImpl σ) (fuel : Nat) (s : σ) (len : Nat) : Leak (Bytes × σ) := do
  let (data, s) ← tryFill R s len
  fixZeros R fuel data s

/-- src/algorithms/pkcs1v15.rs:39-60 `pkcs1v15_encrypt_pad`. -/
def pkcs1v15EncryptPad {σ : Type} (R : RngImpl σ) (fuel : Nat) (s : σ) (msg : Bytes) (k : Nat) : Leak (Bytes × σ) := do
  branch (msg.length + 11 > k) (ofRes (.err .messageTooLong)) do
    let em ← newVec k 0
    let em ← setIdx em 1 2
    let hi ← subU k msg.length
    let hi1 ← subU hi 1
    let cur ← slice em 2 hi1
    let (ps, s) ← nonZeroRandomBytes R fuel s cur.length
    let em ← copyInto em 2 hi1 ps
    let em ← setIdx em hi1 0
    let em ← copyInto em hi k msg
    ofRes (.ok (em, s))

/-- src/algorithms/pkcs1v15.rs:120-137 `pkcs1v15_sign_pad`. -/
def pkcs1v15SignPad (pfx hashed : Bytes) (k : Nat) : Leak Bytes := do
  let hashLen := hashed.length
  let tLen := pfx.length + hashed.length
  branch (k < tLen + 11) (ofRes (.err .messageTooLong)) do
    let em ← newVec k 0xff
    let em ← setIdx em 0 0
    let em ← setIdx em 1 1
    let o ← subU k tLen
    let o1 ← subU o 1
    let em ← setIdx em o1 0
    let oh ← subU k hashLen
    let em ← copyInto em o oh pfx
    let em ← copyInto em oh k hashed
    ofRes (.ok em)

/-! ### src/algorithms/pss.rs -/

/-- src/algorithms/pss.rs:19-90 `emsa_pss_encode`. -/
def emsaPssEncode (mHash : Bytes) (emBits : Nat) (salt : Bytes) (hash : DigestState) : Leak Bytes := do
  let hLen := hash.outputSize
  let sLen := salt.length
  let emLen := divCeil emBits 8
  branch (mHash.length ≠ hLen) (ofRes (.err .inputNotHashed)) do
    let need ← addU hLen sLen
    let need ← addU need 2
    branch (emLen < need) (ofRes (.err .internal)) do
      let em ← newVec emLen 0
      let cut ← subU emLen hLen
      let cut ← subU cut 1
      let (db, h) ← splitAt em cut
      let hl ← subU emLen 1
      let hl ← subU hl db.length
      let _ ← slice h 0 hl
      let hash ← update hash (List.replicate 8 0)
      let hash ← update hash mHash
      let hash ← update hash salt
      let (hashed, hash) ← finalizeReset hash
      let h ← copyInto h 0 hl hashed
      let o ← subU emLen sLen
      let o ← subU o hLen
      let o2 ← subU o 2
      let db ← setIdx db o2 0x01
      let o1 ← subU o 1
      let db ← copyInto db o1 db.length salt
      let hv ← slice h 0 hl
      let (db, _) ← mgf1Xor db hash hv
      let sh ← subU (8 * emLen) emBits
      let mask ← ofRes (shrFF sh)
      let d0 ← idx db 0
      let db ← setIdx db 0 (d0 &&& mask)
      let em := db ++ h
      let last ← subU emLen 1
      setIdx em last 0xBC

/-- src/algorithms/pss.rs:92-167 `emsa_pss_encode_digest::<D>`. -/
def emsaPssEncodeDigest (mHash : Bytes) (emBits : Nat) (salt : Bytes) (D : HashFn) : Leak Bytes := do
  let hLen := D.outLen
  let sLen := salt.length
  let emLen := divCeil emBits 8
  branch (mHash.length ≠ hLen) (ofRes (.err .inputNotHashed)) do
    let need ← addU hLen sLen
    let need ← addU need 2
    branch (emLen < need) (ofRes (.err .internal)) do
      let em ← newVec emLen 0
      let cut ← subU emLen hLen
      let cut ← subU cut 1
      let (db, h) ← splitAt em cut
      let hl ← subU emLen 1
      let hl ← subU hl db.length
      let _ ← slice h 0 hl
      let hash ← update (DigestState.new D) (List.replicate 8 0)
      let hash ← update hash mHash
      let hash ← update hash salt
      let (hashed, hash) ← finalizeReset hash
      let h ← copyInto h 0 hl hashed
      let o ← subU emLen sLen
      let o ← subU o hLen
      let o2 ← subU o 2
      let db ← setIdx db o2 0x01
      let o1 ← subU o 1
      let db ← copyInto db o1 db.length salt
      let hv ← slice h 0 hl
      let (db, _) ← mgf1XorDigest db hash hv
      let sh ← subU (8 * emLen) emBits
      let mask ← ofRes (shrFF sh)
      let d0 ← idx db 0
      let db ← setIdx db 0 (d0 &&& mask)
      let em := db ++ h
      let last ← subU emLen 1
      setIdx em last 0xBC

/-! ### src/algorithms/oaep.rs -/

/-- src/algorithms/oaep.rs:21-50 `encrypt_internal`. -/
def oaepEncryptInternal {σ : Type} (R : RngImpl σ) (s : σ) (msg pHash : Bytes) (hSize k : Nat)
    (mgf : Bytes → Bytes → Leak (Bytes × Bytes)) : Leak (Bytes × σ) := do
  branch (msg.length + 2 * hSize + 2 > k) (ofRes (.err .messageTooLong)) do
    let em ← newVec k 0
    let (first, payload) ← splitAt em 1
    let (seed, db) ← splitAt payload hSize
    let (seed, s) ← tryFill R s seed.length
    let dbLen ← subU k hSize
    let dbLen ← subU dbLen 1
    let db ← copyInto db 0 hSize pHash
    let o ← subU dbLen msg.length
    let o1 ← subU o 1
    let db ← setIdx db o1 1
    let db ← copyInto db o db.length msg
    let (seed, db) ← mgf seed db
    ofRes (.ok (first ++ (seed ++ db), s))

/-- src/algorithms/oaep.rs:52-82 `oaep_encrypt`. -/
def oaepEncrypt {σ : Type} (R : RngImpl σ) (s : σ) (msg : Bytes) (digest mgfDigest : DigestState)
    (label : Option Bytes) (k : Nat) : Leak (Bytes × σ) := do
  let hSize := digest.outputSize
  let label := label.getD []
  branch (label.length ≥ maxLabelLen) (ofRes (.err .labelTooLong)) do
    let digest ← update digest label
    let (pHash, _) ← finalizeReset digest
    oaepEncryptInternal R s msg pHash hSize k (fun seed db => do
      let (db, mgfDigest) ← mgf1Xor db mgfDigest seed
      let (seed, _) ← mgf1Xor seed mgfDigest db
      ofRes (.ok (seed, db)))

/-- src/algorithms/oaep.rs:84-116 `oaep_encrypt_digest::<D, MGD>`. -/
def oaepEncryptDigest {σ : Type} (R : RngImpl σ) (s : σ) (msg : Bytes) (D MGD : HashFn)
    (label : Option Bytes) (k : Nat) : Leak (Bytes × σ) := do
  let hSize := D.outLen
  let label := label.getD []
  branch (label.length ≥ maxLabelLen) (ofRes (.err .labelTooLong)) do
    emit (.absorb label.length)
    let pHash := D.hash label
    oaepEncryptInternal R s msg pHash hSize k (fun seed db => do
      let mgfDigest := DigestState.new MGD
      let (db, mgfDigest) ← mgf1XorDigest db mgfDigest seed
      let (seed, _) ← mgf1XorDigest seed mgfDigest db
      ofRes (.ok (seed, db)))

/-! ### Scheme level. Tests made on the public key are not recorded. -/

/-- src/pkcs1v15.rs:138-148 `encrypt`. -/
def pkcs1v15Encrypt {σ : Type} (R : RngImpl σ) (fuel : Nat) (rng : σ) (pubKey : PublicKey) (msg : Bytes) :
    Leak (Bytes × σ) := do
  ofRes (checkPublic pubKey)
  let (em, rng) ← pkcs1v15EncryptPad R fuel rng msg pubKey.size
  let int ← fromBeSlice em pubKey.nBitsPrecision
  let c ← rsaEncrypt pubKey int
  let c ← uintToBePad c pubKey.size
  ofRes (.ok (c, rng))

/-- src/pkcs1v15.rs:188-198 `sign`. -/
def pkcs1v15Sign {σ : Type} (R : RngImpl σ) (fuel : Nat) (rng : Option σ) (privKey : PrivateKey) (pfx hashed : Bytes) :
    Leak Bytes := do
  let em ← pkcs1v15SignPad pfx hashed privKey.pub.size
  let em ← fromBeSlice em privKey.pub.nBitsPrecision
  let (m, _) ← rsaDecryptAndCheck R fuel privKey rng em
  uintToZeroizingBePad m privKey.pub.size

/-- src/pss.rs:200-214 `sign_pss_with_salt`. -/
def signPssWithSalt {σ : Type} (R : RngImpl σ) (fuel : Nat) (blindRng : Option σ) (privKey : PrivateKey)
    (hashed salt : Bytes) (digest : DigestState) : Leak Bytes := do
  let emBits ← ofRes (RSA.subU privKey.pub.n.bits 1)
  let em ← emsaPssEncode hashed emBits salt digest
  let em ← fromBeSlice em privKey.pub.nBitsPrecision
  let (raw, _) ← rsaDecryptAndCheck R fuel privKey blindRng em
  uintToZeroizingBePad raw privKey.pub.size

/-- src/pss.rs:216-230 `sign_pss_with_salt_digest::<_, D>`. -/
def signPssWithSaltDigest {σ : Type} (R : RngImpl σ) (fuel : Nat) (D : HashFn) (blindRng : Option σ)
    (privKey : PrivateKey) (hashed salt : Bytes) : Leak Bytes := do
  let emBits ← ofRes (RSA.subU privKey.pub.n.bits 1)
  let em ← emsaPssEncodeDigest hashed emBits salt D
  let em ← fromBeSlice em privKey.pub.nBitsPrecision
  let (raw, _) ← rsaDecryptAndCheck R fuel privKey blindRng em
  uintToZeroizingBePad raw privKey.pub.size

/-- src/pss.rs:168-180 `sign`. -/
def pssSign {σ : Type} (R : RngImpl σ) (fuel : Nat) (rng : σ) (blind : Bool) (privKey : PrivateKey) (hashed : Bytes)
    (saltLen : Nat) (digest : DigestState) : Leak Bytes := do
  let (salt, rng) ← tryFill R rng saltLen
  branch (blind = true) (signPssWithSalt R fuel (some rng) privKey hashed salt digest)
    (signPssWithSalt R fuel none privKey hashed salt digest)

/-- src/pss.rs:182-193 `sign_digest::<_, D>`. -/
def pssSignDigest {σ : Type} (R : RngImpl σ) (fuel : Nat) (D : HashFn) (rng : σ) (blind : Bool) (privKey : PrivateKey)
    (hashed : Bytes) (saltLen : Nat) : Leak Bytes := do
  let (salt, rng) ← tryFill R rng saltLen
  branch (blind = true) (signPssWithSaltDigest R fuel D (some rng) privKey hashed salt)
    (signPssWithSaltDigest R fuel D none privKey hashed salt)

/-- src/oaep.rs:189-203 `encrypt`. -/
def oaepSchemeEncrypt {σ : Type} (R : RngImpl σ) (rng : σ) (pubKey : PublicKey) (msg : Bytes)
    (digest mgfDigest : DigestState) (label : Option Bytes) : Leak (Bytes × σ) := do
  ofRes (checkPublic pubKey)
  let (em, rng) ← oaepEncrypt R rng msg digest mgfDigest label pubKey.size
  let int ← fromBeSlice em pubKey.nBitsPrecision
  let c ← rsaEncrypt pubKey int
  let c ← uintToBePad c pubKey.size
  ofRes (.ok (c, rng))

/-- src/oaep.rs:212-224 `encrypt_digest::<_, D, MGD>`. -/
def oaepSchemeEncryptDigest {σ : Type} (R : RngImpl σ) (D MGD : HashFn) (rng : σ) (pubKey : PublicKey) (msg : Bytes)
    (label : Option Bytes) : Leak (Bytes × σ) := do
  ofRes (checkPublic pubKey)
  let (em, rng) ← oaepEncryptDigest R rng msg D MGD label pubKey.size
  let int ← fromBeSlice em pubKey.nBitsPrecision
  let c ← rsaEncrypt pubKey int
  let c ← uintToBePad c pubKey.size
  ofRes (.ok (c, rng))

end leak
end RSA
