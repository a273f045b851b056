import Verif.Model.Pss
import Verif.Model.Oaep
import Verif.Model.Generate
import Verif.Model.Encoding

/- The same functions as compiled without overflow checks (cargo's default `release` profile): machine arithmetic that
leaves its range wraps around instead of panicking, and `debug_assert!` is compiled to nothing. Each definition cites
the lines of its counterpart in the other modules and differs from it only in the arithmetic below and in the missing
assertions. Indexing, slicing and `split_at` check their bounds in every build; `BoxedUint`, its Montgomery forms and the
DER reader belong to other crates and stay as they are. -/
namespace RSA
namespace rel
open BoxedUint der

/-- `usize` subtraction on a 64-bit target; wraps around. -/
def subU (a b : Nat) : Res Nat := .ok (if b ≤ a then a - b else (2 ^ 64 - (b - a) % 2 ^ 64) % 2 ^ 64)

/-- `usize` addition on a 64-bit target; wraps around. -/
def addU (a b : Nat) : Res Nat := .ok ((a + b) % 2 ^ 64)

/-- `u8` addition; wraps around. -/
def addU8 (a b : UInt8) : Res UInt8 := .ok (a + b)

/-- `0xFFu8 >> n`; only the low three bits of the amount are used. -/
def shrFF (n : Nat) : Res UInt8 := .ok (0xFF >>> UInt8.ofNat (n % 8))

/-- `len as u32 * 8`; both the cast and the product keep the low 32 bits. -/
def lenBitsU32 (len : Nat) : Res Nat := .ok (len % 2 ^ 32 * 8 % 2 ^ 32)

/-- `u32::try_from(len).map_err(|_| KeyMalformed)? * 8`; the product keeps the low 32 bits. -/
def lenBitsChecked (len : Nat) : Res Nat := if len < 2 ^ 32 then .ok (len * 8 % 2 ^ 32) else .err .pkcs8

/-- src/algorithms/pad.rs:10-19 `left_pad`. -/
def leftPad (input : Bytes) (paddedLen : Nat) : Res Bytes := do
  if input.length > paddedLen then
    .err .invalidPadLen
  else
    let out := List.replicate paddedLen (0 : UInt8)
    let off ← subU paddedLen input.length
    copyInto out off paddedLen input

/-- src/algorithms/pad.rs:24-28 `uint_to_be_pad`. -/
def uintToBePad (input : BoxedUint) (paddedLen : Nat) : Res Bytes := do
  let lz := input.leadingZeros / 8
  let b ← sliceFrom input.toBeBytes lz
  leftPad b paddedLen

/-- src/algorithms/pad.rs:33-41 `uint_to_zeroizing_be_pad` (`Zeroizing` wrappers are value-transparent). -/
def uintToZeroizingBePad (input : BoxedUint) (paddedLen : Nat) : Res Bytes := do
  let lz := input.leadingZeros / 8
  let m := input
  let m := m.toBeBytes
  let b ← sliceFrom m lz
  leftPad b paddedLen

/-- src/algorithms/pkcs1v15.rs:39-60 `pkcs1v15_encrypt_pad`. -/
def pkcs1v15EncryptPad {σ : Type} (R : RngImpl σ) (fuel : Nat) (s : σ) (msg : Bytes) (k : Nat) : Res (Bytes × σ) := do
  if msg.length + 11 > k then
    .err .messageTooLong
  else
    let em := List.replicate k (0 : UInt8)
    let em ← setIdx em 1 2
    let hi ← subU k msg.length
    let hi1 ← subU hi 1
    let cur ← slice em 2 hi1
    let (ps, s) ← nonZeroRandomBytes R fuel s cur.length
    let em ← copyInto em 2 hi1 ps
    let em ← setIdx em hi1 0
    let em ← copyInto em hi k msg
    .ok (em, s)

/-- src/algorithms/pkcs1v15.rs:120-137 `pkcs1v15_sign_pad`. -/
def pkcs1v15SignPad (pfx hashed : Bytes) (k : Nat) : Res Bytes := do
  let hashLen := hashed.length
  let tLen := pfx.length + hashed.length
  if k < tLen + 11 then
    .err .messageTooLong
  else
    let em := List.replicate k (0xff : UInt8)
    let em ← setIdx em 0 0
    let em ← setIdx em 1 1
    let o ← subU k tLen
    let o1 ← subU o 1
    let em ← setIdx em o1 0
    let oh ← subU k hashLen
    let em ← copyInto em o oh pfx
    let em ← copyInto em oh k hashed
    .ok em

/-- src/algorithms/pkcs1v15.rs:139-163 `pkcs1v15_sign_unpad` (`Choice` accumulators as `Bool`). -/
def pkcs1v15SignUnpad (pfx hashed em : Bytes) (k : Nat) : Res Unit := do
  let hashLen := hashed.length
  let tLen := pfx.length + hashed.length
  if k < tLen + 11 then
    .err .verification
  else
    let b0 ← idx em 0
    let ok := b0 == 0
    let b1 ← idx em 1
    let ok := ok && b1 == 1
    let oh ← subU k hashLen
    let h ← slice em oh k
    let ok := ok && h == hashed
    let o ← subU k tLen
    let p ← slice em o oh
    let ok := ok && p == pfx
    let o1 ← subU o 1
    let z ← idx em o1
    let ok := ok && z == 0
    let cnt ← subU o 3
    let ok := ((em.drop 2).take cnt).foldl (fun ok el => ok && el == 0xff) ok
    if ok then .ok () else .err .verification

/-- src/algorithms/pkcs1v15.rs:165-185 `pkcs1v15_generate_prefix::<D>`; `oid` = `D::OID.as_bytes()`,
`outLen` = `D::output_size()`. The casts `as u8` truncate. -/
def pkcs1v15GeneratePrefix (oid : Bytes) (outLen : Nat) : Res Bytes := do
  let oidLen := UInt8.ofNat oid.length
  let digestLen := UInt8.ofNat outLen
  let a ← addU8 oidLen 8
  let a ← addU8 a digestLen
  let b ← addU8 oidLen 4
  .ok ([0x30, a, 0x30, b, 0x6, oidLen] ++ oid ++ [0x05, 0x00, 0x04, digestLen])

/-- src/algorithms/pss.rs:19-90 `emsa_pss_encode`. -/
def emsaPssEncode (mHash : Bytes) (emBits : Nat) (salt : Bytes) (hash : DigestState) : Res Bytes := do
  let hLen := hash.outputSize
  let sLen := salt.length
  let emLen := divCeil emBits 8
  if mHash.length ≠ hLen then
    .err .inputNotHashed
  else
  let need ← addU hLen sLen
  let need ← addU need 2
  if emLen < need then
    .err .internal
  else
    let em := List.replicate emLen (0 : UInt8)
    let cut ← subU emLen hLen
    let cut ← subU cut 1
    let (db, h) ← splitAt em cut
    let hl ← subU emLen 1
    let hl ← subU hl db.length
    let _ ← slice h 0 hl
    let hash := hash.update (List.replicate 8 0)
    let hash := hash.update mHash
    let hash := hash.update salt
    let (hashed, hash) := hash.finalizeReset
    let h ← copyInto h 0 hl hashed
    let o ← subU emLen sLen
    let o ← subU o hLen
    let o2 ← subU o 2
    let db ← setIdx db o2 0x01
    let o1 ← subU o 1
    let db ← copyInto db o1 db.length salt
    let hv ← slice h 0 hl
    let (db, _) ← mgf1Xor db hash hv
    let sh ← subU (8 * emLen) emBits
    let mask ← shrFF sh
    let d0 ← idx db 0
    let db ← setIdx db 0 (d0 &&& mask)
    let em := db ++ h
    let last ← subU emLen 1
    setIdx em last 0xBC

/-- src/algorithms/pss.rs:92-167 `emsa_pss_encode_digest::<D>`. -/
def emsaPssEncodeDigest (mHash : Bytes) (emBits : Nat) (salt : Bytes) (D : HashFn) : Res Bytes := do
  let hLen := D.outLen
  let sLen := salt.length
  let emLen := divCeil emBits 8
  if mHash.length ≠ hLen then
    .err .inputNotHashed
  else
  let need ← addU hLen sLen
  let need ← addU need 2
  if emLen < need then
    .err .internal
  else
    let em := List.replicate emLen (0 : UInt8)
    let cut ← subU emLen hLen
    let cut ← subU cut 1
    let (db, h) ← splitAt em cut
    let hl ← subU emLen 1
    let hl ← subU hl db.length
    let _ ← slice h 0 hl
    let hash := DigestState.new D
    let hash := hash.update (List.replicate 8 0)
    let hash := hash.update mHash
    let hash := hash.update salt
    let (hashed, hash) := hash.finalizeReset
    let h ← copyInto h 0 hl hashed
    let o ← subU emLen sLen
    let o ← subU o hLen
    let o2 ← subU o 2
    let db ← setIdx db o2 0x01
    let o1 ← subU o 1
    let db ← copyInto db o1 db.length salt
    let hv ← slice h 0 hl
    let (db, _) ← mgf1XorDigest db hash hv
    let sh ← subU (8 * emLen) emBits
    let mask ← shrFF sh
    let d0 ← idx db 0
    let db ← setIdx db 0 (d0 &&& mask)
    let em := db ++ h
    let last ← subU emLen 1
    setIdx em last 0xBC

/-- src/algorithms/pss.rs:169-215 `emsa_pss_verify_pre`: returns `(db, h)`. -/
def emsaPssVerifyPre (mHash em : Bytes) (emBits sLen hLen : Nat) : Res (Bytes × Bytes) := do
  if mHash.length ≠ hLen then
    .err .verification
  else
  let emLen := em.length
  let need ← addU hLen sLen
  let need ← addU need 2
  if emLen < need then
    .err .verification
  else
    let li ← subU em.length 1
    let last ← idx em li
    if last ≠ 0xBC then
      .err .verification
    else
      let cut ← subU emLen hLen
      let cut ← subU cut 1
      let (db, h) ← splitAt em cut
      let h ← slice h 0 hLen
      let d0 ← idx db 0
      let sh ← subU (8 * emLen) emBits
      let sh ← subU 8 sh
      if d0 &&& checkedShlFF sh ≠ 0 then
        .err .verification
      else
        .ok (db, h)

/-- src/algorithms/pss.rs:217-228 `emsa_pss_verify_salt` (`Choice` as `Bool`). -/
def emsaPssVerifySalt (db : Bytes) (emLen sLen hLen : Nat) : Res Bool := do
  let c ← subU emLen hLen
  let c ← subU c sLen
  let c ← subU c 2
  let (zeroes, rest) ← splitAt db c
  let valid := zeroes.foldl (fun a e => a && e == 0x00) true
  let r0 ← idx rest 0
  .ok (valid && r0 == 0x01)

/-- src/algorithms/pss.rs:230-279 `emsa_pss_verify`. -/
def emsaPssVerify (mHash em : Bytes) (sLen : Nat) (hash : DigestState) (keyBits : Nat) : Res Unit := do
  let emBits ← subU keyBits 1
  let emLen := divCeil emBits 8
  let keyLen := divCeil keyBits 8
  let hLen := hash.outputSize
  let off ← subU keyLen emLen
  let em ← sliceFrom em off
  let (db, h) ← emsaPssVerifyPre mHash em emBits sLen hLen
  let (db, hash) ← mgf1Xor db hash h
  let sh ← subU (8 * emLen) emBits
  let mask ← shrFF sh
  let d0 ← idx db 0
  let db ← setIdx db 0 (d0 &&& mask)
  let saltValid ← emsaPssVerifySalt db emLen sLen hLen
  let so ← subU db.length sLen
  let salt ← sliceFrom db so
  let hash := hash.update (List.replicate 8 0)
  let hash := hash.update mHash
  let hash := hash.update salt
  let (h0, _) := hash.finalizeReset
  if saltValid && h0 == h then .ok () else .err .verification

/-- src/algorithms/pss.rs:281-334 `emsa_pss_verify_digest::<D>`. -/
def emsaPssVerifyDigest (mHash em : Bytes) (sLen : Nat) (D : HashFn) (keyBits : Nat) : Res Unit := do
  let emBits ← subU keyBits 1
  let emLen := divCeil emBits 8
  let keyLen := divCeil keyBits 8
  let hLen := D.outLen
  let off ← subU keyLen emLen
  let em ← sliceFrom em off
  let (db, h) ← emsaPssVerifyPre mHash em emBits sLen hLen
  let hash := DigestState.new D
  let (db, hash) ← mgf1XorDigest db hash h
  let sh ← subU (8 * emLen) emBits
  let mask ← shrFF sh
  let d0 ← idx db 0
  let db ← setIdx db 0 (d0 &&& mask)
  let saltValid ← emsaPssVerifySalt db emLen sLen hLen
  let so ← subU db.length sLen
  let salt ← sliceFrom db so
  let hash := hash.update (List.replicate 8 0)
  let hash := hash.update mHash
  let hash := hash.update salt
  let (h0, _) := hash.finalizeReset
  if saltValid && h0 == h then .ok () else .err .verification

/-- src/algorithms/oaep.rs:21-50 `encrypt_internal`; `mgf seed db` returns the masked `(seed, db)`. -/
def oaepEncryptInternal {σ : Type} (R : RngImpl σ) (s : σ) (msg pHash : Bytes) (hSize k : Nat)
    (mgf : Bytes → Bytes → Res (Bytes × Bytes)) : Res (Bytes × σ) := do
  if msg.length + 2 * hSize + 2 > k then
    .err .messageTooLong
  else
    let em := List.replicate k (0 : UInt8)
    let (first, payload) ← splitAt em 1
    let (seed, db) ← splitAt payload hSize
    let (seed, s) ← R.tryFill s seed.length
    let dbLen ← subU k hSize
    let dbLen ← subU dbLen 1
    let db ← copyInto db 0 hSize pHash
    let o ← subU dbLen msg.length
    let o1 ← subU o 1
    let db ← setIdx db o1 1
    let db ← copyInto db o db.length msg
    let (seed, db) ← mgf seed db
    .ok (first ++ (seed ++ db), s)

/-- src/algorithms/oaep.rs:52-82 `oaep_encrypt`. -/
def oaepEncrypt {σ : Type} (R : RngImpl σ) (s : σ) (msg : Bytes) (digest mgfDigest : DigestState)
    (label : Option Bytes) (k : Nat) : Res (Bytes × σ) := do
  let hSize := digest.outputSize
  let label := label.getD []
  if label.length ≥ maxLabelLen then
    .err .labelTooLong
  else
    let digest := digest.update label
    let (pHash, _) := digest.finalizeReset
    oaepEncryptInternal R s msg pHash hSize k (fun seed db => do
      let (db, mgfDigest) ← mgf1Xor db mgfDigest seed
      let (seed, _) ← mgf1Xor seed mgfDigest db
      .ok (seed, db))

/-- src/algorithms/oaep.rs:84-116 `oaep_encrypt_digest::<D, MGD>`. -/
def oaepEncryptDigest {σ : Type} (R : RngImpl σ) (s : σ) (msg : Bytes) (D MGD : HashFn)
    (label : Option Bytes) (k : Nat) : Res (Bytes × σ) := do
  let hSize := D.outLen
  let label := label.getD []
  if label.length ≥ maxLabelLen then
    .err .labelTooLong
  else
    let pHash := D.hash label
    oaepEncryptInternal R s msg pHash hSize k (fun seed db => do
      let mgfDigest := DigestState.new MGD
      let (db, mgfDigest) ← mgf1XorDigest db mgfDigest seed
      let (seed, _) ← mgf1XorDigest seed mgfDigest db
      .ok (seed, db))

/-- src/algorithms/rsa.rs:144-185 `blind`. -/
def blind {σ : Type} (R : RngImpl σ) (fuel : Nat) (s : σ) (key : PublicKey) (c : BoxedUint) (nParams : MontyParams) :
    Res ((BoxedUint × BoxedUint) × σ) := do
  let ((r, ir), s) ← blindLoop R key.n fuel s
  let rpowe ← powModParams r key.e nParams
  let blinded ← mulModParams c rpowe nParams
  .ok ((blinded, ir), s)

/-- src/algorithms/rsa.rs:187-203 `unblind`. -/
def unblind (m unblinder : BoxedUint) (nParams : MontyParams) : Res BoxedUint :=
  mulModParams m unblinder nParams

/-- src/algorithms/rsa.rs:25-114 `rsa_decrypt`; `rng = none` is Rust's `None`. Returns the RNG state afterwards. -/
def rsaDecrypt {σ : Type} (R : RngImpl σ) (fuel : Nat) (rng : Option σ) (k : PrivateKey) (c : BoxedUint) :
    Res (BoxedUint × Option σ) := do
  let n := k.pub.n
  let d := k.d
  if c.ge n then
    .err .decryption
  else
    let nParams := k.pub.nParams
    let bits := d.prec
    match rng with
    | some s =>
      let ((blinded, unblinder), s) ← blind R fuel s k.pub c nParams
      let c ← blinded.widen bits
      let m ← rsaPrivateExp k c
      let m ← m.shorten nParams.prec
      let res ← unblind m unblinder nParams
      .ok (res, some s)
    | none =>
      let c ← c.widen bits
      let m ← rsaPrivateExp k c
      let m ← m.shorten nParams.prec
      .ok (m, none)

/-- src/algorithms/rsa.rs:116-142 `rsa_decrypt_and_check`. -/
def rsaDecryptAndCheck {σ : Type} (R : RngImpl σ) (fuel : Nat) (k : PrivateKey) (rng : Option σ) (c : BoxedUint) :
    Res (BoxedUint × Option σ) := do
  let (m, rng) ← rsaDecrypt R fuel rng k c
  let check ← rsaEncrypt k.pub m
  if !(c.beq check) then .err .internal else .ok (m, rng)

/-- src/key.rs:410-449, the values computed by `precompute` when nothing is cached. -/
def precomputeValues (d : BoxedUint) (primes : List BoxedUint) : Res Precomputed := do
  let bits := d.prec
  let p ← (← primeAt primes 0).widen bits
  let q ← (← primeAt primes 1).widen bits
  let pParams : MontyParams := ⟨← PrivateKey.oddOrInvalid p⟩
  let qParams : MontyParams := ⟨← PrivateKey.oddOrInvalid q⟩
  let x ← PrivateKey.nonZeroOrInvalid (p.wrappingSub BoxedUint.one)
  let dp := d.rem x
  let x ← PrivateKey.nonZeroOrInvalid (q.wrappingSub BoxedUint.one)
  let dq := d.rem x
  let qm ← MontyForm.new q pParams
  match qm.invert with
  | none => .err .invalidPrime
  | some qinv =>
    .ok { dp := dp, dq := dq, qinv := qinv, pParams := pParams, qParams := qParams }

/-- src/key.rs:404-452 `precompute`: the key afterwards, or the error (the key is then unchanged). -/
def precompute (k : PrivateKey) : Res PrivateKey :=
  if k.precomputed.isSome then .ok k
  else do
    let v ← precomputeValues k.d k.primes
    .ok { k with precomputed := some v }

/-- src/key.rs:342-345, `k.precompute().ok(); Ok(k)`: errors of `precompute` are ignored, panics are not. -/
def tryPrecompute (k : PrivateKey) : Res PrivateKey :=
  match precompute k with
  | .err _ => .ok k
  | r => r

/-- src/key.rs:292-346 `from_components`. -/
def fromComponents (n : OddUint) (e d : BoxedUint) (primes : List BoxedUint) : Res PrivateKey := do
  let nParams : MontyParams := ⟨n⟩
  match n.toBoxedUint.nonZero with
  | none => .err .invalidModulus
  | some nC =>
    let primes ←
      match primes with
      | [] => do
        let (p, q) ← recoverPrimes nC e d
        .ok [p, q]
      | [_] => .err .nprimesTooSmall
      | _ => .ok primes
    let k : PrivateKey :=
      { pub := { n := nC, e := e, nParams := nParams }, d := d, primes := primes, precomputed := none }
    k.validate
    tryPrecompute k

/-- src/key.rs:348-368 `from_p_q`. -/
def fromPQ (p q publicExponent : BoxedUint) : Res PrivateKey := do
  if p.beq q then
    .err .invalidPrime
  else
    let d ← computePrivateExponentCarmichael p q publicExponent
    let primes := [p, q]
    let n ← computeModulus primes
    fromComponents n publicExponent d primes

/-- src/key.rs:370-394 `from_primes`. -/
def fromPrimes (primes : List BoxedUint) (publicExponent : BoxedUint) : Res PrivateKey := do
  if primes.length < 2 then
    .err .nprimesTooSmall
  else if PrivateKey.hasDuplicate [] primes then
    .err .invalidPrime
  else
    let n ← computeModulus primes
    let d ← computePrivateExponentEulerTotient primes publicExponent
    fromComponents n publicExponent d primes

/-- src/algorithms/generate.rs:84-88, `for (i, prime) in primes.iter_mut().enumerate()`: `left = nprimes - i` primes are
still to be drawn. -/
def generatePrimes {σ : Type} (G : PrimeGen σ) : Nat → Nat → σ → Res (List BoxedUint × σ)
  | 0, _, s => .ok ([], s)
  | left + 1, todo, s => do
    let bits := todo / (left + 1) % 2 ^ 32
    let (prime, s) ← generatePrimeWithRng G s bits
    let todo ← subU todo prime.bits
    let (rest, s) ← generatePrimes G left todo s
    .ok (prime :: rest, s)

/-- src/algorithms/generate.rs:67-113, the `'next: loop`; one unit of fuel per turn. -/
def generateLoop {σ : Type} (G : PrimeGen σ) (nprimes bitSize : Nat) (exp : BoxedUint) :
    Nat → σ → Res (Components × σ)
  | 0, _ => .loop
  | fuel + 1, s => do
    let todo := if nprimes ≥ 7 then bitSize + (nprimes - 2) / 5 else bitSize
    let (primes, s) ← generatePrimes G nprimes todo s
    if PrivateKey.hasDuplicate [] primes then
      generateLoop G nprimes bitSize exp fuel s
    else
      let n ← computeModulus primes
      if n.toBoxedUint.bits ≠ bitSize then
        generateLoop G nprimes bitSize exp fuel s
      else
        match computePrivateExponentEulerTotient primes exp with
        | .ok d => .ok (⟨n, exp, d, primes⟩, s)
        | .err _ => generateLoop G nprimes bitSize exp fuel s
        | .panic k => .panic k
        | .loop => .loop

/-- src/algorithms/generate.rs:34-121 `generate_multi_prime_key_with_exp`. -/
def generateMultiPrimeKeyWithExp {σ : Type} (G : PrimeGen σ) (fuel : Nat) (s : σ) (nprimes bitSize : Nat)
    (exp : BoxedUint) : Res (Components × σ) :=
  if nprimes < 2 then .err .nprimesTooSmall
  else if bitSize < 64 && tooFewPrimes nprimes bitSize then .err .tooFewPrimes
  else generateLoop G nprimes bitSize exp fuel s

/-- src/key.rs:279-290 `RsaPrivateKey::new_with_exp`. -/
def newWithExp {σ : Type} (G : PrimeGen σ) (fuel : Nat) (s : σ) (bitSize : Nat) (exp : BoxedUint) :
    Res (PrivateKey × σ) := do
  let (c, s) ← generateMultiPrimeKeyWithExp G fuel s 2 bitSize exp
  let k ← fromComponents c.n c.e c.d c.primes
  .ok (k, s)

/-- src/key.rs:274-277 `RsaPrivateKey::new`. -/
def new {σ : Type} (G : PrimeGen σ) (fuel : Nat) (s : σ) (bitSize : Nat) : Res (PrivateKey × σ) :=
  newWithExp G fuel s bitSize (ofU64 defaultExp)

/-- src/encoding.rs:46-78 `TryFrom<PrivateKeyInfoRef> for RsaPrivateKey`. -/
def tryFromInfo (i : PrivateKeyInfo) : Res PrivateKey := do
  verifyAlgorithmId i.algorithm
  let k ← decodeRsaPrivateKey i.privateKey
  if k.multi then
    .err .pkcs8
  else
    let bits ← lenBitsChecked k.modulus.length
    let n ← uintFromSlice k.modulus bits
    match OddUint.new n with
    | none => .err .pkcs8
    | some n =>
      let bitsE ← lenBitsChecked k.publicExponent.length
      let e ← uintFromSlice k.publicExponent bitsE
      let d ← uintFromSlice k.privateExponent bits
      let prime1 ← uintFromSlice k.prime1 bits
      let prime2 ← uintFromSlice k.prime2 bits
      mapErrMalformed (fromComponents n e d [prime1, prime2])

/-- src/encoding.rs:80-101 `TryFrom<SubjectPublicKeyInfoRef> for RsaPublicKey`. -/
def tryFromSpki (i : SubjectPublicKeyInfo) : Res PublicKey := do
  verifyAlgorithmId i.algorithm
  if i.unusedBits ≠ 0 then
    .err .pkcs8
  else
    let k ← decodeRsaPublicKey i.subjectPublicKey
    let bits ← lenBitsChecked k.modulus.length
    let n ← uintFromSlice k.modulus bits
    let bitsE ← lenBitsChecked k.publicExponent.length
    let e ← uintFromSlice k.publicExponent bitsE
    mapErrMalformed (PublicKey.new n e)

/-- `DecodePrivateKey::from_pkcs8_der` (blanket implementation of the `pkcs8` crate over `TryFrom<PrivateKeyInfoRef>`);
also `Deserialize` (src/key.rs:647-656) after the serde byte layer. -/
def fromPkcs8Der (b : Bytes) : Res PrivateKey := do
  let i ← decodePrivateKeyInfo b
  tryFromInfo i

/-- `DecodePublicKey::from_public_key_der`; also `Deserialize` (src/key.rs:625-634) after the serde byte layer. -/
def fromPublicKeyDer (b : Bytes) : Res PublicKey := do
  let i ← decodeSubjectPublicKeyInfo b
  tryFromSpki i

namespace pkcs1v15

/-- src/pkcs1v15.rs:138-148 `encrypt`. -/
def encrypt {σ : Type} (R : RngImpl σ) (fuel : Nat) (rng : σ) (pubKey : PublicKey) (msg : Bytes) :
    Res (Bytes × σ) := do
  checkPublic pubKey
  let (em, rng) ← pkcs1v15EncryptPad R fuel rng msg pubKey.size
  let int ← fromBeSlice em pubKey.nBitsPrecision
  let c ← uintToBePad (← rsaEncrypt pubKey int) pubKey.size
  .ok (c, rng)

/-- src/pkcs1v15.rs:160-172 `decrypt`. -/
def decrypt {σ : Type} (R : RngImpl σ) (fuel : Nat) (rng : Option σ) (privKey : PrivateKey) (ciphertext : Bytes) :
    Res Bytes := do
  checkPublic privKey.pub
  let ciphertext ← fromBeSlice ciphertext privKey.pub.nBitsPrecision
  let (em, _) ← rsaDecryptAndCheck R fuel privKey rng ciphertext
  let em ← uintToZeroizingBePad em privKey.pub.size
  pkcs1v15EncryptUnpad em privKey.pub.size

/-- src/pkcs1v15.rs:188-198 `sign`. -/
def sign {σ : Type} (R : RngImpl σ) (fuel : Nat) (rng : Option σ) (privKey : PrivateKey) (pfx hashed : Bytes) :
    Res Bytes := do
  let em ← pkcs1v15SignPad pfx hashed privKey.pub.size
  let em ← fromBeSlice em privKey.pub.nBitsPrecision
  let (m, _) ← rsaDecryptAndCheck R fuel privKey rng em
  uintToZeroizingBePad m privKey.pub.size

/-- src/pkcs1v15.rs:202-211 `verify`. -/
def verify (pubKey : PublicKey) (pfx hashed : Bytes) (sig : BoxedUint) : Res Unit := do
  let n := pubKey.n
  if sig.ge n || sig.prec != pubKey.nBitsPrecision then
    .err .verification
  else
    let em ← uintToBePad (← rsaEncrypt pubKey sig) pubKey.size
    pkcs1v15SignUnpad pfx hashed em pubKey.size

/-- src/pkcs1v15.rs:68-81 `Pkcs1v15Sign::new::<D>`; `oid` = `D::OID.as_bytes()`. -/
def schemeNew (D : HashFn) (oid : Bytes) : Res RSA.pkcs1v15.Pkcs1v15Sign := do
  let p ← pkcs1v15GeneratePrefix oid D.outLen
  .ok { hashLen := some D.outLen, pfx := p }

/-- src/pkcs1v15.rs:103-116 `SignatureScheme::sign for Pkcs1v15Sign`. -/
def schemeSign {σ : Type} (S : RSA.pkcs1v15.Pkcs1v15Sign) (R : RngImpl σ) (fuel : Nat) (rng : Option σ)
    (privKey : PrivateKey) (hashed : Bytes) : Res Bytes := do
  S.checkHashLen hashed
  pkcs1v15.sign R fuel rng privKey S.pfx hashed

/-- src/pkcs1v15.rs:118-131 `SignatureScheme::verify for Pkcs1v15Sign`. -/
def schemeVerify (S : RSA.pkcs1v15.Pkcs1v15Sign) (pubKey : PublicKey) (hashed sig : Bytes) : Res Unit := do
  S.checkHashLen hashed
  let bits ← lenBitsU32 sig.length
  let s ← fromBeSlice sig bits
  pkcs1v15.verify pubKey S.pfx hashed s

/-- src/pkcs1v15/signature.rs:33-47 `TryFrom<&[u8]> for Signature` (the error is boxed into `signature::Error`; here it
is kept). -/
def signatureTryFrom (b : Bytes) : Res RSA.pkcs1v15.Signature := do
  let bits ← lenBitsU32 b.length
  let inner ← fromBeSlice b bits
  .ok ⟨inner⟩

end pkcs1v15

namespace pss

/-- src/pss.rs:127-142 `verify`. -/
def verify (pubKey : PublicKey) (hashed : Bytes) (sig : BoxedUint) (sigLen : Nat) (digest : DigestState)
    (saltLen : Nat) : Res Unit := do
  if sigLen ≠ pubKey.size then
    .err .verification
  else
    let raw ← rsaEncrypt pubKey sig
    let em ← uintToBePad raw pubKey.size
    emsaPssVerify hashed em saltLen digest pubKey.n.bits

/-- src/pss.rs:144-161 `verify_digest::<D>`. -/
def verifyDigest (D : HashFn) (pubKey : PublicKey) (hashed : Bytes) (sig : BoxedUint) (saltLen : Nat) : Res Unit := do
  let n := pubKey.n
  if sig.ge n || sig.prec != pubKey.nBitsPrecision then
    .err .verification
  else
    let em ← uintToBePad (← rsaEncrypt pubKey sig) pubKey.size
    emsaPssVerifyDigest hashed em saltLen D pubKey.n.bits

/-- src/pss.rs:200-214 `sign_pss_with_salt`. -/
def signPssWithSalt {σ : Type} (R : RngImpl σ) (fuel : Nat) (blindRng : Option σ) (privKey : PrivateKey)
    (hashed salt : Bytes) (digest : DigestState) : Res Bytes := do
  let emBits ← subU privKey.pub.n.bits 1
  let em ← emsaPssEncode hashed emBits salt digest
  let em ← fromBeSlice em privKey.pub.nBitsPrecision
  let (raw, _) ← rsaDecryptAndCheck R fuel privKey blindRng em
  uintToZeroizingBePad raw privKey.pub.size

/-- src/pss.rs:216-230 `sign_pss_with_salt_digest::<_, D>`. -/
def signPssWithSaltDigest {σ : Type} (R : RngImpl σ) (fuel : Nat) (D : HashFn) (blindRng : Option σ)
    (privKey : PrivateKey) (hashed salt : Bytes) : Res Bytes := do
  let emBits ← subU privKey.pub.n.bits 1
  let em ← emsaPssEncodeDigest hashed emBits salt D
  let em ← fromBeSlice em privKey.pub.nBitsPrecision
  let (raw, _) ← rsaDecryptAndCheck R fuel privKey blindRng em
  uintToZeroizingBePad raw privKey.pub.size

/-- src/pss.rs:168-180 `sign`; `blind.then_some(rng)` passes the generator on after the salt was drawn. -/
def sign {σ : Type} (R : RngImpl σ) (fuel : Nat) (rng : σ) (blind : Bool) (privKey : PrivateKey) (hashed : Bytes)
    (saltLen : Nat) (digest : DigestState) : Res Bytes := do
  let (salt, rng) ← R.tryFill rng saltLen
  signPssWithSalt R fuel (if blind then some rng else none) privKey hashed salt digest

/-- src/pss.rs:182-193 `sign_digest::<_, D>`. -/
def signDigest {σ : Type} (R : RngImpl σ) (fuel : Nat) (D : HashFn) (rng : σ) (blind : Bool) (privKey : PrivateKey)
    (hashed : Bytes) (saltLen : Nat) : Res Bytes := do
  let (salt, rng) ← R.tryFill rng saltLen
  signPssWithSaltDigest R fuel D (if blind then some rng else none) privKey hashed salt

/-- src/pss.rs:89-103 `SignatureScheme::sign for Pss`. -/
def schemeSign {σ : Type} (S : RSA.pss.Pss) (R : RngImpl σ) (fuel : Nat) (rng : Option σ) (privKey : PrivateKey)
    (hashed : Bytes) : Res Bytes :=
  match rng with
  | none => .err .invalidPaddingScheme
  | some rng => pss.sign R fuel rng S.blinded privKey hashed S.saltLen S.digest

/-- src/pss.rs:105-114 `SignatureScheme::verify for Pss`. -/
def schemeVerify (S : RSA.pss.Pss) (pubKey : PublicKey) (hashed sig : Bytes) : Res Unit := do
  let bits ← lenBitsU32 sig.length
  let s ← fromBeSlice sig bits
  pss.verify pubKey hashed s sig.length S.digest S.saltLen

/-- src/pss/signature.rs:33-48 `TryFrom<&[u8]> for Signature`. -/
def signatureTryFrom (b : Bytes) : Res RSA.pss.Signature := do
  let bits ← lenBitsU32 b.length
  let inner ← fromBeSlice b bits
  .ok ⟨inner⟩

end pss

namespace oaep

/-- src/oaep.rs:189-203 `encrypt`. -/
def encrypt {σ : Type} (R : RngImpl σ) (rng : σ) (pubKey : PublicKey) (msg : Bytes) (digest mgfDigest : DigestState)
    (label : Option Bytes) : Res (Bytes × σ) := do
  checkPublic pubKey
  let (em, rng) ← oaepEncrypt R rng msg digest mgfDigest label pubKey.size
  let int ← fromBeSlice em pubKey.nBitsPrecision
  let c ← uintToBePad (← rsaEncrypt pubKey int) pubKey.size
  .ok (c, rng)

/-- src/oaep.rs:212-224 `encrypt_digest::<_, D, MGD>`. -/
def encryptDigest {σ : Type} (R : RngImpl σ) (D MGD : HashFn) (rng : σ) (pubKey : PublicKey) (msg : Bytes)
    (label : Option Bytes) : Res (Bytes × σ) := do
  checkPublic pubKey
  let (em, rng) ← oaepEncryptDigest R rng msg D MGD label pubKey.size
  let int ← fromBeSlice em pubKey.nBitsPrecision
  let c ← uintToBePad (← rsaEncrypt pubKey int) pubKey.size
  .ok (c, rng)

/-- src/oaep.rs:239-257 `decrypt`. -/
def decrypt {σ : Type} (R : RngImpl σ) (fuel : Nat) (rng : Option σ) (privKey : PrivateKey) (ciphertext : Bytes)
    (digest mgfDigest : DigestState) (label : Option Bytes) : Res Bytes := do
  if ciphertext.length ≠ privKey.pub.size then
    .err .decryption
  else
    let ciphertext ← fromBeSlice ciphertext privKey.pub.nBitsPrecision
    let (em, _) ← rsaDecryptAndCheck R fuel privKey rng ciphertext
    let em ← uintToZeroizingBePad em privKey.pub.size
    oaepDecrypt em digest mgfDigest label privKey.pub.size

/-- src/oaep.rs:272-289 `decrypt_digest::<_, D, MGD>`. -/
def decryptDigest {σ : Type} (R : RngImpl σ) (fuel : Nat) (D MGD : HashFn) (rng : Option σ) (privKey : PrivateKey)
    (ciphertext : Bytes) (label : Option Bytes) : Res Bytes := do
  checkPublic privKey.pub
  if ciphertext.length ≠ privKey.pub.size then
    .err .decryption
  else
    let ciphertext ← fromBeSlice ciphertext privKey.pub.nBitsPrecision
    let (em, _) ← rsaDecryptAndCheck R fuel privKey rng ciphertext
    let em ← uintToZeroizingBePad em privKey.pub.size
    oaepDecryptDigest em D MGD label privKey.pub.size

/-- src/oaep.rs:138-152 `PaddingScheme::decrypt for Oaep`. -/
def schemeDecrypt {σ : Type} (P : RSA.oaep.Oaep) (R : RngImpl σ) (fuel : Nat) (rng : Option σ) (privKey : PrivateKey)
    (ciphertext : Bytes) : Res Bytes :=
  oaep.decrypt R fuel rng privKey ciphertext P.digest P.mgfDigest P.label

/-- src/oaep.rs:154-168 `PaddingScheme::encrypt for Oaep`. -/
def schemeEncrypt {σ : Type} (P : RSA.oaep.Oaep) (R : RngImpl σ) (rng : σ) (pubKey : PublicKey) (msg : Bytes) :
    Res (Bytes × σ) :=
  oaep.encrypt R rng pubKey msg P.digest P.mgfDigest P.label

end oaep
end rel
end RSA
