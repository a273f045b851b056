import Verif.Model.Mgf

/- src/algorithms/oaep.rs -/
namespace RSA

/-- src/algorithms/oaep.rs:14-19 `MAX_LABEL_LEN`. -/
def maxLabelLen : Nat := 2 ^ 61

/-- src/algorithms/oaep.rs:21-50 `encrypt_internal`; `mgf seed db` returns the masked `(seed, db)`. -/
def oaepEncryptInternal {σ : Type} (R : RngImpl σ) (s : σ) (msg pHash : Bytes) (hSize k : Nat)
    (mgf : Bytes → Bytes → Res (Bytes × Bytes)) : Res (Bytes × σ) := do
  if msg.length + 2 * hSize + 2 > k then
    .err .messageTooLong
  else
    let em := List.replicate k (0 : UInt8)
    let (first, payload) ← splitAt em 1
    let (seed, db) ← splitAt payload hSize
    let (seed, s) ← R.tryFill s seed.length
    let dbLen ← subU k hSize
    let dbLen ← subU dbLen 1
    let db ← copyInto db 0 hSize pHash
    let o ← subU dbLen msg.length
    let o1 ← subU o 1
    let db ← setIdx db o1 1
    let db ← copyInto db o db.length msg
    let (seed, db) ← mgf seed db
    .ok (first ++ (seed ++ db), s)

/-- src/algorithms/oaep.rs:52-82 `oaep_encrypt`. -/
def oaepEncrypt {σ : Type} (R : RngImpl σ) (s : σ) (msg : Bytes) (digest mgfDigest : DigestState)
    (label : Option Bytes) (k : Nat) : Res (Bytes × σ) := do
  let hSize := digest.outputSize
  let label := label.getD []
  if label.length ≥ maxLabelLen then
    .err .labelTooLong
  else
    let digest := digest.update label
    let (pHash, _) := digest.finalizeReset
    oaepEncryptInternal R s msg pHash hSize k (fun seed db => do
      let (db, mgfDigest) ← mgf1Xor db mgfDigest seed
      let (seed, _) ← mgf1Xor seed mgfDigest db
      .ok (seed, db))

/-- src/algorithms/oaep.rs:84-116 `oaep_encrypt_digest::<D, MGD>`. -/
def oaepEncryptDigest {σ : Type} (R : RngImpl σ) (s : σ) (msg : Bytes) (D MGD : HashFn)
    (label : Option Bytes) (k : Nat) : Res (Bytes × σ) := do
  let hSize := D.outLen
  let label := label.getD []
  if label.length ≥ maxLabelLen then
    .err .labelTooLong
  else
    let pHash := D.hash label
    oaepEncryptInternal R s msg pHash hSize k (fun seed db => do
      let mgfDigest := DigestState.new MGD
      let (db, mgfDigest) ← mgf1XorDigest db mgfDigest seed
      let (seed, _) ← mgf1XorDigest seed mgfDigest db
      .ok (seed, db))

/-- src/algorithms/oaep.rs:235-241, body of the search loop of `decrypt_inner`;
state = (`looking_for_index`, `index`, `nonzero_before_one`). -/
def oaepStep (st : Bool × UInt32 × Bool) (e : UInt8 × Nat) : Bool × UInt32 × Bool :=
  let (looking, index, nonzero) := st
  let equals0 := e.1 == 0
  let equals1 := e.1 == 1
  let index := if looking && equals1 then UInt32.ofNat e.2 else index
  let looking := looking && !equals1
  let nonzero := nonzero || (looking && !equals0)
  (looking, index, nonzero)

/-- src/algorithms/oaep.rs:199-249 `decrypt_inner`: `CtOption` = the pair plus its validity flag. -/
def oaepDecryptInner (em : Bytes) (hSize : Nat) (expectedPHash : Bytes) (k : Nat)
    (mgf : Bytes → Bytes → Res (Bytes × Bytes)) : Res (Bool × Bytes × UInt32) := do
  if k < 11 then
    .err .decryption
  else if k < hSize * 2 + 2 then
    .err .decryption
  else
    let b0 ← idx em 0
    let firstByteIsZero := b0 == 0
    let (first, payload) ← splitAt em 1
    let (seed, db) ← splitAt payload hSize
    let (seed, db) ← mgf seed db
    let h ← slice db 0 hSize
    let hashAreEqual := h == expectedPHash
    let (looking, index, nonzero) := (db.drop hSize).zipIdx.foldl oaepStep (true, 0, false)
    let valid := firstByteIsZero && hashAreEqual && !nonzero && !looking
    .ok (valid, first ++ (seed ++ db), index + 2 + UInt32.ofNat (hSize * 2))

/-- src/algorithms/oaep.rs:118-158 `oaep_decrypt`. -/
def oaepDecrypt (em : Bytes) (digest mgfDigest : DigestState) (label : Option Bytes) (k : Nat) : Res Bytes := do
  let hSize := digest.outputSize
  let label := label.getD []
  if label.length ≥ maxLabelLen then
    .err .decryption
  else
    let digest := digest.update label
    let (expectedPHash, _) := digest.finalizeReset
    let (valid, out, index) ← oaepDecryptInner em hSize expectedPHash k (fun seed db => do
      let (seed, mgfDigest) ← mgf1Xor seed mgfDigest db
      let (db, _) ← mgf1Xor db mgfDigest seed
      .ok (seed, db))
    if !valid then .err .decryption else sliceFrom out index.toNat

/-- src/algorithms/oaep.rs:160-197 `oaep_decrypt_digest::<D, MGD>`. -/
def oaepDecryptDigest (em : Bytes) (D MGD : HashFn) (label : Option Bytes) (k : Nat) : Res Bytes := do
  let hSize := D.outLen
  let label := label.getD []
  if label.length ≥ maxLabelLen then
    .err .labelTooLong
  else
    let expectedPHash := D.hash label
    let (valid, out, index) ← oaepDecryptInner em hSize expectedPHash k (fun seed db => do
      let mgfDigest := DigestState.new MGD
      let (seed, mgfDigest) ← mgf1XorDigest seed mgfDigest db
      let (db, _) ← mgf1XorDigest db mgfDigest seed
      .ok (seed, db))
    if !valid then .err .decryption else sliceFrom out index.toNat

end RSA
