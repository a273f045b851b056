import Verif.Model.Rng

/- src/algorithms/pkcs1v15.rs -/
namespace RSA

/-- src/algorithms/pkcs1v15.rs:30-32, the `while *el == 0` loop of `non_zero_random_bytes` (fuel bounds the number of
retries). -/
def rerollByte {σ : Type} (R : RngImpl σ) : Nat → σ → Res (UInt8 × σ)
  | 0, _ => .loop
  | fuel + 1, s => do
    let (b, s) ← R.tryFill s 1
    let el ← idx b 0
    if el = 0 then rerollByte R fuel s else .ok (el, s)

/-- src/algorithms/pkcs1v15.rs:27-34, the `for el in data` loop of `non_zero_random_bytes`. -/
def fixZeros {σ : Type} (R : RngImpl σ) (fuel : Nat) : Bytes → σ → Res (Bytes × σ)
  | [], s => .ok ([], s)
  | el :: rest, s => do
    let (el, s) ← if el = 0 then rerollByte R fuel s else .ok (el, s)
    let (rest, s) ← fixZeros R fuel rest s
    .ok (el :: rest, s)

/-- src/algorithms/pkcs1v15.rs:18-37 `non_zero_random_bytes` on a slice of length `len`. -/
def nonZeroRandomBytes {σ : Type} (R : RngImpl σ) (fuel : Nat) (s : σ) (len : Nat) : Res (Bytes × σ) := do
  let (data, s) ← R.tryFill s len
  fixZeros R fuel data s

/-- src/algorithms/pkcs1v15.rs:39-60 `pkcs1v15_encrypt_pad`. -/
def pkcs1v15EncryptPad {σ : Type} (R : RngImpl σ) (fuel : Nat) (s : σ) (msg : Bytes) (k : Nat) : Res (Bytes × σ) := do
  if msg.length + 11 > k then
    .err .messageTooLong
  else
    let em := List.replicate k (0 : UInt8)
    let em ← setIdx em 1 2
    let hi ← subU k msg.length
    let hi1 ← subU hi 1
    let cur ← slice em 2 hi1
    let (ps, s) ← nonZeroRandomBytes R fuel s cur.length
    let em ← copyInto em 2 hi1 ps
    let em ← setIdx em hi1 0
    let em ← copyInto em hi k msg
    .ok (em, s)

/-- src/algorithms/pkcs1v15.rs:100-104, body of the search loop of `decrypt_inner`;
state = (`looking_for_index`, `index`). -/
def pkcs1v15Step (st : UInt8 × UInt32) (e : UInt8 × Nat) : UInt8 × UInt32 :=
  let equals0 := e.1 == 0
  let index := if (st.1 == 1) && equals0 then UInt32.ofNat e.2 else st.2
  let looking := if equals0 then 0 else st.1
  (looking, index)

/-- src/algorithms/pkcs1v15.rs:84-118 `decrypt_inner`: returns (`valid`, `em`, `index`). -/
def pkcs1v15DecryptInner (em : Bytes) (k : Nat) : Res (UInt8 × Bytes × UInt32) := do
  if k < 11 then
    .err .decryption
  else
    let b0 ← idx em 0
    let firstByteIsZero := b0 == 0
    let b1 ← idx em 1
    let secondByteIsTwo := b1 == 2
    let (looking, index) := (em.zipIdx.drop 2).foldl pkcs1v15Step (1, 0)
    -- `(((2i32 + 8i32 - index as i32 - 1i32) >> 31) & 1) as u8`
    let t : BitVec 32 := (2#32 + 8#32 - index.toBitVec - 1#32).sshiftRight 31 &&& 1#32
    let validPs := t == 1#32
    -- `Choice::from(!looking_for_index & 1)`
    let found := (~~~looking &&& 1) == 1
    let valid := firstByteIsZero && secondByteIsTwo && found && validPs
    let index := if valid then index + 1 else 0
    .ok (if valid then 1 else 0, em, index)

/-- src/algorithms/pkcs1v15.rs:69-77 `pkcs1v15_encrypt_unpad`. -/
def pkcs1v15EncryptUnpad (em : Bytes) (k : Nat) : Res Bytes := do
  let (valid, out, index) ← pkcs1v15DecryptInner em k
  if valid = 0 then .err .decryption else sliceFrom out index.toNat

/-- src/algorithms/pkcs1v15.rs:120-137 `pkcs1v15_sign_pad`. -/
def pkcs1v15SignPad (pfx hashed : Bytes) (k : Nat) : Res Bytes := do
  let hashLen := hashed.length
  let tLen := pfx.length + hashed.length
  if k < tLen + 11 then
    .err .messageTooLong
  else
    let em := List.replicate k (0xff : UInt8)
    let em ← setIdx em 0 0
    let em ← setIdx em 1 1
    let o ← subU k tLen
    let o1 ← subU o 1
    let em ← setIdx em o1 0
    let oh ← subU k hashLen
    let em ← copyInto em o oh pfx
    let em ← copyInto em oh k hashed
    .ok em

/-- src/algorithms/pkcs1v15.rs:139-163 `pkcs1v15_sign_unpad` (`Choice` accumulators as `Bool`). -/
def pkcs1v15SignUnpad (pfx hashed em : Bytes) (k : Nat) : Res Unit := do
  let hashLen := hashed.length
  let tLen := pfx.length + hashed.length
  if k < tLen + 11 then
    .err .verification
  else
    let b0 ← idx em 0
    let ok := b0 == 0
    let b1 ← idx em 1
    let ok := ok && b1 == 1
    let oh ← subU k hashLen
    let h ← slice em oh k
    let ok := ok && h == hashed
    let o ← subU k tLen
    let p ← slice em o oh
    let ok := ok && p == pfx
    let o1 ← subU o 1
    let z ← idx em o1
    let ok := ok && z == 0
    let cnt ← subU o 3
    let ok := ((em.drop 2).take cnt).foldl (fun ok el => ok && el == 0xff) ok
    if ok then .ok () else .err .verification

/-- `u8` addition (panics on overflow when overflow checks are on). -/
def addU8 (a b : UInt8) : Res UInt8 := if a.toNat + b.toNat < 256 then .ok (a + b) else .panic .arith

/-- src/algorithms/pkcs1v15.rs:165-185 `pkcs1v15_generate_prefix::<D>`; `oid` = `D::OID.as_bytes()`,
`outLen` = `D::output_size()`. The casts `as u8` truncate. -/
def pkcs1v15GeneratePrefix (oid : Bytes) (outLen : Nat) : Res Bytes := do
  let oidLen := UInt8.ofNat oid.length
  let digestLen := UInt8.ofNat outLen
  let a ← addU8 oidLen 8
  let a ← addU8 a digestLen
  let b ← addU8 oidLen 4
  .ok ([0x30, a, 0x30, b, 0x6, oidLen] ++ oid ++ [0x05, 0x00, 0x04, digestLen])

end RSA
