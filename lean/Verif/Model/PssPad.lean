import Verif.Model.Mgf

/- src/algorithms/pss.rs -/
namespace RSA

/-- `0xFFu8 >> n` (a shift by 8 or more panics with overflow checks on). -/
def shrFF (n : Nat) : Res UInt8 := if n < 8 then .ok (0xFF >>> UInt8.ofNat n) else .panic .arith

/-- `0xFF_u8.checked_shl(n).unwrap_or(0)`. -/
def checkedShlFF (n : Nat) : UInt8 := if n < 8 then 0xFF <<< UInt8.ofNat n else 0

/-- src/algorithms/pss.rs:19-90 `emsa_pss_encode`. -/
def emsaPssEncode (mHash : Bytes) (emBits : Nat) (salt : Bytes) (hash : DigestState) : Res Bytes := do
  let hLen := hash.outputSize
  let sLen := salt.length
  let emLen := divCeil emBits 8
  if mHash.length ≠ hLen then
    .err .inputNotHashed
  else
  let need ← addU hLen sLen
  let need ← addU need 2
  if emLen < need then
    .err .internal
  else
    let em := List.replicate emLen (0 : UInt8)
    let cut ← subU emLen hLen
    let cut ← subU cut 1
    let (db, h) ← splitAt em cut
    let hl ← subU emLen 1
    let hl ← subU hl db.length
    let _ ← slice h 0 hl
    let hash := hash.update (List.replicate 8 0)
    let hash := hash.update mHash
    let hash := hash.update salt
    let (hashed, hash) := hash.finalizeReset
    let h ← copyInto h 0 hl hashed
    let o ← subU emLen sLen
    let o ← subU o hLen
    let o2 ← subU o 2
    let db ← setIdx db o2 0x01
    let o1 ← subU o 1
    let db ← copyInto db o1 db.length salt
    let hv ← slice h 0 hl
    let (db, _) ← mgf1Xor db hash hv
    let sh ← subU (8 * emLen) emBits
    let mask ← shrFF sh
    let d0 ← idx db 0
    let db ← setIdx db 0 (d0 &&& mask)
    let em := db ++ h
    let last ← subU emLen 1
    setIdx em last 0xBC

/-- src/algorithms/pss.rs:92-167 `emsa_pss_encode_digest::<D>`. -/
def emsaPssEncodeDigest (mHash : Bytes) (emBits : Nat) (salt : Bytes) (D : HashFn) : Res Bytes := do
  let hLen := D.outLen
  let sLen := salt.length
  let emLen := divCeil emBits 8
  if mHash.length ≠ hLen then
    .err .inputNotHashed
  else
  let need ← addU hLen sLen
  let need ← addU need 2
  if emLen < need then
    .err .internal
  else
    let em := List.replicate emLen (0 : UInt8)
    let cut ← subU emLen hLen
    let cut ← subU cut 1
    let (db, h) ← splitAt em cut
    let hl ← subU emLen 1
    let hl ← subU hl db.length
    let _ ← slice h 0 hl
    let hash := DigestState.new D
    let hash := hash.update (List.replicate 8 0)
    let hash := hash.update mHash
    let hash := hash.update salt
    let (hashed, hash) := hash.finalizeReset
    let h ← copyInto h 0 hl hashed
    let o ← subU emLen sLen
    let o ← subU o hLen
    let o2 ← subU o 2
    let db ← setIdx db o2 0x01
    let o1 ← subU o 1
    let db ← copyInto db o1 db.length salt
    let hv ← slice h 0 hl
    let (db, _) ← mgf1XorDigest db hash hv
    let sh ← subU (8 * emLen) emBits
    let mask ← shrFF sh
    let d0 ← idx db 0
    let db ← setIdx db 0 (d0 &&& mask)
    let em := db ++ h
    let last ← subU emLen 1
    setIdx em last 0xBC

/-- src/algorithms/pss.rs:169-215 `emsa_pss_verify_pre`: returns `(db, h)`. -/
def emsaPssVerifyPre (mHash em : Bytes) (emBits sLen hLen : Nat) : Res (Bytes × Bytes) := do
  if mHash.length ≠ hLen then
    .err .verification
  else
  let emLen := em.length
  let need ← addU hLen sLen
  let need ← addU need 2
  if emLen < need then
    .err .verification
  else
    let li ← subU em.length 1
    let last ← idx em li
    if last ≠ 0xBC then
      .err .verification
    else
      let cut ← subU emLen hLen
      let cut ← subU cut 1
      let (db, h) ← splitAt em cut
      let h ← slice h 0 hLen
      let d0 ← idx db 0
      let sh ← subU (8 * emLen) emBits
      let sh ← subU 8 sh
      if d0 &&& checkedShlFF sh ≠ 0 then
        .err .verification
      else
        .ok (db, h)

/-- src/algorithms/pss.rs:217-228 `emsa_pss_verify_salt` (`Choice` as `Bool`). -/
def emsaPssVerifySalt (db : Bytes) (emLen sLen hLen : Nat) : Res Bool := do
  let c ← subU emLen hLen
  let c ← subU c sLen
  let c ← subU c 2
  let (zeroes, rest) ← splitAt db c
  let valid := zeroes.foldl (fun a e => a && e == 0x00) true
  let r0 ← idx rest 0
  .ok (valid && r0 == 0x01)

/-- src/algorithms/pss.rs:230-279 `emsa_pss_verify`. -/
def emsaPssVerify (mHash em : Bytes) (sLen : Nat) (hash : DigestState) (keyBits : Nat) : Res Unit := do
  let emBits ← subU keyBits 1
  let emLen := divCeil emBits 8
  let keyLen := divCeil keyBits 8
  let hLen := hash.outputSize
  let off ← subU keyLen emLen
  let em ← sliceFrom em off
  let (db, h) ← emsaPssVerifyPre mHash em emBits sLen hLen
  let (db, hash) ← mgf1Xor db hash h
  let sh ← subU (8 * emLen) emBits
  let mask ← shrFF sh
  let d0 ← idx db 0
  let db ← setIdx db 0 (d0 &&& mask)
  let saltValid ← emsaPssVerifySalt db emLen sLen hLen
  let so ← subU db.length sLen
  let salt ← sliceFrom db so
  let hash := hash.update (List.replicate 8 0)
  let hash := hash.update mHash
  let hash := hash.update salt
  let (h0, _) := hash.finalizeReset
  if saltValid && h0 == h then .ok () else .err .verification

/-- src/algorithms/pss.rs:281-334 `emsa_pss_verify_digest::<D>`. -/
def emsaPssVerifyDigest (mHash em : Bytes) (sLen : Nat) (D : HashFn) (keyBits : Nat) : Res Unit := do
  let emBits ← subU keyBits 1
  let emLen := divCeil emBits 8
  let keyLen := divCeil keyBits 8
  let hLen := D.outLen
  let off ← subU keyLen emLen
  let em ← sliceFrom em off
  let (db, h) ← emsaPssVerifyPre mHash em emBits sLen hLen
  let hash := DigestState.new D
  let (db, hash) ← mgf1XorDigest db hash h
  let sh ← subU (8 * emLen) emBits
  let mask ← shrFF sh
  let d0 ← idx db 0
  let db ← setIdx db 0 (d0 &&& mask)
  let saltValid ← emsaPssVerifySalt db emLen sLen hLen
  let so ← subU db.length sLen
  let salt ← sliceFrom db so
  let hash := hash.update (List.replicate 8 0)
  let hash := hash.update mHash
  let hash := hash.update salt
  let (h0, _) := hash.finalizeReset
  if saltValid && h0 == h then .ok () else .err .verification

end RSA
