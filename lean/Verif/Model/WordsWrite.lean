import Verif.Model.WordsRecover

/-
Writing of DER documents on machines with words of `w` octets.
-/
namespace RSA
namespace words
open Uint der

variable {w : Nat}

/-- src/encoding.rs:118-125, `d % NonZero::new(&primes[i].widen(bits) - 1).unwrap()`. -/
def crtExponent (d p : Uint w) : Res (Uint w) := do
  let p ← p.widen d.prec
  let x ← expectNonZero (← p.sub Uint.one)
  .ok (d.rem x)

/-- src/key.rs:459-465 `crt_coefficient`. -/
def crtCoefficient (k : PrivKey w) : Res (Option (Uint w)) := do
  let p ← primeAt k.primes 0
  let q ← primeAt k.primes 1
  .ok (q.invMod p)

/-- src/encoding.rs:103-151 `to_pkcs8_der`. -/
def toPkcs8Der (k : PrivKey w) : Res Bytes := do
  if k.primes.length > 2 then
    .err .pkcs8
  else
    let p ← primeAt k.primes 0
    let q ← primeAt k.primes 1
    let exponent1 ← crtExponent k.d p
    let exponent2 ← crtExponent k.d q
    match ← crtCoefficient k with
    | none => .err .pkcs8
    | some coefficient => do
      let privateKey ← encodeRsaPrivateKey
        { multi := false
          modulus := uintRef k.pub.n.toBeBytes
          publicExponent := uintRef k.pub.e.toBeBytes
          privateExponent := uintRef k.d.toBeBytes
          prime1 := uintRef p.toBeBytes
          prime2 := uintRef q.toBeBytes
          exponent1 := uintRef exponent1.toBeBytes
          exponent2 := uintRef exponent2.toBeBytes
          coefficient := uintRef coefficient.toBeBytes }
      encodePrivateKeyInfo ⟨algorithmId, privateKey⟩

/-- src/encoding.rs:153-173 `to_public_key_der`. -/
def toPublicKeyDer (k : PubKey w) : Res Bytes := do
  let subjectPublicKey ← encodeRsaPublicKey
    { modulus := uintRef k.n.toBeBytes, publicExponent := uintRef k.e.toBeBytes }
  encodeSubjectPublicKeyInfo ⟨algorithmId, 0, subjectPublicKey⟩

end words
end RSA
