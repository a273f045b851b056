import Verif.Model.Prelude

/-
DER (X.690) as far as it is needed, written independently of the model.
-/
namespace RSA.Spec

/-- Minimal big-endian octets of `n` (none for 0). -/
def natOctets (n : Nat) : Bytes :=
  if _h : n = 0 then [] else natOctets (n / 256) ++ [UInt8.ofNat (n % 256)]
termination_by n
decreasing_by omega

/-- X.690 §8.1.3 / §10.1: definite length, shortest form. -/
def derLen (n : Nat) : Bytes :=
  if n < 128 then [UInt8.ofNat n] else UInt8.ofNat (0x80 + (natOctets n).length) :: natOctets n

/-- Tag, length, contents. -/
def der (tag : UInt8) (content : Bytes) : Bytes := tag :: (derLen content.length ++ content)

/-- RFC 8017 §9.2 note 1: `DigestInfo ::= SEQUENCE { SEQUENCE { OID, NULL }, OCTET STRING digest }`. -/
def digestInfo (oid digest : Bytes) : Bytes :=
  der 0x30 (der 0x30 (der 0x06 oid ++ der 0x05 []) ++ der 0x04 digest)

/-- X.690 §8.3: contents octets of a non-negative INTEGER, two's complement in the fewest octets. -/
def intOctets (n : Nat) : Bytes :=
  if n = 0 then [0] else if n / 256 ^ ((natOctets n).length - 1) ≥ 128 then 0 :: natOctets n else natOctets n

/-- INTEGER. -/
def derInt (n : Nat) : Bytes := der 0x02 (intOctets n)

/-- X.690 §8.19: one arc in base 128, high bit set on all octets but the last. -/
def arcOctets (n : Nat) : Bytes :=
  hi (n / 128) ++ [UInt8.ofNat (n % 128)]
where
  hi (n : Nat) : Bytes := if _h : n = 0 then [] else hi (n / 128) ++ [UInt8.ofNat (0x80 + n % 128)]
  termination_by n
  decreasing_by omega

/-- X.690 §8.19: contents octets of an OBJECT IDENTIFIER `a.b.…`. -/
def oidOctets (a b : Nat) (arcs : List Nat) : Bytes := arcOctets (40 * a + b) ++ arcs.flatMap arcOctets

/-- RFC 8017 appendix A.1: `rsaEncryption` with NULL parameters. -/
def rsaEncryptionAlg : Bytes := der 0x30 (der 0x06 (oidOctets 1 2 [840, 113549, 1, 1, 1]) ++ der 0x05 [])

/-- RFC 8017 appendix A.2.3: `id-RSASSA-PSS` without parameters. -/
def rsassaPssAlg : Bytes := der 0x30 (der 0x06 (oidOctets 1 2 [840, 113549, 1, 1, 10]))

/-- RFC 8017 appendix A.1.1 `RSAPublicKey`. -/
def rsaPublicKey (n e : Nat) : Bytes := der 0x30 (derInt n ++ derInt e)

/-- RFC 8017 appendix A.1.2 `RSAPrivateKey`, version 0. -/
def rsaPrivateKey (n e d p q dp dq qi : Nat) : Bytes :=
  der 0x30 (derInt 0 ++ derInt n ++ derInt e ++ derInt d ++ derInt p ++ derInt q ++ derInt dp ++ derInt dq ++ derInt qi)

/-- RFC 5280 §4.1 `SubjectPublicKeyInfo`. -/
def subjectPublicKeyInfo (alg key : Bytes) : Bytes := der 0x30 (alg ++ der 0x03 (0 :: key))

/-- RFC 5208 §5 `PrivateKeyInfo`, version 0, no attributes. -/
def privateKeyInfo (alg key : Bytes) : Bytes := der 0x30 (derInt 0 ++ alg ++ der 0x04 key)

/-- `AlgorithmIdentifier` with NULL parameters. -/
def nullAlg (oid : Bytes) : Bytes := der 0x30 (der 0x06 oid ++ der 0x05 [])

/-- RFC 4055 §3.1 `RSASSA-PSS-params` with trailer field 1, components at their DEFAULT left out (X.690 §11.5):
hash function `hash`, MGF1 over `mgfHash`, salt length `salt`. -/
def rsassaPssParams (hash mgfHash : Bytes) (salt : Nat) : Bytes :=
  der 0x30 (
    (if hash = oidOctets 1 3 [14, 3, 2, 26] then [] else der 0xa0 (nullAlg hash)) ++
    (if mgfHash = oidOctets 1 3 [14, 3, 2, 26] then []
      else der 0xa1 (der 0x30 (der 0x06 (oidOctets 1 2 [840, 113549, 1, 1, 8]) ++ nullAlg mgfHash))) ++
    (if salt = 20 then [] else der 0xa2 (derInt salt)))

/-- RFC 4055 §3.1: the algorithm identifier of a PSS signature. -/
def rsassaPssSignatureAlg (hash mgfHash : Bytes) (salt : Nat) : Bytes :=
  der 0x30 (der 0x06 (oidOctets 1 2 [840, 113549, 1, 1, 10]) ++ rsassaPssParams hash mgfHash salt)

end RSA.Spec
