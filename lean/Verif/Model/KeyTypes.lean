import Verif.Model.Rng

/- src/key.rs (data types) and src/traits/keys.rs -/
namespace RSA
open BoxedUint

/-- src/key.rs:27-39 `RsaPublicKey`. (`n : NonZero<BoxedUint>`: non-zero by construction, see `PublicKey.Coherent`.) -/
structure PublicKey where
  n : BoxedUint
  e : BoxedUint
  nParams : MontyParams
  deriving DecidableEq, Repr

/-- src/key.rs:122-135 `PrecomputedValues`. -/
structure Precomputed where
  dp : BoxedUint
  dq : BoxedUint
  qinv : MontyForm
  pParams : MontyParams
  qParams : MontyParams
  deriving DecidableEq, Repr

/-- src/key.rs:59-70 `RsaPrivateKey`. -/
structure PrivateKey where
  pub : PublicKey
  d : BoxedUint
  primes : List BoxedUint
  precomputed : Option Precomputed
  deriving DecidableEq, Repr

/-- src/traits/keys.rs:17-21 `PublicKeyParts::size`. -/
def PublicKey.size (k : PublicKey) : Nat := divCeil k.n.bits 8

/-- src/traits/keys.rs:26-29 `PublicKeyParts::n_bits_precision`. -/
def PublicKey.nBitsPrecision (k : PublicKey) : Nat := k.n.prec

/-- Invariant of every `RsaPublicKey` the crate can construct (src/key.rs:235-238, 248-252, 311-333): the Montgomery
parameters were made from the modulus, which is therefore odd. -/
def PublicKey.Coherent (k : PublicKey) : Prop := k.nParams.modulus.toBoxedUint = k.n

instance (k : PublicKey) : Decidable k.Coherent := by unfold PublicKey.Coherent; infer_instance

/-- src/key.rs:43-48 `PartialEq for RsaPublicKey`. -/
def PublicKey.eq (a b : PublicKey) : Bool := a.n.beq b.n && a.e.beq b.e

/-- `primes == primes` on `Vec<BoxedUint>` (element-wise `PartialEq`). -/
def vecEq : List BoxedUint → List BoxedUint → Bool
  | [], [] => true
  | a :: as, b :: bs => a.beq b && vecEq as bs
  | _, _ => false

/-- src/key.rs:89-96 `PartialEq for RsaPrivateKey`. -/
def PrivateKey.eq (a b : PrivateKey) : Bool := a.pub.eq b.pub && a.d.beq b.d && vecEq a.primes b.primes

/-- What a `Hasher` is fed. -/
inductive HashItem
  | bytes (b : String)
  | limbs (count : Nat) (val : Nat)
  deriving DecidableEq, Repr

/-- Derived `Hash for BoxedUint` (external): the limbs, hence their number and value. -/
def BoxedUint.hashItems (x : BoxedUint) : List HashItem := [.limbs x.nlimbs x.val]

/-- src/key.rs:50-57 `Hash for RsaPublicKey`. -/
def PublicKey.hashItems (k : PublicKey) : List HashItem :=
  [.bytes "RsaPublicKey"] ++ k.n.hashItems ++ k.e.hashItems

/-- src/key.rs:104-110 `Hash for RsaPrivateKey`. -/
def PrivateKey.hashItems (k : PrivateKey) : List HashItem :=
  [.bytes "RsaPrivateKey"] ++ k.pub.hashItems

/-- Fields handed to the `Formatter` by a `Debug` implementation. -/
inductive DebugField
  | pubkey (name : String) (k : PublicKey)
  | str (name : String) (v : String)
  deriving DecidableEq, Repr

/-- src/key.rs:72-86 `Debug for RsaPrivateKey`. -/
def PrivateKey.debugFields (k : PrivateKey) : String × List DebugField :=
  let precomputed := if k.precomputed.isSome then "Some(...)" else "None"
  ("RsaPrivateKey",
    [.pubkey "pubkey_components" k.pub, .str "d" "...", .str "primes" "&[...]", .str "precomputed" precomputed])

/-- src/key.rs:155-172 `From<RsaPrivateKey>` and `From<&RsaPrivateKey> for RsaPublicKey`. -/
def PublicKey.ofPrivate (k : PrivateKey) : PublicKey := { n := k.pub.n, e := k.pub.e, nParams := k.pub.nParams }

/-- src/key.rs:396-402 `to_public_key`. -/
def PrivateKey.toPublicKey (k : PrivateKey) : PublicKey := k.pub

/-- `BoxedUint::zeroize`: all limbs overwritten with zero. -/
def BoxedUint.zeroize (x : BoxedUint) : BoxedUint := wrap x.nlimbs 0

/-- src/key.rs:139-147 `Zeroize for PrecomputedValues`: only `dp` and `dq`. -/
def Precomputed.zeroize (p : Precomputed) : Precomputed := { p with dp := p.dp.zeroize, dq := p.dq.zeroize }

/-- src/key.rs:112-118 `Drop for RsaPrivateKey`: contents of the buffers when they are released.
(`self.primes.zeroize()` clears each element before truncating the vector; `Option::zeroize` zeroizes the payload and
sets `None`; the record below is what the released memory held.) -/
def PrivateKey.dropped (k : PrivateKey) : PrivateKey :=
  { k with
    d := k.d.zeroize
    primes := k.primes.map BoxedUint.zeroize
    precomputed := k.precomputed.map Precomputed.zeroize }

end RSA
