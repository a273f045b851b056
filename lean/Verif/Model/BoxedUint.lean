import Verif.Model.Prelude

/-
Interface of the external crate `crypto-bigint` (not part of /repo; trusted base).
A `BoxedUint` is a natural number together with the number of 64-bit limbs it is stored in.
-/
namespace RSA

/-- `crypto_bigint::BoxedUint`: `nlimbs` 64-bit limbs holding `val`. -/
structure BoxedUint where
  nlimbs : Nat
  val : Nat
  isLt : val < 2 ^ (64 * nlimbs)
  deriving DecidableEq, Repr

namespace BoxedUint

/-- Keep the low `64 * l` bits. -/
def wrap (l v : Nat) : BoxedUint := ⟨l, v % 2 ^ (64 * l), Nat.mod_lt _ (Nat.two_pow_pos _)⟩

/-- `bits_precision()`. -/
def prec (x : BoxedUint) : Nat := 64 * x.nlimbs

/-- `bits()`: position of the highest set bit, 0 for 0. -/
def bits (x : BoxedUint) : Nat := if x.val = 0 then 0 else x.val.log2 + 1

/-- `leading_zeros()`. -/
def leadingZeros (x : BoxedUint) : Nat := x.prec - x.bits

/-- Number of limbs allocated for a requested precision in bits. -/
def limbsFor (bits : Nat) : Nat := max 1 ((bits + 63) / 64)

/-- `BoxedUint::one()`. -/
def one : BoxedUint := wrap 1 1

/-- `BoxedUint::from(u32 | u64)`. -/
def ofU64 (v : UInt64) : BoxedUint := wrap 1 v.toNat

/-- `BoxedUint::one_with_precision(bits)`. -/
def oneWithPrecision (bits : Nat) : BoxedUint := wrap (limbsFor bits) 1

/-- `is_zero`, `is_even`, `is_one`. -/
def isZero (x : BoxedUint) : Bool := x.val == 0
def isEven (x : BoxedUint) : Bool := x.val % 2 == 0
def isOne (x : BoxedUint) : Bool := x.val == 1

/-- `PartialEq` / `Ord`: comparison by value, whatever the limb counts. -/
def beq (x y : BoxedUint) : Bool := x.val == y.val
def lt (x y : BoxedUint) : Bool := x.val < y.val
def ge (x y : BoxedUint) : Bool := !(lt x y)
def gt (x y : BoxedUint) : Bool := lt y x
def le (x y : BoxedUint) : Bool := !(lt y x)

/-- `widen(at_least_bits)`: panics when asked for less than the current precision. -/
def widen (x : BoxedUint) (bits : Nat) : Res BoxedUint :=
  if x.prec ≤ bits then .ok (wrap (limbsFor bits) x.val) else .panic .precision

/-- `shorten(at_least_bits)`: panics when asked for more than the current precision; drops high limbs. -/
def shorten (x : BoxedUint) (bits : Nat) : Res BoxedUint :=
  if bits ≤ x.prec then .ok (wrap (limbsFor bits) x.val) else .panic .precision

/-- `&a * &b`: widening multiplication, limb counts add. -/
def mul (x y : BoxedUint) : BoxedUint := wrap (x.nlimbs + y.nlimbs) (x.val * y.val)

/-- `a.square()`. -/
def square (x : BoxedUint) : BoxedUint := mul x x

/-- `a.wrapping_mul(&b)`: result has the width of `a`. -/
def wrappingMul (x y : BoxedUint) : BoxedUint := wrap x.nlimbs (x.val * y.val)

/-- `Wrapping(a) + Wrapping(b)`: result has the larger width. -/
def wrappingAdd (x y : BoxedUint) : BoxedUint := wrap (max x.nlimbs y.nlimbs) (x.val + y.val)

/-- `a.wrapping_sub(&b)` for `b = 1`: result has the width of `a`. -/
def wrappingSub (x y : BoxedUint) : BoxedUint :=
  wrap x.nlimbs (x.val + 2 ^ (64 * x.nlimbs) - y.val % 2 ^ (64 * x.nlimbs))

/-- `&a - &b`: panics on underflow. -/
def sub (x y : BoxedUint) : Res BoxedUint :=
  if y.val ≤ x.val then .ok (wrap (max x.nlimbs y.nlimbs) (x.val - y.val)) else .panic .arith

/-- `&a + &b`: panics on overflow of the larger width. -/
def add (x y : BoxedUint) : Res BoxedUint :=
  if x.val + y.val < 2 ^ (64 * max x.nlimbs y.nlimbs) then
    .ok (wrap (max x.nlimbs y.nlimbs) (x.val + y.val)) else .panic .arith

/-- `NonZero::new(x)`. -/
def nonZero (x : BoxedUint) : Option BoxedUint := if x.val = 0 then none else some x

/-- `a / b` for `b : NonZero`. -/
def div (x y : BoxedUint) : BoxedUint := wrap x.nlimbs (x.val / y.val)

/-- `a % b`, `a.rem_vartime(b)` for `b : NonZero`; the remainder has the width of `b`. -/
def rem (x y : BoxedUint) : BoxedUint := wrap y.nlimbs (x.val % y.val)

/-- `a.gcd(&b)`. -/
def gcd (x y : BoxedUint) : BoxedUint := wrap (max x.nlimbs y.nlimbs) (Nat.gcd x.val y.val)

/-- `a.sqrt()`: integer square root. -/
def sqrt (x : BoxedUint) : BoxedUint := wrap x.nlimbs (isqrt x.val)
where
  /-- Largest `r` with `r * r ≤ n`, found bit by bit. -/
  isqrt (n : Nat) : Nat := go (n.log2 / 2 + 1) n
  /-- Square root of `n` with `fuel` result bits. -/
  go : Nat → Nat → Nat
    | 0, _ => 0
    | fuel + 1, n =>
      let r := 2 * go fuel (n / 4)
      if (r + 1) * (r + 1) ≤ n then r + 1 else r

/-- Inverse of `a` modulo `m` as an integer in `[0, m)`, when `a` and `m` are coprime and `m > 0`.
Bezout coefficient by the extended Euclidean algorithm. -/
def natInvMod (a m : Nat) : Option Nat :=
  if m = 0 then none
  else if Nat.gcd a m = 1 then some ((xgcd (2 * m.log2 + 4) (a % m) m 1 0).toNat % m) else none
where
  /-- Loop keeping `s * a ≡ r (mod m)` and `s' * a ≡ r' (mod m)`; returns the `s` whose `r` is the gcd,
  made non-negative modulo `m`. -/
  xgcd : Nat → Nat → Nat → Int → Int → Int
    | 0, _, _, _, s' => s' % m
    | fuel + 1, r, r', s, s' =>
      if r = 0 then s' % m else xgcd fuel (r' % r) r (s' - (r' / r) * s) s

/-- `a.inv_mod(&m)`. -/
def invMod (x m : BoxedUint) : Option BoxedUint := (natInvMod x.val m.val).map (wrap m.nlimbs)

/-- Big-endian digits of `v` on exactly `len` bytes. -/
def beBytes : Nat → Nat → Bytes
  | 0, _ => []
  | len + 1, v => beBytes len (v / 256) ++ [UInt8.ofNat (v % 256)]

/-- `to_be_bytes()`: all `8 * nlimbs` bytes, leading zeros included. -/
def toBeBytes (x : BoxedUint) : Bytes := beBytes (8 * x.nlimbs) x.val

/-- Value of a big-endian byte string. -/
def beVal (b : Bytes) : Nat := b.foldl (fun acc x => acc * 256 + x.toNat) 0

/-- `BoxedUint::from_be_slice(bytes, bits_precision)`. -/
def fromBeSlice (b : Bytes) (bits : Nat) : Res BoxedUint :=
  if b.length > divCeil bits 8 then .err (.decode .inputSize)
  else
    let x := wrap (limbsFor bits) (beVal b)
    if x.bits > bits then .err (.decode .precision) else .ok x

end BoxedUint

/-- `Odd<BoxedUint>`. -/
structure OddUint where
  toBoxedUint : BoxedUint
  odd : toBoxedUint.val % 2 = 1
  deriving DecidableEq, Repr

/-- `Odd::new(x)`. -/
def OddUint.new (x : BoxedUint) : Option OddUint :=
  if h : x.val % 2 = 1 then some ⟨x, h⟩ else none

/-- `BoxedMontyParams`: determined by the odd modulus. -/
structure MontyParams where
  modulus : OddUint
  deriving DecidableEq, Repr

/-- `BoxedMontyParams::bits_precision()`. -/
def MontyParams.prec (p : MontyParams) : Nat := p.modulus.toBoxedUint.prec

/-- The modulus as a number. -/
def MontyParams.mod (p : MontyParams) : Nat := p.modulus.toBoxedUint.val

/-- `BoxedMontyForm`: a residue modulo `params.modulus`. -/
structure MontyForm where
  params : MontyParams
  res : Nat
  deriving DecidableEq, Repr

namespace MontyForm

/-- `BoxedMontyForm::new(x, params)`: reduces `x`; the precisions must agree (debug assertion of the crate). -/
def new (x : BoxedUint) (p : MontyParams) : Res MontyForm :=
  if x.prec = p.prec then .ok ⟨p, x.val % p.mod⟩ else .panic .precision

/-- Square-and-multiply `b ^ e mod m`, most significant bit first (`fuel` at least the bit length of `e`). -/
def powModFuel : Nat → Nat → Nat → Nat → Nat
  | 0, _, _, m => 1 % m
  | fuel + 1, b, e, m =>
    let h := powModFuel fuel b (e / 2) m
    if e % 2 = 1 then h * h % m * b % m else h * h % m

/-- `b ^ e mod m`. -/
def powMod (b e m : Nat) : Nat := powModFuel (e.log2 + 1) b e m

/-- `x.pow(exp)`. -/
def pow (x : MontyForm) (e : BoxedUint) : MontyForm := ⟨x.params, powMod x.res e.val x.params.mod⟩

/-- `x * y` (operands must have the same parameters, debug assertion of the crate). -/
def mul (x y : MontyForm) : Res MontyForm :=
  if x.params = y.params then .ok ⟨x.params, x.res * y.res % x.params.mod⟩ else .panic .precision

/-- `x -= y`. -/
def sub (x y : MontyForm) : Res MontyForm :=
  if x.params = y.params then
    .ok ⟨x.params, (x.res + x.params.mod - y.res % x.params.mod) % x.params.mod⟩
  else .panic .precision

/-- `x.invert()`. -/
def invert (x : MontyForm) : Option MontyForm :=
  (BoxedUint.natInvMod x.res x.params.mod).map (fun r => ⟨x.params, r⟩)

/-- `x.retrieve()`. -/
def retrieve (x : MontyForm) : BoxedUint := BoxedUint.wrap x.params.modulus.toBoxedUint.nlimbs x.res

end MontyForm

end RSA
