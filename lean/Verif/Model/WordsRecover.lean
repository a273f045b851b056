import Verif.Model.WordsPrimes

/-
Recovery of the primes on machines with words of `w` octets: `recover_primes`, and `from_components` without factors.
-/
namespace RSA
namespace words

namespace Uint
variable {w : Nat}

/-- `BoxedUint::from(v)` of a `u64` or a `u32`: the limbs of 64 or 32 bits. -/
def ofU64 (v : UInt64) : Uint w := wrap (limbsFor w 64) v.toNat
def ofU32 (v : UInt32) : Uint w := wrap (limbsFor w 32) v.toNat

/-- `x <= y`. -/
def le (x y : Uint w) : Bool := !(lt y x)

/-- `&a + &b`: panics on overflow; the result has the larger width. -/
def add (x y : Uint w) : Res (Uint w) :=
  if x.val + y.val < 2 ^ (8 * w * max x.nlimbs y.nlimbs) then
    .ok (wrap (max x.nlimbs y.nlimbs) (x.val + y.val)) else .panic .arith

/-- `a.square()`. -/
def square (x : Uint w) : Uint w := mul x x

/-- `a.sqrt()`: integer square root. -/
def sqrt (x : Uint w) : Uint w := wrap x.nlimbs (BoxedUint.sqrt.isqrt x.val)

end Uint
open Uint

variable {w : Nat}

/-- src/algorithms/rsa.rs:225-300 `recover_primes`. -/
def recoverPrimes (n e d : Uint w) : Res (Uint w × Uint w) := do
  if e.le (Uint.ofU64 65536) then
    .err .invalidArguments
  else
    let bits := d.prec * 2
    let one ← Uint.one.widen bits
    let e ← e.widen bits
    let d ← d.widen bits
    let n ← n.widen bits
    let a1 ← (d.mul e).sub one
    let a2 := (← n.sub one).gcd a1
    let a := a1.mul a2
    let n ← n.widen a.prec
    let m := a.div (← expectNonZero n)
    let r ← a.sub (m.mul n)
    let den ← expectNonZero (← m.add one)
    let num ← n.sub r
    if !(num.rem den).isZero then
      .err .invalidArguments
    else
      let b ← (num.div den).add one
      let four := Uint.ofU32 4
      let fourN := n.mul four
      let bSquared := b.square
      if bSquared.le fourN then
        .err .invalidArguments
      else
        let diff ← bSquared.sub fourN
        let y := diff.sqrt
        let ySquared := y.square
        if !(ySquared.beq diff) then
          .err .invalidArguments
        else
          let bits := max b.prec y.prec
          let two ← (← expectNonZero (Uint.ofU64 2)).widen bits
          let p := (← b.add y).div two
          let q := (← b.sub y).div two
          .ok (p, q)

/-- src/key.rs:292-346 `from_components`, without factors (lines 318-322). -/
def fromNone (n : Uint w) (hn : n.val % 2 = 1) (e d : Uint w) : Res (PrivKey w) := do
  let (p, q) ← recoverPrimes n e d
  fromFactors n hn e d [p, q]

end words
end RSA
