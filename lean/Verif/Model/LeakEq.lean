import Verif.Model.LeakKey
import Verif.Model.KeyTypes

/-
Comparing keys, recording observations as in `Model/Leak`.  A comparison of two numbers is one call into the bignum crate
(constant time there for operands of given sizes); `&&` and the loop over the factors test what it returned.
-/
namespace RSA
open BoxedUint

namespace leak
open Leak

/-- `x && y`. -/
def andThen (x y : Leak Bool) : Leak Bool := do
  let c ← x
  branch (c = true) y (ofRes (.ok false))

/-- src/key.rs:43-48 `PartialEq for RsaPublicKey`. -/
def publicEq (a b : PublicKey) : Leak Bool := andThen (cmp "eq" BoxedUint.beq a.n b.n) (cmp "eq" BoxedUint.beq a.e b.e)

/-- The loop of `[T]::eq`: `if a[i] != b[i] { return false }`. -/
def elementsEq : List BoxedUint → List BoxedUint → Leak Bool
  | a :: as, b :: bs => do
    let c ← cmp "eq" BoxedUint.beq a b
    branch (c = false) (ofRes (.ok false)) (elementsEq as bs)
  | _, _ => ofRes (.ok true)

/-- `primes == primes`: `[T]::eq` compares the lengths first. -/
def vecEq (a b : List BoxedUint) : Leak Bool := do
  emit (.compare a.length b.length)
  branch (a.length ≠ b.length) (ofRes (.ok false)) (elementsEq a b)

/-- src/key.rs:89-96 `PartialEq for RsaPrivateKey`. -/
def privateEq (a b : PrivateKey) : Leak Bool :=
  andThen (andThen (publicEq a.pub b.pub) (cmp "eq" BoxedUint.beq a.d b.d)) (vecEq a.primes b.primes)

end leak
end RSA
