import Verif.Model.Leak
import Verif.Model.KeyTypes

/- What comparing two private keys shows, as a function of sizes and of which parts agree. -/
namespace RSA.Spec

/-- Comparing factors one by one: sizes of both, and how many in front agree. -/
def matchTrace : List Nat → List Nat → Nat → List Ev
  | p :: _, q :: _, 0 => [.bignum "eq" [p, q], .branch true]
  | p :: ps, q :: qs, m + 1 => .bignum "eq" [p, q] :: .branch false :: matchTrace ps qs m
  | _, _, _ => []

/-- How far two keys agree. -/
inductive Agreement
  | modulusDiffers
  | exponentDiffers
  | privateExponentDiffers
  | factors (m : Nat)
  deriving DecidableEq, Repr

/-- KeySizes in words of modulus, exponent, private exponent and factors. -/
structure KeySizes where
  n : Nat
  e : Nat
  d : Nat
  primes : List Nat
  deriving DecidableEq

def keySizes (k : PrivateKey) : KeySizes := ⟨k.pub.n.nlimbs, k.pub.e.nlimbs, k.d.nlimbs, k.primes.map (·.nlimbs)⟩

/-- How many factors in front are the same numbers. -/
def leading : List Nat → List Nat → Nat
  | p :: ps, q :: qs => if p = q then leading ps qs + 1 else 0
  | _, _ => 0

/-- How far the numbers of two keys agree. -/
def agreement (a b : PrivateKey) : Agreement :=
  if a.pub.n.val ≠ b.pub.n.val then .modulusDiffers
  else if a.pub.e.val ≠ b.pub.e.val then .exponentDiffers
  else if a.d.val ≠ b.d.val then .privateExponentDiffers
  else .factors (leading (a.primes.map (·.val)) (b.primes.map (·.val)))

/-- The whole comparison. -/
def compareTrace (a b : KeySizes) : Agreement → List Ev
  | .modulusDiffers => [.bignum "eq" [a.n, b.n], .branch false, .branch false, .branch false]
  | .exponentDiffers => [.bignum "eq" [a.n, b.n], .branch true, .bignum "eq" [a.e, b.e], .branch false, .branch false]
  | .privateExponentDiffers =>
    [.bignum "eq" [a.n, b.n], .branch true, .bignum "eq" [a.e, b.e], .branch true, .bignum "eq" [a.d, b.d], .branch false]
  | .factors m =>
    [.bignum "eq" [a.n, b.n], .branch true, .bignum "eq" [a.e, b.e], .branch true, .bignum "eq" [a.d, b.d], .branch true,
      .compare a.primes.length b.primes.length] ++
    if a.primes.length = b.primes.length then .branch false :: matchTrace a.primes b.primes m else [.branch true]

end RSA.Spec
