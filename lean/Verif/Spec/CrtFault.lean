import Verif.Spec.Key

/-
What a fault in the cached CRT values of a private key is, and what RFC 8017, 5.1.2 (2.b) computes from any three numbers
in their place.
-/
namespace RSA.Spec

/-- Step 2.b of RSADP with `a` in place of `dP`, `b` in place of `dQ` and `u` in place of `qInv`. -/
def crtWith (p q a b u c : Nat) : Int :=
  let m1 : Int := ((c ^ a % p : Nat) : Int)
  let m2 : Int := ((c ^ b % q : Nat) : Int)
  m2 + q * ((m1 - m2) * u % p)

/-- `f` is the two-prime key `k` after a fault: its cached exponents are `a` and `b` and its cached coefficient is `u`,
whatever they were, and its private exponent may be another number of the same width. -/
structure Faulted (k f : PrivateKey) (p q : BoxedUint) (a b u : Nat) : Prop where
  pub : f.pub = k.pub
  width : f.d.nlimbs = k.d.nlimbs
  primes : k.primes = [p, q]
  primes' : f.primes = [p, q]
  cache : ∃ pre, f.precomputed = some pre ∧ pre.dp.val = a ∧ pre.dq.val = b ∧ pre.qinv.res = u ∧
    pre.qinv.params = pre.pParams ∧
    pre.pParams.modulus.toBoxedUint.val = p.val ∧ pre.pParams.modulus.toBoxedUint.nlimbs = k.d.nlimbs ∧
    pre.qParams.modulus.toBoxedUint.val = q.val ∧ pre.qParams.modulus.toBoxedUint.nlimbs = k.d.nlimbs

end RSA.Spec
