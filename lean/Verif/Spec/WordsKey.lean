import Verif.Model.WordsPrivate
import Verif.Spec.Key

/-
A correct private key on a machine with words of `w` octets. Mentions the data types of the model only.
-/
namespace RSA.Spec

/-- The cached CRT values belong to the first two primes of the key, at the key's working width. -/
structure WordsCacheOk {w : Nat} (k : words.PrivKey w) (pre : words.Pre w) : Prop where
  primes : ∃ p q rest, k.primes = p :: q :: rest ∧
    pre.dp.val = k.d.val % (p.val - 1) ∧ pre.dq.val = k.d.val % (q.val - 1) ∧
    pre.pParams.modulus.val = p.val ∧ pre.qParams.modulus.val = q.val ∧
    pre.qinv.res * q.val % p.val = 1
  qinv_params : pre.qinv.params = pre.pParams
  p_width : pre.pParams.modulus.nlimbs = k.d.nlimbs
  q_width : pre.qParams.modulus.nlimbs = k.d.nlimbs

/-- A well-formed private key. -/
structure WordsWellFormed {w : Nat} (k : words.PrivKey w) : Prop where
  numbers : RsaNumbers k.pub.n.val k.pub.e.val k.d.val (k.primes.map words.Uint.val)
  width : k.pub.n.nlimbs ≤ k.d.nlimbs
  cache : ∀ pre, k.precomputed = some pre → WordsCacheOk k pre

end RSA.Spec
