import Verif.Model.KeyTypes
import Mathlib.Data.Nat.Prime.Basic
import Mathlib.Algebra.BigOperators.Group.List.Basic

/-
What it means for a private key to be a correct RSA key (RFC 8017 §3), and which RNG streams let blinding finish.
Mentions the data types of the model only, none of its functions.
-/
namespace RSA.Spec

/-- The cached CRT values belong to the first two primes of the key, at the key's working width. -/
structure CacheOk (k : PrivateKey) (pre : Precomputed) : Prop where
  primes : ∃ p q rest, k.primes = p :: q :: rest ∧
    pre.dp.val = k.d.val % (p.val - 1) ∧ pre.dq.val = k.d.val % (q.val - 1) ∧
    pre.pParams.modulus.toBoxedUint.val = p.val ∧ pre.qParams.modulus.toBoxedUint.val = q.val ∧
    pre.qinv.res * q.val % p.val = 1
  qinv_params : pre.qinv.params = pre.pParams
  p_width : pre.pParams.modulus.toBoxedUint.nlimbs = k.d.nlimbs
  q_width : pre.qParams.modulus.toBoxedUint.nlimbs = k.d.nlimbs

/-- The number-theoretic part: `n` is a product of at least two distinct primes and `d` inverts `e` modulo every
`p - 1` (so no prime is 2). -/
structure RsaNumbers (n e d : Nat) (primes : List Nat) : Prop where
  prime : ∀ p ∈ primes, p.Prime
  nodup : primes.Nodup
  two : 2 ≤ primes.length
  prod : primes.prod = n
  exp : ∀ p ∈ primes, d * e % (p - 1) = 1

/-- A well-formed private key. -/
structure WellFormed (k : PrivateKey) : Prop where
  coherent : k.pub.nParams.modulus.toBoxedUint = k.pub.n
  numbers : RsaNumbers k.pub.n.val k.pub.e.val k.d.val (k.primes.map BoxedUint.val)
  width : k.pub.n.nlimbs ≤ k.d.nlimbs
  cache : ∀ pre, k.precomputed = some pre → CacheOk k pre

/-- What must be right about a key object for its private operation to be computable at all: nothing about the numbers,
only that the stored moduli belong together, that there are two primes, and that `d` is stored at least as wide as `n`. -/
structure Sized (k : PrivateKey) : Prop where
  coherent : k.pub.nParams.modulus.toBoxedUint = k.pub.n
  two : 2 ≤ k.primes.length
  width : k.pub.n.nlimbs ≤ k.d.nlimbs
  cache : ∀ pre, k.precomputed = some pre → pre.qinv.params = pre.pParams ∧
    pre.pParams.modulus.toBoxedUint.nlimbs = k.d.nlimbs ∧ pre.qParams.modulus.toBoxedUint.nlimbs = k.d.nlimbs

/-- How the blinding draws of a generator in state `s` turn out for modulus `n`: `Draws R n s o j` says that the `j`-th
draw settles the matter, with `o = some s'` if it gave a usable value (0 is replaced by 1; otherwise coprime to `n`) and
left the generator in state `s'`, `o = none` if the generator failed. -/
inductive Draws {σ : Type} (R : RngImpl σ) (n : Nat) : σ → Option σ → Nat → Prop
  | fail (s : σ) (h : (R.randMod s n).1 = none) : Draws R n s none 1
  | good (s : σ) (r : Nat) (h : (R.randMod s n).1 = some r) (hr : r = 0 ∨ Nat.Coprime r n) :
      Draws R n s (some (R.randMod s n).2) 1
  | again (s : σ) (r : Nat) (o : Option σ) (j : Nat) (h : (R.randMod s n).1 = some r) (h0 : r ≠ 0)
      (hr : ¬ Nat.Coprime r n) (next : Draws R n (R.randMod s n).2 o j) : Draws R n s o (j + 1)

/-- No generator is used, or its draws settle within `fuel` draws on a usable value. -/
def BlindingOk {σ : Type} (R : RngImpl σ) (n fuel : Nat) : Option σ → Prop
  | none => True
  | some s => ∃ s' j, Draws R n s (some s') j ∧ j ≤ fuel

/-- No generator is used, or its draws settle within `fuel` draws, on a usable value or on a failure. -/
def Settles {σ : Type} (R : RngImpl σ) (n fuel : Nat) : Option σ → Prop
  | none => True
  | some s => ∃ o j, Draws R n s o j ∧ j ≤ fuel

/-- The `j`-th one-byte draw of the generator from state `s` is the first non-zero one, and none before failed. -/
inductive ByteDraws {σ : Type} (R : RngImpl σ) : σ → Nat → Prop
  | good (s : σ) (b : UInt8) (h : (R.fill s 1).1 = some [b]) (hb : b ≠ 0) : ByteDraws R s 1
  | again (s : σ) (j : Nat) (h : (R.fill s 1).1 = some [0]) (next : ByteDraws R (R.fill s 1).2 j) :
      ByteDraws R s (j + 1)

/-- A generator that never fails and never needs more than `fuel` draws for a non-zero byte. -/
def GoodByteRng {σ : Type} (R : RngImpl σ) (fuel : Nat) : Prop :=
  (∀ s n, ∃ b, (R.fill s n).1 = some b) ∧ ∀ s, ∃ j, j ≤ fuel ∧ ByteDraws R s j

/-- The one-byte draws from state `s` settle at the `j`-th: it fails or gives a non-zero byte, all before gave zero. -/
inductive ByteSettles {σ : Type} (R : RngImpl σ) : σ → Nat → Prop
  | fail (s : σ) (h : (R.fill s 1).1 = none) : ByteSettles R s 1
  | good (s : σ) (b : UInt8) (h : (R.fill s 1).1 = some [b]) (hb : b ≠ 0) : ByteSettles R s 1
  | again (s : σ) (j : Nat) (h : (R.fill s 1).1 = some [0]) (next : ByteSettles R (R.fill s 1).2 j) :
      ByteSettles R s (j + 1)

/-- The generator `R` with a flag beside its state that is raised by a failing call and never lowered. -/
def watched {σ : Type} (R : RngImpl σ) : RngImpl (σ × Bool) where
  fill := fun s n => ((R.fill s.1 n).1, (R.fill s.1 n).2, s.2 || (R.fill s.1 n).1.isNone)
  randMod := fun s n => ((R.randMod s.1 n).1, (R.randMod s.1 n).2, s.2 || (R.randMod s.1 n).1.isNone)
  fill_len := fun s n b h => R.fill_len s.1 n b h
  randMod_lt := fun s n r h => R.randMod_lt s.1 n r h

end RSA.Spec
