import Verif.Spec.Generate
import Mathlib.Data.Nat.Size

/-
What key generation gives for every number of primes, size, exponent and prime search, as a relation between the draws and
the outcome. Of the model only the data types `PrimeGen`, `Components` and `Res` are mentioned.
-/
namespace RSA.Spec

/-- The bits to be distributed over the primes: a little more than asked for from seven primes on. -/
def totalBits (nprimes bitSize : Nat) : Nat := bitSize + if 7 ≤ nprimes then (nprimes - 2) / 5 else 0

/-- The bit lengths of the primes: equal shares, the larger ones last. -/
def shares (nprimes total : Nat) : List Nat := (List.range nprimes).map fun i => (total + i) / nprimes

/-- Draw one number of each length, in order. -/
def drawAll {σ : Type} (G : PrimeGen σ) : List Nat → σ → List BoxedUint × σ
  | [], s => ([], s)
  | b :: bs, s => ((G.gen s b).1 :: (drawAll G bs (G.gen s b).2).1, (drawAll G bs (G.gen s b).2).2)

/-- All numbers drawn in a turn, and the state after it. -/
def turn {σ : Type} (G : PrimeGen σ) (nprimes bitSize : Nat) (s : σ) : List BoxedUint × σ :=
  drawAll G (shares nprimes (totalBits nprimes bitSize)) s

/-- The product of all `p - 1`. -/
def totient (ps : List BoxedUint) : Nat := (ps.map fun p => p.val - 1).prod

/-- Distinct numbers whose product has exactly `bitSize` bits. -/
def GoodProduct (bitSize : Nat) (ps : List BoxedUint) : Prop :=
  (ps.map BoxedUint.val).Nodup ∧ (ps.map BoxedUint.val).prod.size = bitSize

/-- The 64-bit limbs in which the totient is stored: those of all primes, and of the first once more. -/
def totientLimbs (ps : List BoxedUint) : Nat := (ps.map BoxedUint.nlimbs).sum + ((ps.map BoxedUint.nlimbs).headD 0)

/-- The components of a key with exponent `e` and the given primes, values and storage. -/
structure IsComponents (e : BoxedUint) (ps : List BoxedUint) (c : Components) : Prop where
  primes : c.primes = ps
  exp : c.e = e
  n : c.n.toBoxedUint.val = (ps.map BoxedUint.val).prod
  n_limbs : c.n.toBoxedUint.nlimbs = (ps.map BoxedUint.nlimbs).sum
  d_lt : c.d.val < totient ps
  d_inverse : e.val * c.d.val % totient ps = 1
  d_limbs : c.d.nlimbs = totientLimbs ps

/-- The search, allowed `fuel` turns: a turn is repeated if two primes are equal, if their product has the wrong size, or
if the exponent has no inverse modulo the totient; an exponent stored wider than the totient ends it with a panic. -/
inductive Searches {σ : Type} (G : PrimeGen σ) (nprimes bitSize : Nat) (e : BoxedUint) :
    Nat → σ → Res (Components × σ) → Prop
  | searching (s : σ) : Searches G nprimes bitSize e 0 s .loop
  | again (fuel : Nat) (s : σ) (r : Res (Components × σ))
      (h : ¬ GoodProduct bitSize (turn G nprimes bitSize s).1 ∨
        e.nlimbs ≤ totientLimbs (turn G nprimes bitSize s).1 ∧
          ¬ Nat.Coprime e.val (totient (turn G nprimes bitSize s).1))
      (next : Searches G nprimes bitSize e fuel (turn G nprimes bitSize s).2 r) :
      Searches G nprimes bitSize e (fuel + 1) s r
  | wide (fuel : Nat) (s : σ) (h : GoodProduct bitSize (turn G nprimes bitSize s).1)
      (hw : totientLimbs (turn G nprimes bitSize s).1 < e.nlimbs) :
      Searches G nprimes bitSize e (fuel + 1) s (.panic .precision)
  | done (fuel : Nat) (s : σ) (c : Components) (h : GoodProduct bitSize (turn G nprimes bitSize s).1)
      (hw : e.nlimbs ≤ totientLimbs (turn G nprimes bitSize s).1)
      (hc : IsComponents e (turn G nprimes bitSize s).1 c) :
      Searches G nprimes bitSize e (fuel + 1) s (.ok (c, (turn G nprimes bitSize s).2))

/-- The sizes below 64 bits for which generation is not even tried. -/
def TooSmall (nprimes bitSize : Nat) : Prop :=
  bitSize < (match nprimes with | 2 => 12 | 3 => 21 | 4 => 28 | n => min 64 (8 * n))

/-- Generation of a key of `nprimes` primes and `bitSize` bits. The sieve cannot be built for less than two bits. -/
inductive Generates {σ : Type} (G : PrimeGen σ) (nprimes bitSize : Nat) (e : BoxedUint) (fuel : Nat) (s : σ) :
    Res (Components × σ) → Prop
  | fewPrimes (h : nprimes < 2) : Generates G nprimes bitSize e fuel s (.err .nprimesTooSmall)
  | small (hn : 2 ≤ nprimes) (h : TooSmall nprimes bitSize) : Generates G nprimes bitSize e fuel s (.err .tooFewPrimes)
  | noTurn (hn : 2 ≤ nprimes) (h : ¬ TooSmall nprimes bitSize) (hf : fuel = 0) : Generates G nprimes bitSize e fuel s .loop
  | noSieve (hn : 2 ≤ nprimes) (h : ¬ TooSmall nprimes bitSize) (hf : 0 < fuel) (hb : totalBits nprimes bitSize < 2 * nprimes) :
      Generates G nprimes bitSize e fuel s (.panic .unwrap)
  | search (hn : 2 ≤ nprimes) (h : ¬ TooSmall nprimes bitSize) (hb : 2 * nprimes ≤ totalBits nprimes bitSize)
      (r : Res (Components × σ)) (hr : Searches G nprimes bitSize e fuel s r) : Generates G nprimes bitSize e fuel s r

end RSA.Spec
