import Verif.Spec.GenerateOutcome

/-
Key generation with a prime search that is any function of fresh randomness: `g b ω` is the number found for `b` bits when
the random choices of the search are `ω`. With the `ω` drawn uniformly and independently, equal counts of tapes are equal
probabilities (C95).
-/
namespace RSA.Spec

/-- The search, reading its random choices from a tape. -/
def seedTape {Ω : Type} [Inhabited Ω] (g : Nat → Ω → BoxedUint) : PrimeGen (List Ω) where
  gen s b := (g b (s.headD default), s.tail)

/-- The numbers found in one turn, from the random choices of that turn. -/
def found {Ω : Type} (g : Nat → Ω → BoxedUint) (nprimes bitSize : Nat) (β : List Ω) : List BoxedUint :=
  List.zipWith g (shares nprimes (totalBits nprimes bitSize)) β

/-- The numbers make a key: distinct, with a product of the right size, and fitting the exponent. -/
def Usable (bitSize e : Nat) (ps : List BoxedUint) : Prop := GoodProduct bitSize ps ∧ Nat.Coprime e (totient ps)

/-- The random choices of one turn from which usable numbers are found. -/
def goodTurns {Ω : Type} (g : Nat → Ω → BoxedUint) (nprimes bitSize e : Nat) : Set (List Ω) :=
  {β | β.length = nprimes ∧ Usable bitSize e (found g nprimes bitSize β)}

/-- Those from which the turn has to be repeated. -/
def badTurns {Ω : Type} (g : Nat → Ω → BoxedUint) (nprimes bitSize e : Nat) : Set (List Ω) :=
  {β | β.length = nprimes ∧ ¬ Usable bitSize e (found g nprimes bitSize β)}

/-- Of the former, those from which numbers in `E` are found. -/
def turnsInto {Ω : Type} (g : Nat → Ω → BoxedUint) (nprimes bitSize e : Nat) (E : Set (List BoxedUint)) : Set (List Ω) :=
  {β ∈ goodTurns g nprimes bitSize e | found g nprimes bitSize β ∈ E}

/-- A request that is searched for at all, and a search that finds odd numbers of the right length with the two top bits
set. -/
structure Searched {Ω : Type} [Inhabited Ω] (g : Nat → Ω → BoxedUint) (nprimes bitSize : Nat) (e : BoxedUint) : Prop where
  two : 2 ≤ nprimes
  large : ¬ TooSmall nprimes bitSize
  room : 2 * nprimes ≤ totalBits nprimes bitSize
  word : bitSize < 2 ^ 32
  top : ∀ b ∈ shares nprimes (totalBits nprimes bitSize), 2 ≤ b → TopBits (seedTape g) b
  narrow : e.nlimbs ≤ nprimes

end RSA.Spec
