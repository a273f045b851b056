import Verif.Model.Leak
import Verif.Model.Generate

/-
The observations made when a private key is built or generated, written out as functions of sizes only (numbers of words of
the operands, number of factors, size of the key asked for), and how a run that stops early relates to them.
-/
namespace RSA.Spec

/-- `seen` is what is observed of a run that would show `full` if it went through: either a first part of `full`, or a first
part whose last test comes out the other way. -/
def CutOff (full seen : List Ev) : Prop :=
  seen <+: full ∨ ∃ pre b, pre ++ [.branch b] <+: full ∧ seen = pre ++ [.branch (!b)]

/-- Checking a public key with a modulus of `n` and an exponent of `e` words. -/
def checkPublicTrace (n e : Nat) : List Ev :=
  [.branch false, .bignum "ge" [e, n], .branch false, .bignum "is_even" [n], .branch false, .bignum "is_zero" [n],
    .branch false, .bignum "is_even" [e], .branch false, .bignum "lt" [e, 1], .branch false, .bignum "gt" [e, 1],
    .branch false]

/-- Multiplying up factors of the sizes `ps` in a number of `w` words. -/
def productTrace (w : Nat) (ps : List Nat) : List Ev :=
  ps.flatMap fun p => [.bignum "lt" [p, 1], .branch false, .bignum "wrapping_mul" [w, p]]

/-- Reducing a number of `w` words modulo each factor less one. -/
def exponentsTrace (w : Nat) (ps : List Nat) : List Ev :=
  ps.flatMap fun p => [.bignum "widen" [p, 64 * w], .bignum "wrapping_sub" [w, 1], .bignum "NonZero::new" [w], .branch true,
    .bignum "rem_vartime" [w, w], .bignum "is_one" [w], .branch false]

/-- Validating a key: `n`, `e`, `d` and `ps` are numbers of words. -/
def validateTrace (n e d : Nat) (ps : List Nat) : List Ev :=
  checkPublicTrace n e ++ productTrace (max 1 n) ps ++
    [.bignum "eq" [max 1 n, n], .branch false, .bignum "widen" [d, 2 * (64 * d)], .bignum "wrapping_mul" [max 1 (2 * d), e]] ++
    exponentsTrace (max 1 (2 * d)) ps

/-- Computing the cached values; `np` factors, the first two of `p` and `q` words. -/
def precomputeTrace (d np p q : Nat) : List Ev :=
  let w := max 1 d
  [.branch false, .read np 0, .bignum "widen" [p, 64 * d], .read np 1, .bignum "widen" [q, 64 * d], .bignum "Odd::new" [w],
    .branch true, .bignum "BoxedMontyParams::new" [w], .bignum "Odd::new" [w], .branch true,
    .bignum "BoxedMontyParams::new" [w], .bignum "wrapping_sub" [w, 1], .bignum "NonZero::new" [w], .branch true,
    .bignum "rem_vartime" [d, w], .bignum "wrapping_sub" [w, 1], .bignum "NonZero::new" [w], .branch true,
    .bignum "rem_vartime" [d, w], .bignum "BoxedMontyForm::new" [w, w], .bignum "invert" [w], .branch true, .branch true,
    .branch true, .branch true, .branch true, .branch true]

/-- Recovering two factors from `n`, `e` and `d`. -/
def recoverTrace (n e d : Nat) : List Ev :=
  let w := max 1 (2 * d)
  let bits := 64 * d * 2
  [.bignum "le" [e, 1], .branch false, .bignum "widen" [1, bits], .bignum "widen" [e, bits], .bignum "widen" [d, bits],
    .bignum "widen" [n, bits], .bignum "mul" [w, w], .bignum "sub" [2 * w, w], .bignum "sub" [w, w],
    .bignum "gcd" [w, 2 * w], .bignum "mul" [2 * w, 2 * w], .bignum "widen" [w, 64 * (4 * w)],
    .bignum "NonZero::new" [4 * w], .branch true, .bignum "div" [4 * w, 4 * w], .bignum "mul" [4 * w, 4 * w],
    .bignum "sub" [4 * w, 8 * w], .bignum "sub" [4 * w, 8 * w], .bignum "add" [4 * w, w], .bignum "NonZero::new" [4 * w],
    .branch true, .bignum "rem" [8 * w, 4 * w], .bignum "is_zero" [4 * w], .branch false, .bignum "sub" [4 * w, 8 * w],
    .bignum "add" [4 * w, w], .bignum "NonZero::new" [4 * w], .branch true, .bignum "div" [8 * w, 4 * w],
    .bignum "add" [8 * w, w], .bignum "mul" [4 * w, 1], .bignum "square" [8 * w], .bignum "le" [16 * w, 4 * w + 1],
    .branch false, .bignum "sub" [16 * w, 4 * w + 1], .bignum "sqrt" [16 * w], .bignum "square" [16 * w],
    .bignum "eq" [32 * w, 16 * w], .branch false, .bignum "NonZero::new" [1], .branch true,
    .bignum "widen" [1, 64 * (16 * w)], .bignum "add" [8 * w, 16 * w], .bignum "div" [16 * w, 16 * w],
    .bignum "sub" [8 * w, 16 * w], .bignum "div" [16 * w, 16 * w]]

/-- Building a key from components. -/
def buildTrace (n e d : Nat) : List Nat → List Ev
  | [] => [.bignum "BoxedMontyParams::new" [n], .bignum "NonZero::new" [n], .branch true, .compare 0 0] ++
      recoverTrace n e d ++ validateTrace n e d [16 * max 1 (2 * d), 16 * max 1 (2 * d)] ++
      precomputeTrace d 2 (16 * max 1 (2 * d)) (16 * max 1 (2 * d))
  | [_] => [.bignum "BoxedMontyParams::new" [n], .bignum "NonZero::new" [n], .branch true, .compare 1 0]
  | p :: q :: ps => [.bignum "BoxedMontyParams::new" [n], .bignum "NonZero::new" [n], .branch true,
      .compare (ps.length + 2) 0] ++ validateTrace n e d (p :: q :: ps) ++ precomputeTrace d (ps.length + 2) p q

/-- Multiplying factors of the sizes `ps` onto a number of `w` words. -/
def factorsTrace (w : Nat) : List Nat → List Ev
  | [] => []
  | p :: ps => .bignum "mul" [w, p] :: factorsTrace (w + p) ps

/-- The modulus from its factors. -/
def modulusTrace : List Nat → List Ev
  | [] => []
  | p :: ps => factorsTrace p ps ++ [.bignum "Odd::new" [(p :: ps).sum], .branch true]

/-- The private exponent from two factors. -/
def carmichaelTrace (p q e : Nat) : List Ev :=
  let a := max p 1
  let b := max q 1
  [.bignum "sub" [p, 1], .bignum "sub" [q, 1], .bignum "gcd" [a, b], .bignum "NonZero::new" [max a b], .branch true,
    .bignum "div" [a, max a b], .bignum "mul" [a, b], .bignum "widen" [e, 64 * (a + b)], .bignum "inv_mod" [a + b, a + b],
    .branch true]

/-- The product of the factors less one, onto a number of `w` words. -/
def totientTrace (w : Nat) : List Nat → List Ev
  | [] => []
  | p :: ps => .bignum "sub" [p, 1] :: .bignum "mul" [w, max p 1] :: totientTrace (w + max p 1) ps

/-- Number of words of the product of the factors less one. -/
def totientSize (ps : List Nat) : Nat := max 1 (ps.headD 0) + (ps.map (max · 1)).sum

/-- The private exponent from any factors. -/
def eulerTrace (ps : List Nat) (e : Nat) : List Ev :=
  [.branch false, .read ps.length 0] ++ totientTrace (max 1 (ps.headD 0)) ps ++
    [.bignum "widen" [e, 64 * totientSize ps], .bignum "inv_mod" [totientSize ps, totientSize ps], .branch true]

/-- Building a key from two factors. -/
def fromTwoTrace (p q e : Nat) : List Ev :=
  [.bignum "eq" [p, q], .branch false] ++ carmichaelTrace p q e ++ modulusTrace [p, q] ++
    buildTrace (p + q) e (max p 1 + max q 1) [p, q]

/-- Each factor compared with the earlier ones, which have the sizes `seen`. -/
def distinctTrace : List Nat → List Nat → List Ev
  | _, [] => []
  | seen, p :: ps => seen.flatMap (fun x => [.bignum "eq" [p, x], .branch false]) ++ distinctTrace (seen ++ [p]) ps

/-- Building a key from any number of factors. -/
def fromPrimesTrace (ps : List Nat) (e : Nat) : List Ev :=
  [.branch false] ++ distinctTrace [] ps ++ modulusTrace ps ++ eulerTrace ps e ++
    buildTrace ps.sum e (totientSize ps) ps

/-- The bit lengths asked of the prime search when `todo` bits are to be spread over `left` primes, each of which comes out
as long as asked. -/
def primeLengths : Nat → Nat → List Nat
  | 0, _ => []
  | left + 1, todo => let b := todo / (left + 1) % 2 ^ 32; b :: primeLengths left (todo - b)

/-- Number of words of a number of `b` bits. -/
def words (b : Nat) : Nat := max 1 ((b + 63) / 64)

/-- The prime search returns numbers of exactly the length asked for, stored in as many words as they need. -/
def ExactBits {σ : Type} (G : PrimeGen σ) : Prop :=
  ∀ s b, 2 ≤ b → 2 ^ (b - 1) ≤ (G.gen s b).1.val ∧ (G.gen s b).1.val < 2 ^ b ∧ (G.gen s b).1.nlimbs = words b

/-- One turn of key generation. -/
def turnTrace (nprimes bitSize e : Nat) : List Ev :=
  let bs := primeLengths nprimes (if nprimes ≥ 7 then bitSize + (nprimes - 2) / 5 else bitSize)
  let ps := bs.map words
  [.branch (decide (nprimes ≥ 7))] ++
    bs.flatMap (fun b => [.bignum "sieve_and_find" [b], .bignum "bits" [words b], .branch true]) ++
    distinctTrace [] ps ++ modulusTrace ps ++ [.bignum "bits" [ps.sum], .branch false] ++ eulerTrace ps e

/-- Key generation for two primes when the turns before the last show `turns`. -/
def generateTrace (bitSize e : Nat) (turns : List (List Ev)) : List Ev :=
  let ps := (primeLengths 2 bitSize).map words
  [.branch false, .branch (decide (bitSize < 64)), .branch false] ++ turns.flatten ++ turnTrace 2 bitSize e ++
    buildTrace ps.sum e (totientSize ps) ps

end RSA.Spec
