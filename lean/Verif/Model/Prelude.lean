/-
Outcome type and byte-slice primitives shared by the whole model.
-/
namespace RSA

/-- Rust `Vec<u8>` / `&[u8]`. -/
abbrev Bytes := List UInt8

/-- `crypto_bigint::DecodeError` (external crate), as carried by `Error::Decode`. -/
inductive DecodeError
  | inputSize
  | precision
  deriving DecidableEq, Repr

/-- src/errors.rs:9-75 `enum Error`. The payloads of `Pkcs1`/`Pkcs8` (errors of external crates) are dropped. -/
inductive Error
  | invalidPaddingScheme
  | decryption
  | verification
  | messageTooLong
  | inputNotHashed
  | nprimesTooSmall
  | tooFewPrimes
  | invalidPrime
  | invalidModulus
  | invalidExponent
  | invalidCoefficient
  | modulusTooLarge
  | publicExponentTooSmall
  | publicExponentTooLarge
  | pkcs1
  | pkcs8
  | internal
  | labelTooLong
  | invalidPadLen
  | invalidArguments
  | decode (e : DecodeError)
  | rng
  deriving DecidableEq, Repr

/-- Why a Rust function panicked. -/
inductive PanicKind
  | bounds      -- slice index / range out of bounds, `split_at` past the end
  | copyLen     -- `copy_from_slice` with different lengths
  | arith       -- integer overflow or underflow (overflow checks on), `BoxedUint` `-` underflow
  | unwrap      -- `expect` / `unwrap` on `None`
  | precision   -- precision precondition of `crypto-bigint` (`widen`, `shorten`, Montgomery debug assertions)
  | assert      -- `assert!` / `debug_assert!` in this crate
  deriving DecidableEq, Repr

/-- Outcome of a Rust function returning `Result<α, Error>`: a value, an error, a panic, or "still running when the
fuel of a retry loop ran out". -/
inductive Res (α : Type) where
  | ok (a : α)
  | err (e : Error)
  | panic (k : PanicKind)
  | loop
  deriving DecidableEq, Repr

namespace Res

/-- Sequencing (`?` on errors; panics and divergence propagate). -/
def bind {α β : Type} (x : Res α) (f : α → Res β) : Res β :=
  match x with
  | .ok a => f a
  | .err e => .err e
  | .panic k => .panic k
  | .loop => .loop

instance : Monad Res where
  pure := .ok
  bind := Res.bind

/-- The call returned `Ok` or `Err` (it neither panicked nor kept looping). -/
def Returns {α : Type} : Res α → Prop
  | .ok _ => True
  | .err _ => True
  | _ => False

instance {α : Type} (x : Res α) : Decidable x.Returns := by
  cases x <;> simp only [Returns] <;> infer_instance

/-- The call panicked. -/
def Panics {α : Type} : Res α → Prop
  | .panic _ => True
  | _ => False

instance {α : Type} (x : Res α) : Decidable x.Panics := by
  cases x <;> simp only [Panics] <;> infer_instance

end Res

/-- `l[i]` (panics out of bounds). -/
def idx (l : Bytes) (i : Nat) : Res UInt8 :=
  match l[i]? with
  | some b => .ok b
  | none => .panic .bounds

/-- `l[i] = b` (panics out of bounds). -/
def setIdx (l : Bytes) (i : Nat) (b : UInt8) : Res Bytes :=
  if i < l.length then .ok (l.set i b) else .panic .bounds

/-- `&l[lo..hi]` (panics when `lo > hi` or `hi > len`). -/
def slice (l : Bytes) (lo hi : Nat) : Res Bytes :=
  if lo ≤ hi ∧ hi ≤ l.length then .ok ((l.take hi).drop lo) else .panic .bounds

/-- `&l[lo..]`. -/
def sliceFrom (l : Bytes) (lo : Nat) : Res Bytes := slice l lo l.length

/-- `dst[lo..hi].copy_from_slice(src)`. -/
def copyInto (dst : Bytes) (lo hi : Nat) (src : Bytes) : Res Bytes :=
  if lo ≤ hi ∧ hi ≤ dst.length then
    if src.length = hi - lo then .ok (dst.take lo ++ src ++ dst.drop hi) else .panic .copyLen
  else .panic .bounds

/-- `l.split_at(i)` / `l.split_at_mut(i)`. -/
def splitAt (l : Bytes) (i : Nat) : Res (Bytes × Bytes) :=
  if i ≤ l.length then .ok (l.take i, l.drop i) else .panic .bounds

/-- `usize` subtraction `a - b` (panics on underflow when overflow checks are on). -/
def subU (a b : Nat) : Res Nat := if b ≤ a then .ok (a - b) else .panic .arith

/-- `usize` addition `a + b` on a 64-bit target (panics on overflow when overflow checks are on). -/
def addU (a b : Nat) : Res Nat := if a + b < 2 ^ 64 then .ok (a + b) else .panic .arith

/-- `a.div_ceil(b)` for the constants used here. -/
def divCeil (a b : Nat) : Nat := (a + (b - 1)) / b

end RSA
