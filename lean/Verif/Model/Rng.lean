import Verif.Model.BoxedUint

/-
Random number generators and hash functions, as arbitrary parameters.
-/
namespace RSA

/-- A `TryCryptoRng` whose internal state is `σ`. Every call may fail; a successful call returns as many bytes as asked
for. `randMod` is what the external `BoxedUint::try_random_mod(rng, n)` does with the generator: a failure or a value
below `n`. -/
structure RngImpl (σ : Type) where
  fill : σ → Nat → Option Bytes × σ
  randMod : σ → Nat → Option Nat × σ
  fill_len : ∀ s n b, (fill s n).1 = some b → b.length = n
  randMod_lt : ∀ s n r, (randMod s n).1 = some r → 0 < n → r < n

/-- `rng.try_fill_bytes(buf)` with `|buf| = n`, the failure mapped to `Error::Rng` as every caller in /repo does. -/
def RngImpl.tryFill {σ : Type} (R : RngImpl σ) (s : σ) (n : Nat) : Res (Bytes × σ) :=
  match R.fill s n with
  | (some b, s') => .ok (b, s')
  | (none, _) => .err .rng

/-- A hash function with fixed output length. -/
structure HashFn where
  outLen : Nat
  hash : Bytes → Bytes
  hash_len : ∀ m, (hash m).length = outLen

/-- A digest object (`dyn DynDigest` or a generic `D: Digest`): hash function plus the bytes absorbed so far. -/
structure DigestState where
  fn : HashFn
  buf : Bytes

namespace DigestState

/-- `D::new()`. -/
def new (h : HashFn) : DigestState := ⟨h, []⟩

/-- `digest.update(data)`. -/
def update (d : DigestState) (x : Bytes) : DigestState := { d with buf := d.buf ++ x }

/-- `digest.finalize_reset()`. -/
def finalizeReset (d : DigestState) : Bytes × DigestState := (d.fn.hash d.buf, { d with buf := [] })

/-- `digest.output_size()`. -/
def outputSize (d : DigestState) : Nat := d.fn.outLen

end DigestState

end RSA
