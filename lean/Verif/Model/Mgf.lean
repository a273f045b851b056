import Verif.Model.Rng

/- src/algorithms/mgf.rs -/
namespace RSA

/-- A `[u8; 4]` counter. -/
structure Counter where
  b0 : UInt8
  b1 : UInt8
  b2 : UInt8
  b3 : UInt8
  deriving DecidableEq, Repr

/-- The four bytes in order. -/
def Counter.bytes (c : Counter) : Bytes := [c.b0, c.b1, c.b2, c.b3]

/-- src/algorithms/mgf.rs:67-75 `inc_counter`, the loop over `(0..4).rev()` unrolled. -/
def incCounter (c : Counter) : Counter :=
  let c := { c with b3 := c.b3 + 1 }
  if c.b3 ≠ 0 then c else
  let c := { c with b2 := c.b2 + 1 }
  if c.b2 ≠ 0 then c else
  let c := { c with b1 := c.b1 + 1 }
  if c.b1 ≠ 0 then c else
  { c with b0 := c.b0 + 1 }

/-- src/algorithms/mgf.rs:22-31, inner loop `out[i] ^= digest_output[j]` until either runs out; `out` is the part of the
buffer not yet masked (`out[i..]`); returns the masked bytes and what is left. -/
def xorInto : Bytes → Bytes → Bytes × Bytes
  | [], out => ([], out)
  | _ :: _, [] => ([], [])
  | d :: ds, o :: os =>
    let (a, b) := xorInto ds os
    ((o ^^^ d) :: a, b)

/-- src/algorithms/mgf.rs:15-33, outer `while i < out.len()` loop of `mgf1_xor` on the remaining buffer `out[i..]`.
Fuel: one unit per digest block; with a digest of positive length the buffer length is always enough, with an empty
digest the Rust loop never ends. -/
def mgf1XorLoop : Nat → Bytes → DigestState → Bytes → Counter → Res (Bytes × DigestState)
  | _, [], dg, _, _ => .ok ([], dg)
  | 0, _ :: _, _, _, _ => .loop
  | fuel + 1, o :: os, dg, seed, counter => do
    let digestInput := List.replicate (seed.length + 4) (0 : UInt8)
    let digestInput ← copyInto digestInput 0 seed.length seed
    let digestInput ← copyInto digestInput seed.length (seed.length + 4) counter.bytes
    let dg := dg.update digestInput
    let (digestOutput, dg) := dg.finalizeReset
    let (done, rest) := xorInto digestOutput (o :: os)
    let (tail, dg) ← mgf1XorLoop fuel rest dg seed (incCounter counter)
    .ok (done ++ tail, dg)

/-- src/algorithms/mgf.rs:5-34 `mgf1_xor`: returns the masked buffer and the digest object afterwards. -/
def mgf1Xor (out : Bytes) (dg : DigestState) (seed : Bytes) : Res (Bytes × DigestState) :=
  if out.length ≤ 2 ^ 32 then mgf1XorLoop out.length out dg seed ⟨0, 0, 0, 0⟩ else .panic .assert

/-- src/algorithms/mgf.rs:49-65, outer loop of `mgf1_xor_digest`. -/
def mgf1XorDigestLoop : Nat → Bytes → DigestState → Bytes → Counter → Res (Bytes × DigestState)
  | _, [], dg, _, _ => .ok ([], dg)
  | 0, _ :: _, _, _, _ => .loop
  | fuel + 1, o :: os, dg, seed, counter => do
    let dg := dg.update seed
    let dg := dg.update counter.bytes
    let (digestOutput, dg) := dg.finalizeReset
    let (done, rest) := xorInto digestOutput (o :: os)
    let (tail, dg) ← mgf1XorDigestLoop fuel rest dg seed (incCounter counter)
    .ok (done ++ tail, dg)

/-- src/algorithms/mgf.rs:36-66 `mgf1_xor_digest`. -/
def mgf1XorDigest (out : Bytes) (dg : DigestState) (seed : Bytes) : Res (Bytes × DigestState) :=
  if out.length ≤ 2 ^ 32 then mgf1XorDigestLoop out.length out dg seed ⟨0, 0, 0, 0⟩ else .panic .assert

end RSA
