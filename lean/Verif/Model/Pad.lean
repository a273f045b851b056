import Verif.Model.Rng

/- src/algorithms/pad.rs -/
namespace RSA
open BoxedUint

/-- src/algorithms/pad.rs:10-19 `left_pad`. -/
def leftPad (input : Bytes) (paddedLen : Nat) : Res Bytes := do
  if input.length > paddedLen then
    .err .invalidPadLen
  else
    let out := List.replicate paddedLen (0 : UInt8)
    let off ← subU paddedLen input.length
    copyInto out off paddedLen input

/-- src/algorithms/pad.rs:24-28 `uint_to_be_pad`. -/
def uintToBePad (input : BoxedUint) (paddedLen : Nat) : Res Bytes := do
  let lz := input.leadingZeros / 8
  let b ← sliceFrom input.toBeBytes lz
  leftPad b paddedLen

/-- src/algorithms/pad.rs:33-41 `uint_to_zeroizing_be_pad` (`Zeroizing` wrappers are value-transparent). -/
def uintToZeroizingBePad (input : BoxedUint) (paddedLen : Nat) : Res Bytes := do
  let lz := input.leadingZeros / 8
  let m := input
  let m := m.toBeBytes
  let b ← sliceFrom m lz
  leftPad b paddedLen

end RSA
