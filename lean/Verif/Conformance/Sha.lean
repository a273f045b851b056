import Verif.Model.Pad
import Verif.Model.OaepPad

/-
SHA-1 and SHA-256 (FIPS 180-4), to run the model on the repository's own test vectors. Only the conformance examples use
them; the property theorems hold for every hash function.
-/
namespace RSA.Conformance

def word (b : Bytes) : Nat := b.foldl (fun a x => a * 256 + x.toNat) 0
def bytes4 (x : Nat) : Bytes := [UInt8.ofNat (x / 2 ^ 24), UInt8.ofNat (x / 2 ^ 16), UInt8.ofNat (x / 2 ^ 8), UInt8.ofNat x]
def rotr (x n : Nat) : Nat := (x / 2 ^ n) ||| (x * 2 ^ (32 - n) % 2 ^ 32)
def not32 (x : Nat) : Nat := 2 ^ 32 - 1 - x
def add32 (x y : Nat) : Nat := (x + y) % 2 ^ 32

/-- Padding to a multiple of 64 octets: `80 00* ‖ 64-bit length`. -/
def shaPad (m : Bytes) : Bytes :=
  let z := (119 - m.length % 64) % 64
  m ++ [0x80] ++ List.replicate z 0 ++ bytes4 (m.length * 8 / 2 ^ 32) ++ bytes4 (m.length * 8 % 2 ^ 32)

def words : Nat → Bytes → List Nat
  | 0, _ => []
  | n + 1, b => word (b.take 4) :: words n (b.drop 4)

/-- The first `n` blocks of 64 octets, as 16 words each. -/
def blocks : Nat → Bytes → List (List Nat)
  | 0, _ => []
  | n + 1, b => words 16 (b.take 64) :: blocks n (b.drop 64)

structure S1 where
  (a b c d e : Nat)

def sha1Round (t : Nat) (s : S1) (w : Nat) : S1 :=
  let (f, k) :=
    if t < 20 then ((s.b &&& s.c) ^^^ (not32 s.b &&& s.d), 0x5a827999)
    else if t < 40 then (s.b ^^^ s.c ^^^ s.d, 0x6ed9eba1)
    else if t < 60 then ((s.b &&& s.c) ^^^ (s.b &&& s.d) ^^^ (s.c &&& s.d), 0x8f1bbcdc)
    else (s.b ^^^ s.c ^^^ s.d, 0xca62c1d6)
  ⟨(rotr s.a 27 + f + s.e + k + w) % 2 ^ 32, s.a, rotr s.b 2, s.c, s.d⟩

/-- `n` more rounds from round `80 - n`, over a window of the next 16 schedule words. -/
def sha1Rounds : Nat → List Nat → S1 → S1
  | 0, _, s => s
  | n + 1, ws, s =>
    let nw := rotr (ws.getD 13 0 ^^^ ws.getD 8 0 ^^^ ws.getD 2 0 ^^^ ws.getD 0 0) 31
    sha1Rounds n (ws.tail ++ [nw]) (sha1Round (80 - (n + 1)) s (ws.getD 0 0))

def sha1Block (s : S1) (ws : List Nat) : S1 :=
  let r := sha1Rounds 80 ws s
  ⟨add32 s.a r.a, add32 s.b r.b, add32 s.c r.c, add32 s.d r.d, add32 s.e r.e⟩

def sha1 (m : Bytes) : Bytes :=
  let p := shaPad m
  let s := (blocks (p.length / 64) p).foldl sha1Block ⟨0x67452301, 0xefcdab89, 0x98badcfe, 0x10325476, 0xc3d2e1f0⟩
  bytes4 s.a ++ bytes4 s.b ++ bytes4 s.c ++ bytes4 s.d ++ bytes4 s.e

def Sha1 : HashFn := ⟨20, sha1, fun _ => rfl⟩

def k256 : List Nat := [
  0x428a2f98, 0x71374491, 0xb5c0fbcf, 0xe9b5dba5, 0x3956c25b, 0x59f111f1, 0x923f82a4, 0xab1c5ed5,
  0xd807aa98, 0x12835b01, 0x243185be, 0x550c7dc3, 0x72be5d74, 0x80deb1fe, 0x9bdc06a7, 0xc19bf174,
  0xe49b69c1, 0xefbe4786, 0x0fc19dc6, 0x240ca1cc, 0x2de92c6f, 0x4a7484aa, 0x5cb0a9dc, 0x76f988da,
  0x983e5152, 0xa831c66d, 0xb00327c8, 0xbf597fc7, 0xc6e00bf3, 0xd5a79147, 0x06ca6351, 0x14292967,
  0x27b70a85, 0x2e1b2138, 0x4d2c6dfc, 0x53380d13, 0x650a7354, 0x766a0abb, 0x81c2c92e, 0x92722c85,
  0xa2bfe8a1, 0xa81a664b, 0xc24b8b70, 0xc76c51a3, 0xd192e819, 0xd6990624, 0xf40e3585, 0x106aa070,
  0x19a4c116, 0x1e376c08, 0x2748774c, 0x34b0bcb5, 0x391c0cb3, 0x4ed8aa4a, 0x5b9cca4f, 0x682e6ff3,
  0x748f82ee, 0x78a5636f, 0x84c87814, 0x8cc70208, 0x90befffa, 0xa4506ceb, 0xbef9a3f7, 0xc67178f2]

structure S2 where
  (a b c d e f g h : Nat)

def sha256Round (s : S2) (k w : Nat) : S2 :=
  let t1 := s.h + (rotr s.e 6 ^^^ rotr s.e 11 ^^^ rotr s.e 25) + ((s.e &&& s.f) ^^^ (not32 s.e &&& s.g)) + k + w
  let t2 := (rotr s.a 2 ^^^ rotr s.a 13 ^^^ rotr s.a 22) + ((s.a &&& s.b) ^^^ (s.a &&& s.c) ^^^ (s.b &&& s.c))
  ⟨add32 t1 t2, s.a, s.b, s.c, add32 s.d t1, s.e, s.f, s.g⟩

/-- One round per constant, over a window of the next 16 schedule words. -/
def sha256Rounds : List Nat → List Nat → S2 → S2
  | [], _, s => s
  | k :: ks, ws, s =>
    let w15 := ws.getD 1 0
    let w2 := ws.getD 14 0
    let nw := (ws.getD 0 0 + (rotr w15 7 ^^^ rotr w15 18 ^^^ w15 / 2 ^ 3) + ws.getD 9 0 +
      (rotr w2 17 ^^^ rotr w2 19 ^^^ w2 / 2 ^ 10)) % 2 ^ 32
    sha256Rounds ks (ws.tail ++ [nw]) (sha256Round s k (ws.getD 0 0))

def sha256Block (s : S2) (ws : List Nat) : S2 :=
  let r := sha256Rounds k256 ws s
  ⟨add32 s.a r.a, add32 s.b r.b, add32 s.c r.c, add32 s.d r.d, add32 s.e r.e, add32 s.f r.f, add32 s.g r.g,
    add32 s.h r.h⟩

def sha256 (m : Bytes) : Bytes :=
  let p := shaPad m
  let s := (blocks (p.length / 64) p).foldl sha256Block
    ⟨0x6a09e667, 0xbb67ae85, 0x3c6ef372, 0xa54ff53a, 0x510e527f, 0x9b05688c, 0x1f83d9ab, 0x5be0cd19⟩
  bytes4 s.a ++ bytes4 s.b ++ bytes4 s.c ++ bytes4 s.d ++ bytes4 s.e ++ bytes4 s.f ++ bytes4 s.g ++ bytes4 s.h

def Sha256 : HashFn := ⟨32, sha256, fun _ => rfl⟩

/-- FIPS 180-4 examples: "abc" and the empty string. -/
example : word (sha1 [0x61, 0x62, 0x63]) = 0xa9993e364706816aba3e25717850c26c9cd0d89d := by decide +kernel
example : word (sha1 []) = 0xda39a3ee5e6b4b0d3255bfef95601890afd80709 := by decide +kernel
example : word (sha256 [0x61, 0x62, 0x63]) = 0xba7816bf8f01cfea414140de5dae2223b00361a396177a9cb410ff61f20015ad := by
  decide +kernel
example : word (sha256 []) = 0xe3b0c44298fc1c149afbf4c8996fb92427ae41e4649b934ca495991b7852b855 := by decide +kernel
/-- Two blocks: 64 times "a". -/
example : word (sha1 (List.replicate 64 0x61)) = 0x0098ba824b5c16427bd7a1122a5a442a25ec644d := by decide +kernel
example : word (sha256 (List.replicate 64 0x61)) =
    0xffe054fe7ae0cb6dc65c3af9b61d5209f439851db43d0ba5997337df154668eb := by decide +kernel

end RSA.Conformance
