import Verif.Model.Leak
import Verif.Spec.Rfc8017

/- The sequences of observations the private-key routines should make, written out as functions of public sizes, of the number
of octets of the decrypted integer, and of what the caller learns anyway. -/
namespace RSA.Spec

/-- Octets `lo` to `hi - 1` of a buffer of `len`, read once each, in order. -/
def readsTrace (len lo hi : Nat) : List Ev := (List.range (hi - lo)).map fun i => .read len (lo + i)

/-- The verdict on a padding, and the octets of the message cut off the end of a block of `k` octets. -/
def verdictTrace (k : Nat) : Res Bytes → List Ev
  | .ok m => [.branch false, .range k (k - m.length) k]
  | _ => [.branch true]

/-- Checking and removing PKCS#1 v1.5 padding of a block of `k` octets: every octet once, in order, then the verdict. -/
def pkcs1v15UnpadTrace (k : Nat) (outcome : Res Bytes) : List Ev :=
  .branch false :: (readsTrace k 0 k ++ verdictTrace k outcome)

/-- Incrementing a four-octet big-endian counter holding `c`: one test for each octet incremented. -/
def counterTrace (c : Nat) : List Ev :=
  if (c + 1) % 256 ≠ 0 then [.branch true]
  else if (c + 1) % 256 ^ 2 ≠ 0 then [.branch false, .branch true]
  else if (c + 1) % 256 ^ 3 ≠ 0 then [.branch false, .branch false, .branch true]
  else [.branch false, .branch false, .branch false, .branch (decide ((c + 1) % 256 ^ 4 ≠ 0))]

/-- Masking octets `i` to `i + n - 1` of a buffer of `olen` with the first `n` octets of a hash of `h` octets. -/
def maskTrace (h olen i n : Nat) : List Ev :=
  (List.range n).flatMap (fun j => [.branch false, .read h j, .write olen (i + j)]) ++ [.branch true]

/-- The hashing of a block: seed and counter put together in a new buffer of `slen + 4`, absorbed on top of `pre`
octets. -/
def blockHashTrace (slen pre : Nat) : List Ev :=
  [.alloc (slen + 4), .range (slen + 4) 0 slen, .copy slen, .range (slen + 4) slen (slen + 4), .copy 4,
    .absorb (slen + 4), .finalize (pre + slen + 4)]

/-- The same for the digest known at compile time: seed and counter absorbed one after the other. -/
def blockHashTraceDigest (slen pre : Nat) : List Ev := [.absorb slen, .absorb 4, .finalize (pre + slen + 4)]

/-- MGF1 masking a buffer of `olen` octets, `h` octets of hash at a time; `hashing` is what hashing a block shows. -/
def mgfTrace (hashing : Nat → List Ev) (h olen : Nat) : List Ev :=
  .branch true :: ((List.range ((olen + h - 1) / h)).flatMap (fun b =>
    .branch true :: (hashing b ++ maskTrace h olen (b * h) (min h (olen - b * h)) ++ counterTrace b)) ++ [.branch false])

/-- What hashing block number `b` shows when the digest held `pre` octets before the first. -/
def hashing (slen pre b : Nat) : List Ev := blockHashTrace slen (if b = 0 then pre else 0)
def hashingDigest (slen pre b : Nat) : List Ev := blockHashTraceDigest slen (if b = 0 then pre else 0)

/-- Checking and removing OAEP padding of a block of `k` octets for a hash of `h` octets; `mask` is what unmasking shows. -/
def oaepUnpadTrace (labelHash mask : List Ev) (h k : Nat) (outcome : Res Bytes) : List Ev :=
  .branch false :: (labelHash ++ [.branch false, .branch false, .read k 0, .range k 0 1, .range (k - 1) 0 h] ++ mask ++
    [.range (k - 1 - h) 0 h, .compare h h] ++ readsTrace (k - 1 - h) h (k - 1 - h) ++ [.alloc k] ++ verdictTrace k outcome)

/-- Unmasking seed and data block. -/
def oaepMaskTrace (h h' k pre : Nat) : List Ev :=
  mgfTrace (hashing (k - 1 - h) pre) h' h ++ mgfTrace (hashing h 0) h' (k - 1 - h)
def oaepMaskTraceDigest (h h' k : Nat) : List Ev :=
  mgfTrace (hashingDigest (k - 1 - h) 0) h' h ++ mgfTrace (hashingDigest h 0) h' (k - 1 - h)

/-- Converting an integer of `oct` octets, stored in `limbs` words, to `k` octets. -/
def toOctetsTrace (limbs oct k : Nat) : List Ev :=
  [.opaque "leading_zeros", .alloc (8 * limbs), .range (8 * limbs) (8 * limbs - oct) (8 * limbs), .branch false, .alloc k,
    .branch true, .range k (k - oct) k, .copy oct]

/-- Storage sizes of a private key, in words: modulus, exponents, primes, and the cached exponents if any. -/
structure Sizes where
  n : Nat
  e : Nat
  d : Nat
  primes : List Nat
  cache : Option (Nat × Nat)

/-- The storage sizes of a key. -/
def sizes (k : PrivateKey) : Sizes :=
  ⟨k.pub.n.nlimbs, k.pub.e.nlimbs, k.d.nlimbs, k.primes.map BoxedUint.nlimbs,
    k.precomputed.map fun c => (c.dp.nlimbs, c.dq.nlimbs)⟩

/-- Raising a base stored in `x` words to a power stored in `e` words modulo a number of `m` words. -/
def powTrace (x e m : Nat) : List Ev :=
  (if x < m then [.branch true, .bignum "widen" [x, 64 * m]]
    else if x = m then [.branch false, .branch true]
    else [.branch false, .branch false, .bignum "shorten" [x, 64 * m]]) ++
  [.bignum "rem_vartime" [m, m], .bignum "widen" [m, 64 * m], .bignum "BoxedMontyForm::new" [m, m], .bignum "pow" [m, e]]

/-- A product modulo a number of `m` words. -/
def mulTrace (m : Nat) : List Ev :=
  [.bignum "BoxedMontyForm::new" [m, m], .bignum "BoxedMontyForm::new" [m, m], .bignum "BoxedMontyForm::mul" [m, m]]

/-- The exponentiation by the private exponent: with the cached values for two primes, by `d` otherwise. -/
def expTrace (s : Sizes) : List Ev :=
  .branch s.cache.isSome :: .branch (decide (s.primes.length > 2)) :: match s.cache, s.primes with
    | some (dp, dq), [_, q] =>
      [.read 2 0, .read 2 1, .bignum "BoxedMontyForm::new" [s.d, s.d], .bignum "pow" [s.d, dp],
        .bignum "BoxedMontyForm::new" [s.d, s.d], .bignum "pow" [s.d, dq], .bignum "BoxedMontyForm::new" [s.d, s.d],
        .bignum "BoxedMontyForm::sub" [s.d, s.d], .bignum "BoxedMontyForm::mul" [s.d, s.d],
        .bignum "wrapping_mul" [s.d, q], .bignum "wrapping_add" [s.d, s.d], .bignum "shorten" [s.d, 64 * s.n]]
    | _, _ => powTrace s.d s.d s.n ++ [.bignum "shorten" [s.n, 64 * s.n]]

/-- The draws of the blinding factor: for each whether it failed, was zero, was invertible. -/
def drawsTrace {σ : Type} (R : RngImpl σ) (n words : Nat) : Nat → σ → List Ev
  | 0, _ => []
  | fuel + 1, s => .bignum "try_random_mod" [words] ::
    match R.randMod s n with
    | (none, _) => [.branch false]
    | (some r, t) => .branch true :: .branch (decide (r = 0)) :: .bignum "inv_mod" [words, words] ::
        if r = 0 ∨ Nat.Coprime r n then [.branch true] else .branch false :: drawsTrace R n words fuel t

/-- The private operation on an integer below the modulus `n`, blinded if there is a generator, and its check. -/
def privateTrace {σ : Type} (R : RngImpl σ) (fuel n : Nat) (s : Sizes) (rng : Option σ) : List Ev :=
  [.bignum "cmp" [s.n, s.n], .branch false, .branch rng.isSome] ++
  (match rng with
    | some t => .branch true :: (drawsTrace R n s.n fuel t ++ powTrace s.n s.e s.n ++ mulTrace s.n ++ [.branch true, .branch true])
    | none => []) ++
  .bignum "widen" [s.n, 64 * s.d] :: expTrace s ++
  (if rng.isSome then .branch true :: .branch true :: mulTrace s.n else []) ++
  powTrace s.n s.e s.n ++ [.bignum "eq" [s.n, s.n], .branch false]

/-! ### Encoding -/

/-- Writing the PKCS#1 v1.5 block for a prefix of `p` and a digest of `h` octets into `k` octets. -/
def pkcs1v15SignPadTrace (p h k : Nat) : List Ev :=
  [.branch false, .alloc k, .write k 0, .write k 1, .branch true, .branch true, .write k (k - (p + h) - 1), .branch true,
    .range k (k - (p + h)) (k - h), .copy p, .range k (k - h) k, .copy h]

/-- A request for `n` octets of randomness which was met. -/
def requestTrace (n : Nat) : List Ev := [.range n 0 n, .branch true]

/-- Replacing a zero octet: one-octet requests until the answer is not zero, and the generator afterwards. -/
def redrawTrace {σ : Type} (R : RngImpl σ) : Nat → σ → List Ev × σ
  | 0, s => ([], s)
  | fuel + 1, s => match R.fill s 1 with
    | (none, t) => ([], t)
    | (some b, t) =>
      let next := if b = [0] then redrawTrace R fuel t else ([], t)
      (requestTrace 1 ++ [.read 1 0, .branch (decide (b = [0]))] ++ next.1, next.2)

/-- Going through drawn octets and replacing those that are zero. -/
def replaceTrace {σ : Type} (R : RngImpl σ) (fuel : Nat) : Bytes → σ → List Ev
  | [], _ => []
  | b :: bs, s =>
    if b = 0 then .branch true :: ((redrawTrace R fuel s).1 ++ replaceTrace R fuel bs (redrawTrace R fuel s).2)
    else .branch false :: replaceTrace R fuel bs s

/-- Drawing `n` octets without zeros. -/
def nonZeroTrace {σ : Type} (R : RngImpl σ) (fuel : Nat) (s : σ) (n : Nat) : List Ev :=
  requestTrace n ++ match R.fill s n with
    | (some b, t) => replaceTrace R fuel b t
    | (none, _) => []

/-- Writing the PKCS#1 v1.5 encryption block for a message of `m` octets into `k` octets. -/
def pkcs1v15EncryptPadTrace {σ : Type} (R : RngImpl σ) (fuel : Nat) (s : σ) (m k : Nat) : List Ev :=
  [.branch false, .alloc k, .write k 1, .branch true, .branch true, .range k 2 (k - m - 1)] ++
  nonZeroTrace R fuel s (k - m - 3) ++
  [.range k 2 (k - m - 1), .copy (k - m - 3), .write k (k - m - 1), .range k (k - m) k, .copy m]

/-- Writing the OAEP block for a message of `m` octets into `k` octets, for a hash of `h` octets. -/
def oaepPadTrace (labelHash mask : List Ev) (h m k : Nat) : List Ev :=
  .branch false :: (labelHash ++ [.branch false, .alloc k, .range k 0 1, .range (k - 1) 0 h] ++ requestTrace h ++
    [.branch true, .branch true, .range (k - 1 - h) 0 h, .copy h, .branch true, .branch true,
      .write (k - 1 - h) (k - 1 - h - m - 1), .range (k - 1 - h) (k - 1 - h - m) (k - 1 - h), .copy m] ++ mask)

/-- Masking data block and seed. -/
def oaepPadMaskTrace (h h' k pre : Nat) : List Ev :=
  mgfTrace (hashing h pre) h' (k - 1 - h) ++ mgfTrace (hashing (k - 1 - h) 0) h' h
def oaepPadMaskTraceDigest (h h' k : Nat) : List Ev :=
  mgfTrace (hashingDigest h 0) h' (k - 1 - h) ++ mgfTrace (hashingDigest (k - 1 - h) 0) h' h

/-- Writing the PSS block of `len` octets for a hash of `h` and a salt of `s` octets, by a digest which held `pre` octets. -/
def pssPadTrace (mask : List Ev) (h s len pre : Nat) : List Ev :=
  [.branch false, .branch true, .branch true, .branch false, .alloc len, .branch true, .branch true,
    .range len 0 (len - h - 1), .branch true, .branch true, .range (h + 1) 0 h, .absorb 8, .absorb h, .absorb s,
    .finalize (pre + 8 + h + s), .range (h + 1) 0 h, .copy h, .branch true, .branch true, .branch true,
    .write (len - h - 1) (len - s - h - 2), .branch true, .range (len - h - 1) (len - s - h - 1) (len - h - 1), .copy s,
    .range (h + 1) 0 h] ++ mask ++
  [.branch true, .read (len - h - 1) 0, .write (len - h - 1) 0, .branch true, .write len (len - 1)]

/-- The public operation on a block of `k` octets, and the conversion of a result of `oct` octets to `size` octets. -/
def publicTrace (n e k oct size : Nat) : List Ev :=
  .bignum "from_be_slice" [k, 64 * n] :: (powTrace n e n ++ toOctetsTrace n oct size)

end RSA.Spec
