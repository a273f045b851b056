import Verif.Spec.Rfc8017
import Verif.Spec.KeyErrors

/-
What every operation of the schemes gives on every input, as relations between the inputs and the outcome. Over numbers,
octet strings and the draws of the generator; mentions the data types of the model only, none of its functions.
-/
namespace RSA.Spec

/-! ### Randomness -/

/-- How the one-octet draws from state `s` turn out: the `j`-th settles the matter, with `some (b, s')` if it gave the
non-zero octet `b` and left the generator in state `s'`, `none` if it failed; all before gave zero. -/
inductive NonzeroOctet {σ : Type} (R : RngImpl σ) : σ → Option (UInt8 × σ) → Nat → Prop
  | fail (s : σ) (h : (R.fill s 1).1 = none) : NonzeroOctet R s none 1
  | good (s : σ) (b : UInt8) (h : (R.fill s 1).1 = some [b]) (hb : b ≠ 0) :
      NonzeroOctet R s (some (b, (R.fill s 1).2)) 1
  | again (s : σ) (o : Option (UInt8 × σ)) (j : Nat) (h : (R.fill s 1).1 = some [0])
      (next : NonzeroOctet R (R.fill s 1).2 o j) : NonzeroOctet R s o (j + 1)

/-- `raw` with its zero octets replaced, from left to right, by the first non-zero octets drawn from state `s` on, none
of them needing more than `fuel` draws: `some (ps, s')`, or `none` if the generator failed. -/
inductive ZerosReplaced {σ : Type} (R : RngImpl σ) (fuel : Nat) : Bytes → σ → Option (Bytes × σ) → Prop
  | nil (s : σ) : ZerosReplaced R fuel [] s (some ([], s))
  | keep (b : UInt8) (raw : Bytes) (s : σ) (o : Option (Bytes × σ)) (hb : b ≠ 0) (next : ZerosReplaced R fuel raw s o) :
      ZerosReplaced R fuel (b :: raw) s (o.map fun x => (b :: x.1, x.2))
  | drawn (raw : Bytes) (s : σ) (b : UInt8) (s' : σ) (j : Nat) (o : Option (Bytes × σ)) (hj : j ≤ fuel)
      (h : NonzeroOctet R s (some (b, s')) j) (next : ZerosReplaced R fuel raw s' o) :
      ZerosReplaced R fuel (0 :: raw) s (o.map fun x => (b :: x.1, x.2))
  | fail (raw : Bytes) (s : σ) (j : Nat) (hj : j ≤ fuel) (h : NonzeroOctet R s none j) :
      ZerosReplaced R fuel (0 :: raw) s none

/-- The private operation modulo `n` with the (optional) blinding generator `rng`, when it would give `x`: it does give
`x` if blinding finds a usable value, reports the failure of the generator, or is still drawing after `fuel` draws. -/
inductive Privately {σ α : Type} (R : RngImpl σ) (n fuel : Nat) (rng : Option σ) (x : Res α) : Res α → Prop
  | done (h : BlindingOk R n fuel rng) : Privately R n fuel rng x x
  | fail (s : σ) (j : Nat) (hs : rng = some s) (h : Draws R n s none j) (hj : j ≤ fuel) :
      Privately R n fuel rng x (.err .rng)
  | drawing (h : ¬ Settles R n fuel rng) : Privately R n fuel rng x .loop

/-! ### Encryption -/

/-- PKCS#1 v1.5 encryption of `msg` for the public key `(n, e)` stored in `w` bits. -/
inductive EncryptsPkcs1v15 {σ : Type} (R : RngImpl σ) (fuel : Nat) (s : σ) (w n e : Nat) (msg : Bytes) :
    Res (Bytes × σ) → Prop
  | badKey (er : Error) (h : PublicError w n e er) : EncryptsPkcs1v15 R fuel s w n e msg (.err er)
  | tooLong (hk : PublicOk w n e) (h : octetLen n < msg.length + 11) :
      EncryptsPkcs1v15 R fuel s w n e msg (.err .messageTooLong)
  | noPadding (hk : PublicOk w n e) (hl : msg.length + 11 ≤ octetLen n)
      (h : (R.fill s (octetLen n - msg.length - 3)).1 = none) : EncryptsPkcs1v15 R fuel s w n e msg (.err .rng)
  | noRedraw (hk : PublicOk w n e) (hl : msg.length + 11 ≤ octetLen n) (raw : Bytes)
      (hr : (R.fill s (octetLen n - msg.length - 3)).1 = some raw)
      (h : ZerosReplaced R fuel raw (R.fill s (octetLen n - msg.length - 3)).2 none) :
      EncryptsPkcs1v15 R fuel s w n e msg (.err .rng)
  | drawing (hk : PublicOk w n e) (hl : msg.length + 11 ≤ octetLen n) (raw : Bytes)
      (hr : (R.fill s (octetLen n - msg.length - 3)).1 = some raw)
      (h : ∀ o, ¬ ZerosReplaced R fuel raw (R.fill s (octetLen n - msg.length - 3)).2 o) :
      EncryptsPkcs1v15 R fuel s w n e msg .loop
  | done (hk : PublicOk w n e) (hl : msg.length + 11 ≤ octetLen n) (raw ps ct : Bytes) (s' : σ)
      (hr : (R.fill s (octetLen n - msg.length - 3)).1 = some raw)
      (hp : ZerosReplaced R fuel raw (R.fill s (octetLen n - msg.length - 3)).2 (some (ps, s')))
      (hc : i2osp (os2ip ([0x00, 0x02] ++ ps ++ [0x00] ++ msg) ^ e % n) (octetLen n) = some ct) :
      EncryptsPkcs1v15 R fuel s w n e msg (.ok (ct, s'))

/-- OAEP encryption of `msg` under a label for the public key `(n, e)` stored in `w` bits. -/
inductive EncryptsOaep {σ : Type} (R : RngImpl σ) (s : σ) (w n e : Nat) (D MGD : HashFn) (label msg : Bytes) :
    Res (Bytes × σ) → Prop
  | badKey (er : Error) (h : PublicError w n e er) : EncryptsOaep R s w n e D MGD label msg (.err er)
  | badLabel (hk : PublicOk w n e) (h : 2 ^ 61 ≤ label.length) :
      EncryptsOaep R s w n e D MGD label msg (.err .labelTooLong)
  | tooLong (hk : PublicOk w n e) (hl : label.length < 2 ^ 61) (h : octetLen n < msg.length + 2 * D.outLen + 2) :
      EncryptsOaep R s w n e D MGD label msg (.err .messageTooLong)
  | noSeed (hk : PublicOk w n e) (hl : label.length < 2 ^ 61) (hm : msg.length + 2 * D.outLen + 2 ≤ octetLen n)
      (h : (R.fill s D.outLen).1 = none) : EncryptsOaep R s w n e D MGD label msg (.err .rng)
  | done (hk : PublicOk w n e) (hl : label.length < 2 ^ 61) (hm : msg.length + 2 * D.outLen + 2 ≤ octetLen n)
      (seed ct : Bytes) (hs : (R.fill s D.outLen).1 = some seed)
      (hc : i2osp (os2ip (emeOaep (D.hash label) (mgf1 MGD.hash MGD.outLen) D.outLen (octetLen n) seed msg) ^ e % n)
        (octetLen n) = some ct) :
      EncryptsOaep R s w n e D MGD label msg (.ok (ct, (R.fill s D.outLen).2))

/-! ### Decryption -/

/-- PKCS#1 v1.5 decryption of `ct` for the key `(n, e, d)` with the modulus stored in `w` bits. -/
inductive DecryptsPkcs1v15 {σ : Type} (R : RngImpl σ) (fuel : Nat) (rng : Option σ) (w n e d : Nat) (ct : Bytes) :
    Res Bytes → Prop
  | badKey (er : Error) (h : PublicError w n e er) : DecryptsPkcs1v15 R fuel rng w n e d ct (.err er)
  | tooLong (hk : PublicOk w n e) (h : w < 8 * ct.length) :
      DecryptsPkcs1v15 R fuel rng w n e d ct (.err (.decode .inputSize))
  | tooLarge (hk : PublicOk w n e) (hl : 8 * ct.length ≤ w) (h : n ≤ os2ip ct) :
      DecryptsPkcs1v15 R fuel rng w n e d ct (.err .decryption)
  | invalid (hk : PublicOk w n e) (hl : 8 * ct.length ≤ w) (hv : os2ip ct < n) (em : Bytes)
      (hem : i2osp (os2ip ct ^ d % n) (octetLen n) = some em) (h : ∀ m, ¬ IsEmePkcs1v15 (octetLen n) m em)
      (r : Res Bytes) (hr : Privately R n fuel rng (.err .decryption) r) : DecryptsPkcs1v15 R fuel rng w n e d ct r
  | message (hk : PublicOk w n e) (hl : 8 * ct.length ≤ w) (hv : os2ip ct < n) (em m : Bytes)
      (hem : i2osp (os2ip ct ^ d % n) (octetLen n) = some em) (h : IsEmePkcs1v15 (octetLen n) m em)
      (r : Res Bytes) (hr : Privately R n fuel rng (.ok m) r) : DecryptsPkcs1v15 R fuel rng w n e d ct r

/-- `em` is the OAEP encoding of `m` under `label` for some seed, on at least 11 octets. -/
def IsEmeOaep (D MGD : HashFn) (label : Bytes) (k : Nat) (m em : Bytes) : Prop :=
  11 ≤ k ∧ ∃ seed : Bytes, seed.length = D.outLen ∧ m.length + 2 * D.outLen + 2 ≤ k ∧
    em = emeOaep (D.hash label) (mgf1 MGD.hash MGD.outLen) D.outLen k seed m

/-- OAEP decryption of `ct` under a label for the key `(n, d)`. -/
inductive DecryptsOaep {σ : Type} (R : RngImpl σ) (fuel : Nat) (rng : Option σ) (n d : Nat) (D MGD : HashFn)
    (label ct : Bytes) : Res Bytes → Prop
  | length (h : ct.length ≠ octetLen n) : DecryptsOaep R fuel rng n d D MGD label ct (.err .decryption)
  | tooLarge (hl : ct.length = octetLen n) (h : n ≤ os2ip ct) :
      DecryptsOaep R fuel rng n d D MGD label ct (.err .decryption)
  | invalid (hl : ct.length = octetLen n) (hv : os2ip ct < n) (em : Bytes)
      (hem : i2osp (os2ip ct ^ d % n) (octetLen n) = some em)
      (h : 2 ^ 61 ≤ label.length ∨ ∀ m, ¬ IsEmeOaep D MGD label (octetLen n) m em)
      (r : Res Bytes) (hr : Privately R n fuel rng (.err .decryption) r) : DecryptsOaep R fuel rng n d D MGD label ct r
  | message (hl : ct.length = octetLen n) (hv : os2ip ct < n) (hlab : label.length < 2 ^ 61) (em m : Bytes)
      (hem : i2osp (os2ip ct ^ d % n) (octetLen n) = some em) (h : IsEmeOaep D MGD label (octetLen n) m em)
      (r : Res Bytes) (hr : Privately R n fuel rng (.ok m) r) : DecryptsOaep R fuel rng n d D MGD label ct r

/-- OAEP decryption with a typed key, which first checks the public key `(n, e)`, stored in `w` bits, and reports a label
that is too long for what it is. -/
inductive DecryptsOaepTyped {σ : Type} (R : RngImpl σ) (fuel : Nat) (rng : Option σ) (w n e d : Nat) (D MGD : HashFn)
    (label ct : Bytes) : Res Bytes → Prop
  | badKey (er : Error) (h : PublicError w n e er) : DecryptsOaepTyped R fuel rng w n e d D MGD label ct (.err er)
  | short (hk : PublicOk w n e) (hlab : label.length < 2 ^ 61) (r : Res Bytes)
      (h : DecryptsOaep R fuel rng n d D MGD label ct r) : DecryptsOaepTyped R fuel rng w n e d D MGD label ct r
  | badInput (hk : PublicOk w n e) (hlab : 2 ^ 61 ≤ label.length) (h : ct.length ≠ octetLen n ∨ n ≤ os2ip ct) :
      DecryptsOaepTyped R fuel rng w n e d D MGD label ct (.err .decryption)
  | badLabel (hk : PublicOk w n e) (hlab : 2 ^ 61 ≤ label.length) (hl : ct.length = octetLen n) (hv : os2ip ct < n)
      (r : Res Bytes) (hr : Privately R n fuel rng (.err .labelTooLong) r) :
      DecryptsOaepTyped R fuel rng w n e d D MGD label ct r

/-! ### Signing -/

/-- A typed signature `sg` with number `num sg` for the signature string `sig`, in as many 64-bit limbs as the string
needs; errors, panics and unfinished draws are passed on. -/
inductive TypedSignature {α : Type} (num : α → BoxedUint) : Res Bytes → Res α → Prop
  | ok (sig : Bytes) (sg : α) (hv : (num sg).val = os2ip sig) (hl : (num sg).nlimbs = max 1 ((sig.length + 7) / 8)) :
      TypedSignature num (.ok sig) (.ok sg)
  | err (e : Error) : TypedSignature num (.err e) (.err e)
  | panic (p : PanicKind) : TypedSignature num (.panic p) (.panic p)
  | loop : TypedSignature num .loop .loop

/-- PKCS#1 v1.5 signing of `hashed` under a prefix, the expected digest length being `hashLen` (if any). -/
inductive SignsPkcs1v15 {σ : Type} (R : RngImpl σ) (fuel : Nat) (rng : Option σ) (n d : Nat) (hashLen : Option Nat)
    (pfx hashed : Bytes) : Res Bytes → Prop
  | notHashed (l : Nat) (hl : hashLen = some l) (h : hashed.length ≠ l) :
      SignsPkcs1v15 R fuel rng n d hashLen pfx hashed (.err .inputNotHashed)
  | tooLong (hh : ∀ l, hashLen = some l → hashed.length = l) (h : emsaPkcs1v15 (pfx ++ hashed) (octetLen n) = none) :
      SignsPkcs1v15 R fuel rng n d hashLen pfx hashed (.err .messageTooLong)
  | done (hh : ∀ l, hashLen = some l → hashed.length = l) (em sig : Bytes)
      (hem : emsaPkcs1v15 (pfx ++ hashed) (octetLen n) = some em)
      (hs : i2osp (os2ip em ^ d % n) (octetLen n) = some sig) (r : Res Bytes)
      (hr : Privately R n fuel rng (.ok sig) r) : SignsPkcs1v15 R fuel rng n d hashLen pfx hashed r

/-- PSS signing of `hashed` with a salt of `saltLen` octets; `rng = none`: no generator was passed. -/
inductive SignsPss {σ : Type} (R : RngImpl σ) (fuel : Nat) (rng : Option σ) (n d : Nat) (D : HashFn) (blinded : Bool)
    (saltLen : Nat) (hashed : Bytes) : Res Bytes → Prop
  | noRng (h : rng = none) : SignsPss R fuel rng n d D blinded saltLen hashed (.err .invalidPaddingScheme)
  | noSalt (s : σ) (hs : rng = some s) (h : (R.fill s saltLen).1 = none) :
      SignsPss R fuel rng n d D blinded saltLen hashed (.err .rng)
  | notHashed (s : σ) (hs : rng = some s) (salt : Bytes) (hf : (R.fill s saltLen).1 = some salt)
      (h : hashed.length ≠ D.outLen) : SignsPss R fuel rng n d D blinded saltLen hashed (.err .inputNotHashed)
  | tooLong (s : σ) (hs : rng = some s) (salt : Bytes) (hf : (R.fill s saltLen).1 = some salt)
      (hh : hashed.length = D.outLen)
      (h : emsaPss D.hash (mgf1 D.hash D.outLen) D.outLen hashed salt (n.size - 1) = none) :
      SignsPss R fuel rng n d D blinded saltLen hashed (.err .internal)
  | done (s : σ) (hs : rng = some s) (salt : Bytes) (hf : (R.fill s saltLen).1 = some salt)
      (hh : hashed.length = D.outLen) (em sig : Bytes)
      (hem : emsaPss D.hash (mgf1 D.hash D.outLen) D.outLen hashed salt (n.size - 1) = some em)
      (hsig : i2osp (os2ip em ^ d % n) (octetLen n) = some sig) (r : Res Bytes)
      (hr : Privately R n fuel (if blinded then some (R.fill s saltLen).2 else none) (.ok sig) r) :
      SignsPss R fuel rng n d D blinded saltLen hashed r

/-! ### Verification -/

/-- PKCS#1 v1.5 verification of the octet string `sig` against the key `(n, e)` stored in `w` bits. Lengths go through a
32-bit cast and a multiplication by 8 first. -/
inductive VerifiesPkcs1v15 (w n e : Nat) (hashLen : Option Nat) (pfx hashed sig : Bytes) : Res Unit → Prop
  | notHashed (l : Nat) (hl : hashLen = some l) (h : hashed.length ≠ l) :
      VerifiesPkcs1v15 w n e hashLen pfx hashed sig (.err .inputNotHashed)
  | overflow (hh : ∀ l, hashLen = some l → hashed.length = l) (h : 2 ^ 29 ≤ sig.length % 2 ^ 32) :
      VerifiesPkcs1v15 w n e hashLen pfx hashed sig (.panic .arith)
  | huge (hh : ∀ l, hashLen = some l → hashed.length = l) (h : sig.length % 2 ^ 32 < 2 ^ 29) (hs : 2 ^ 32 ≤ sig.length) :
      VerifiesPkcs1v15 w n e hashLen pfx hashed sig (.err (.decode .inputSize))
  | valid (hh : ∀ l, hashLen = some l → hashed.length = l) (hs : sig.length < 2 ^ 29) (hv : os2ip sig < n)
      (hw : 64 * max 1 ((sig.length + 7) / 8) = w) (em : Bytes)
      (hem : emsaPkcs1v15 (pfx ++ hashed) (octetLen n) = some em)
      (h : i2osp (os2ip sig ^ e % n) (octetLen n) = some em) :
      VerifiesPkcs1v15 w n e hashLen pfx hashed sig (.ok ())
  | invalid (hh : ∀ l, hashLen = some l → hashed.length = l) (hs : sig.length < 2 ^ 29)
      (h : n ≤ os2ip sig ∨ 64 * max 1 ((sig.length + 7) / 8) ≠ w ∨
        ∀ em, ¬ (emsaPkcs1v15 (pfx ++ hashed) (octetLen n) = some em ∧ i2osp (os2ip sig ^ e % n) (octetLen n) = some em)) :
      VerifiesPkcs1v15 w n e hashLen pfx hashed sig (.err .verification)

/-- The string `sig` opens to a PSS encoding of `hashed` under the key `(n, e)`, as the code checks it: the first octet
of the recovered string is not looked at if `n` has `8 j + 1` bits. -/
def OpensPss (n e : Nat) (D : HashFn) (saltLen : Nat) (hashed sig : Bytes) : Prop :=
  sig.length = octetLen n ∧ hashed.length = D.outLen ∧ ∃ em, i2osp (os2ip sig ^ e % n) (octetLen n) = some em ∧
    IsEmsaPss D.hash D.outLen hashed saltLen (n.size - 1) (em.drop (if n.size % 8 = 1 then 1 else 0))

/-- PSS verification of the octet string `sig` against the key `(n, e)`. -/
inductive VerifiesPss (n e : Nat) (D : HashFn) (saltLen : Nat) (hashed sig : Bytes) : Res Unit → Prop
  | overflow (h : 2 ^ 29 ≤ sig.length % 2 ^ 32) : VerifiesPss n e D saltLen hashed sig (.panic .arith)
  | huge (h : sig.length % 2 ^ 32 < 2 ^ 29) (hs : 2 ^ 32 ≤ sig.length) :
      VerifiesPss n e D saltLen hashed sig (.err (.decode .inputSize))
  | valid (hs : sig.length < 2 ^ 29) (h : OpensPss n e D saltLen hashed sig) :
      VerifiesPss n e D saltLen hashed sig (.ok ())
  | invalid (hs : sig.length < 2 ^ 29) (h : ¬ OpensPss n e D saltLen hashed sig) :
      VerifiesPss n e D saltLen hashed sig (.err .verification)

end RSA.Spec
