import Verif.Spec.Outcome
import Verif.Spec.RawPrivate

/-
What decryption and signing give for key objects that need not be correct keys. Over numbers, octet strings, the widths at
which numbers are stored and the draws of the generator; mentions none of the model's functions.
-/
namespace RSA.Spec

/-- The checked private operation on the number `b`, stored as wide as the modulus, and then whatever `f` says of the
number it gives; errors, panics and unfinished draws are passed on. -/
inductive AfterPrivate {σ α : Type} (R : RngImpl σ) (fuel : Nat) (rng : Option σ) (k : PrivateKey) (b : Nat)
    (f : Nat → Res α → Prop) : Res α → Prop
  | value (c x : BoxedUint) (rng' : Option σ) (hw : c.prec = k.pub.n.prec) (hv : c.val = b)
      (h : RawChecked R fuel rng k c (.ok (x, rng'))) (r : Res α) (hr : f x.val r) : AfterPrivate R fuel rng k b f r
  | err (c : BoxedUint) (e : Error) (hw : c.prec = k.pub.n.prec) (hv : c.val = b)
      (h : RawChecked R fuel rng k c (.err e)) : AfterPrivate R fuel rng k b f (.err e)
  | panic (c : BoxedUint) (p : PanicKind) (hw : c.prec = k.pub.n.prec) (hv : c.val = b)
      (h : RawChecked R fuel rng k c (.panic p)) : AfterPrivate R fuel rng k b f (.panic p)
  | loop (c : BoxedUint) (hw : c.prec = k.pub.n.prec) (hv : c.val = b)
      (h : RawChecked R fuel rng k c .loop) : AfterPrivate R fuel rng k b f .loop

/-- I2OSP to the length of the modulus `n`. -/
inductive Writes (n x : Nat) : Res Bytes → Prop
  | fits (em : Bytes) (h : i2osp x (octetLen n) = some em) : Writes n x (.ok em)
  | wide (h : i2osp x (octetLen n) = none) : Writes n x (.err .invalidPadLen)

/-- Opening the number `x` as a PKCS#1 v1.5 encryption block for the modulus `n`. -/
inductive OpensPkcs1v15 (n x : Nat) : Res Bytes → Prop
  | wide (e : Error) (h : Writes n x (.err e)) : OpensPkcs1v15 n x (.err e)
  | invalid (em : Bytes) (hem : Writes n x (.ok em)) (h : ∀ m, ¬ IsEmePkcs1v15 (octetLen n) m em) :
      OpensPkcs1v15 n x (.err .decryption)
  | message (em m : Bytes) (hem : Writes n x (.ok em)) (h : IsEmePkcs1v15 (octetLen n) m em) :
      OpensPkcs1v15 n x (.ok m)

/-- Opening the number `x` as an OAEP block for the modulus `n`; `long` is the error for a label that is too long. -/
inductive OpensOaep (n : Nat) (D MGD : HashFn) (label : Bytes) (long : Error) (x : Nat) : Res Bytes → Prop
  | wide (e : Error) (h : Writes n x (.err e)) : OpensOaep n D MGD label long x (.err e)
  | badLabel (em : Bytes) (hem : Writes n x (.ok em)) (h : 2 ^ 61 ≤ label.length) :
      OpensOaep n D MGD label long x (.err long)
  | invalid (em : Bytes) (hem : Writes n x (.ok em)) (hlab : label.length < 2 ^ 61)
      (h : ∀ m, ¬ IsEmeOaep D MGD label (octetLen n) m em) : OpensOaep n D MGD label long x (.err .decryption)
  | message (em m : Bytes) (hem : Writes n x (.ok em)) (hlab : label.length < 2 ^ 61)
      (h : IsEmeOaep D MGD label (octetLen n) m em) : OpensOaep n D MGD label long x (.ok m)

/-- PKCS#1 v1.5 decryption of `ct`. -/
inductive AnyDecryptsPkcs1v15 {σ : Type} (R : RngImpl σ) (fuel : Nat) (rng : Option σ) (k : PrivateKey) (ct : Bytes) :
    Res Bytes → Prop
  | badKey (er : Error) (h : PublicError k.pub.n.prec k.pub.n.val k.pub.e.val er) :
      AnyDecryptsPkcs1v15 R fuel rng k ct (.err er)
  | tooLong (hk : PublicOk k.pub.n.prec k.pub.n.val k.pub.e.val) (h : k.pub.n.prec < 8 * ct.length) :
      AnyDecryptsPkcs1v15 R fuel rng k ct (.err (.decode .inputSize))
  | run (hk : PublicOk k.pub.n.prec k.pub.n.val k.pub.e.val) (hl : 8 * ct.length ≤ k.pub.n.prec) (r : Res Bytes)
      (h : AfterPrivate R fuel rng k (os2ip ct) (OpensPkcs1v15 k.pub.n.val) r) : AnyDecryptsPkcs1v15 R fuel rng k ct r

/-- OAEP decryption of `ct`. -/
inductive AnyDecryptsOaep {σ : Type} (R : RngImpl σ) (fuel : Nat) (rng : Option σ) (k : PrivateKey) (D MGD : HashFn)
    (label : Bytes) (long : Error) (ct : Bytes) : Res Bytes → Prop
  | length (h : ct.length ≠ octetLen k.pub.n.val) : AnyDecryptsOaep R fuel rng k D MGD label long ct (.err .decryption)
  | run (hl : ct.length = octetLen k.pub.n.val) (r : Res Bytes)
      (h : AfterPrivate R fuel rng k (os2ip ct) (OpensOaep k.pub.n.val D MGD label long) r) :
      AnyDecryptsOaep R fuel rng k D MGD label long ct r

/-- OAEP decryption with a typed key, which first checks the public key. -/
inductive AnyDecryptsOaepTyped {σ : Type} (R : RngImpl σ) (fuel : Nat) (rng : Option σ) (k : PrivateKey) (D MGD : HashFn)
    (label ct : Bytes) : Res Bytes → Prop
  | badKey (er : Error) (h : PublicError k.pub.n.prec k.pub.n.val k.pub.e.val er) :
      AnyDecryptsOaepTyped R fuel rng k D MGD label ct (.err er)
  | run (hk : PublicOk k.pub.n.prec k.pub.n.val k.pub.e.val) (r : Res Bytes)
      (h : AnyDecryptsOaep R fuel rng k D MGD label .labelTooLong ct r) : AnyDecryptsOaepTyped R fuel rng k D MGD label ct r

/-- PKCS#1 v1.5 signing of `hashed` under a prefix, the expected digest length being `hashLen` (if any). -/
inductive AnySignsPkcs1v15 {σ : Type} (R : RngImpl σ) (fuel : Nat) (rng : Option σ) (k : PrivateKey)
    (hashLen : Option Nat) (pfx hashed : Bytes) : Res Bytes → Prop
  | notHashed (l : Nat) (hl : hashLen = some l) (h : hashed.length ≠ l) :
      AnySignsPkcs1v15 R fuel rng k hashLen pfx hashed (.err .inputNotHashed)
  | tooLong (hh : ∀ l, hashLen = some l → hashed.length = l)
      (h : emsaPkcs1v15 (pfx ++ hashed) (octetLen k.pub.n.val) = none) :
      AnySignsPkcs1v15 R fuel rng k hashLen pfx hashed (.err .messageTooLong)
  | run (hh : ∀ l, hashLen = some l → hashed.length = l) (em : Bytes)
      (hem : emsaPkcs1v15 (pfx ++ hashed) (octetLen k.pub.n.val) = some em) (r : Res Bytes)
      (h : AfterPrivate R fuel rng k (os2ip em) (Writes k.pub.n.val) r) :
      AnySignsPkcs1v15 R fuel rng k hashLen pfx hashed r

/-- PSS signing of `hashed` with a salt of `saltLen` octets; `rng = none`: no generator was passed. -/
inductive AnySignsPss {σ : Type} (R : RngImpl σ) (fuel : Nat) (rng : Option σ) (k : PrivateKey) (D : HashFn)
    (blinded : Bool) (saltLen : Nat) (hashed : Bytes) : Res Bytes → Prop
  | noRng (h : rng = none) : AnySignsPss R fuel rng k D blinded saltLen hashed (.err .invalidPaddingScheme)
  | noSalt (s : σ) (hs : rng = some s) (h : (R.fill s saltLen).1 = none) :
      AnySignsPss R fuel rng k D blinded saltLen hashed (.err .rng)
  | notHashed (s : σ) (hs : rng = some s) (salt : Bytes) (hf : (R.fill s saltLen).1 = some salt)
      (h : hashed.length ≠ D.outLen) : AnySignsPss R fuel rng k D blinded saltLen hashed (.err .inputNotHashed)
  | tooLong (s : σ) (hs : rng = some s) (salt : Bytes) (hf : (R.fill s saltLen).1 = some salt)
      (hh : hashed.length = D.outLen)
      (h : emsaPss D.hash (mgf1 D.hash D.outLen) D.outLen hashed salt (k.pub.n.val.size - 1) = none) :
      AnySignsPss R fuel rng k D blinded saltLen hashed (.err .internal)
  | run (s : σ) (hs : rng = some s) (salt : Bytes) (hf : (R.fill s saltLen).1 = some salt)
      (hh : hashed.length = D.outLen) (em : Bytes)
      (hem : emsaPss D.hash (mgf1 D.hash D.outLen) D.outLen hashed salt (k.pub.n.val.size - 1) = some em) (r : Res Bytes)
      (h : AfterPrivate R fuel (if blinded then some (R.fill s saltLen).2 else none) k (os2ip em) (Writes k.pub.n.val) r) :
      AnySignsPss R fuel rng k D blinded saltLen hashed r

end RSA.Spec
