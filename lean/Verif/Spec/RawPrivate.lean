import Verif.Spec.Key

/-
RFC 8017 §5.1.2 step 2.b for two factors, over the integers, for whatever numbers it is given, and the outcomes of the private
operation built on it. Mentions none of the model's
functions.
-/
namespace RSA.Spec

/-- RFC 8017 §5.1.2 step 2.b.i-iv: `m_1 = c^dP mod p`, `m_2 = c^dQ mod q`, `h = (m_1 - m_2) * qInv mod p`,
`m = m_2 + q * h`, with `dP = d mod (p - 1)` and `dQ = d mod (q - 1)`. -/
def rfcCrt (p q d qInv c : Nat) : Int :=
  let m1 : Int := ((c ^ (d % (p - 1)) % p : Nat) : Int)
  let m2 : Int := ((c ^ (d % (q - 1)) % q : Nat) : Int)
  m2 + q * ((m1 - m2) * qInv % p)

/-- The Chinese remainder branch is taken: there are cached values and exactly two factors `p` and `q`. -/
def UsesCrt (k : PrivateKey) (p q : BoxedUint) : Prop := k.precomputed.isSome = true ∧ k.primes = [p, q]

/-- The exponentiation of the number `b` with the key `k`: `b ^ d mod n`, or step 2.b of the RFC cut to the width of `n`
when the cached values are used; in the latter case `d` must not be stored narrower than `n`. -/
inductive Exponentiates (k : PrivateKey) (b : Nat) : Res Nat → Prop
  | plain (h : k.precomputed = none ∨ 2 < k.primes.length) : Exponentiates k b (.ok (b ^ k.d.val % k.pub.n.val))
  | crt (p q : BoxedUint) (u v : Nat) (h : UsesCrt k p q) (hw : k.pub.n.prec ≤ k.d.prec) (hu : u * q.val % p.val = 1)
      (hv : (v : Int) = rfcCrt p.val q.val k.d.val u b % 2 ^ k.pub.n.prec) : Exponentiates k b (.ok v)
  | narrow (p q : BoxedUint) (h : UsesCrt k p q) (hw : k.d.prec < k.pub.n.prec) : Exponentiates k b (.panic .precision)

/-- The `j`-th draw from state `s` is the first that is usable for blinding modulo `n`; it gives the unit `r` (1 for a draw
of 0) and leaves the generator in state `s'`. -/
inductive UnitDrawn {σ : Type} (R : RngImpl σ) (n : Nat) : σ → Nat → σ → Nat → Prop
  | good (s : σ) (r : Nat) (h : (R.randMod s n).1 = some r) (hr : r = 0 ∨ Nat.Coprime r n) :
      UnitDrawn R n s (if r = 0 then 1 else r) (R.randMod s n).2 1
  | again (s : σ) (r r' : Nat) (s' : σ) (j : Nat) (h : (R.randMod s n).1 = some r) (h0 : r ≠ 0)
      (hr : ¬ Nat.Coprime r n) (next : UnitDrawn R n (R.randMod s n).2 r' s' j) : UnitDrawn R n s r' s' (j + 1)

/-- The unchecked private operation on `c` with the (optional) blinding generator `rng`. -/
inductive RawDecrypts {σ : Type} (R : RngImpl σ) (fuel : Nat) (rng : Option σ) (k : PrivateKey) (c : BoxedUint) :
    Res (BoxedUint × Option σ) → Prop
  | tooLarge (h : k.pub.n.val ≤ c.val) : RawDecrypts R fuel rng k c (.err .decryption)
  | wide (hc : c.val < k.pub.n.val) (hs : rng = none) (hw : k.d.prec < c.prec) :
      RawDecrypts R fuel rng k c (.panic .precision)
  | narrow (hc : c.val < k.pub.n.val) (hs : rng = none) (hw : c.prec ≤ k.d.prec)
      (he : Exponentiates k c.val (.panic .precision)) : RawDecrypts R fuel rng k c (.panic .precision)
  | plain (hc : c.val < k.pub.n.val) (hs : rng = none) (hw : c.prec ≤ k.d.prec) (x : BoxedUint)
      (he : Exponentiates k c.val (.ok x.val)) (hx : x.prec = k.pub.n.prec) : RawDecrypts R fuel rng k c (.ok (x, none))
  | noDraw (hc : c.val < k.pub.n.val) (s : σ) (j : Nat) (hs : rng = some s) (hd : Draws R k.pub.n.val s none j)
      (hj : j ≤ fuel) : RawDecrypts R fuel rng k c (.err .rng)
  | drawing (hc : c.val < k.pub.n.val) (h : ¬ Settles R k.pub.n.val fuel rng) : RawDecrypts R fuel rng k c .loop
  | blindWidth (hc : c.val < k.pub.n.val) (s : σ) (r : Nat) (s' : σ) (j : Nat) (hs : rng = some s)
      (hd : UnitDrawn R k.pub.n.val s r s' j) (hj : j ≤ fuel) (hw : c.prec ≠ k.pub.n.prec ∨ k.d.prec < k.pub.n.prec) :
      RawDecrypts R fuel rng k c (.panic .precision)
  | blinded (hc : c.val < k.pub.n.val) (s : σ) (r : Nat) (s' : σ) (j ir v : Nat) (x : BoxedUint) (hs : rng = some s)
      (hd : UnitDrawn R k.pub.n.val s r s' j) (hj : j ≤ fuel) (hw : c.prec = k.pub.n.prec) (hn : k.pub.n.prec ≤ k.d.prec)
      (hir : r * ir % k.pub.n.val = 1 % k.pub.n.val)
      (he : Exponentiates k (c.val * r ^ k.pub.e.val % k.pub.n.val) (.ok v)) (hx : x.prec = k.pub.n.prec)
      (hv : x.val = v * ir % k.pub.n.val) : RawDecrypts R fuel rng k c (.ok (x, some s'))

/-- The checked private operation: a result is given out only if raising it to `e` gives `c` back. -/
inductive RawChecked {σ : Type} (R : RngImpl σ) (fuel : Nat) (rng : Option σ) (k : PrivateKey) (c : BoxedUint) :
    Res (BoxedUint × Option σ) → Prop
  | good (x : BoxedUint) (rng' : Option σ) (h : RawDecrypts R fuel rng k c (.ok (x, rng')))
      (he : x.val ^ k.pub.e.val % k.pub.n.val = c.val) : RawChecked R fuel rng k c (.ok (x, rng'))
  | fault (x : BoxedUint) (rng' : Option σ) (h : RawDecrypts R fuel rng k c (.ok (x, rng')))
      (he : x.val ^ k.pub.e.val % k.pub.n.val ≠ c.val) : RawChecked R fuel rng k c (.err .internal)
  | none (r : Res (BoxedUint × Option σ)) (h : RawDecrypts R fuel rng k c r) (hr : ∀ a, r ≠ .ok a) :
      RawChecked R fuel rng k c r

end RSA.Spec
