import Verif.Spec.Key

/-
The reasons for which building a key is refused, error by error, over the numbers involved.
-/
namespace RSA.Spec

/-- What is required of a public key stored in `w` bits. -/
def PublicOk (w n e : Nat) : Prop := w ≤ 4096 ∧ e < n ∧ n % 2 = 1 ∧ e % 2 = 1 ∧ 2 ≤ e ∧ e ≤ 2 ^ 33 - 1

/-- Why a public key is refused. -/
def PublicError (w n e : Nat) : Error → Prop
  | .modulusTooLarge => 4096 < w
  | .invalidModulus => w ≤ 4096 ∧ (n ≤ e ∨ n % 2 = 0)
  | .invalidExponent => w ≤ 4096 ∧ e < n ∧ n % 2 = 1 ∧ e % 2 = 0
  | .publicExponentTooSmall => w ≤ 4096 ∧ e < n ∧ n % 2 = 1 ∧ e = 1
  | .publicExponentTooLarge => w ≤ 4096 ∧ e < n ∧ n % 2 = 1 ∧ e % 2 = 1 ∧ 2 ^ 33 - 1 < e
  | _ => False

/-- The factor passes the exponent check: it fits `b` bits, is above 1, and `de ≡ 1` modulo the factor less one. -/
def FactorOk (de b : Nat) (p : BoxedUint) : Prop := p.prec ≤ b ∧ 1 < p.val ∧ de % (p.val - 1) = 1

/-- Some factor satisfies `bad`, and all before it pass. -/
def FirstFactor (de b : Nat) (ps : List BoxedUint) (bad : BoxedUint → Prop) : Prop :=
  ∃ pre p post, ps = pre ++ p :: post ∧ (∀ x ∈ pre, FactorOk de b x) ∧ bad p

/-- Why the factors and the private exponent (stored in `b` bits) are refused, for an acceptable public key. -/
def FactorError (w n de b : Nat) (ps : List BoxedUint) : Error → Prop
  | .invalidPrime => ∃ p ∈ ps, p.val = 0
  | .invalidModulus => (∀ p ∈ ps, p.val ≠ 0) ∧ (ps.map BoxedUint.val).prod % 2 ^ w ≠ n
  | .invalidExponent => (ps.map BoxedUint.val).prod % 2 ^ w = n ∧
      FirstFactor de (2 * b) ps fun p => p.prec ≤ 2 * b ∧ 1 < p.val ∧ de % (p.val - 1) ≠ 1
  | _ => False

/-- Why checking them panics. -/
def FactorPanic (w n de b : Nat) (ps : List BoxedUint) : Prop :=
  (ps.map BoxedUint.val).prod % 2 ^ w = n ∧ FirstFactor de (2 * b) ps fun p => 2 * b < p.prec ∨ p.val = 1

end RSA.Spec
