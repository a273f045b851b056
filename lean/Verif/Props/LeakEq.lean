import Verif.Model.LeakEq
import Verif.Spec.LeakEq
import Verif.Proof.LeakKeyRes
import Verif.Props.ExampleKeys

/- C97: what comparing two keys with `==` shows. -/
namespace RSA
open BoxedUint Spec

namespace leak
open Leak

theorem andThen_ok {x y : Leak Bool} {c : Bool} (hx : x.res = .ok c) :
    (andThen x y).res = (if c then y.res else .ok false) ∧
    (andThen x y).ev = x.ev ++ .branch c :: (if c then y.ev else []) := by
  cases c <;> simp [andThen, branch, Bind.bind, Leak.bind, hx, emit, ofRes]

theorem cmp_eq_res (a b : BoxedUint) : (cmp "eq" BoxedUint.beq a b).res = .ok (a.beq b) := rfl

theorem cmp_eq_ev (a b : BoxedUint) : (cmp "eq" BoxedUint.beq a b).ev = [.bignum "eq" [a.nlimbs, b.nlimbs]] := rfl

theorem publicEq_res (a b : PublicKey) : (publicEq a b).res = .ok (a.eq b) := by
  unfold publicEq
  rw [(andThen_ok (cmp_eq_res a.n b.n)).1, cmp_eq_res]
  unfold PublicKey.eq
  cases a.n.beq b.n <;> rfl

theorem elementsEq_cons (a b : BoxedUint) (as bs : List BoxedUint) :
    (elementsEq (a :: as) (b :: bs)).res = (if a.beq b then (elementsEq as bs).res else .ok false) ∧
    (elementsEq (a :: as) (b :: bs)).ev =
      .bignum "eq" [a.nlimbs, b.nlimbs] :: .branch (!a.beq b) :: (if a.beq b then (elementsEq as bs).ev else []) := by
  cases h : a.beq b <;>
    simp [elementsEq, branch, Bind.bind, Leak.bind, cmp, bn, emit, ofRes, h]

theorem elementsEq_res : ∀ a b : List BoxedUint, a.length = b.length → (elementsEq a b).res = .ok (RSA.vecEq a b)
  | [], [], _ => rfl
  | a :: as, b :: bs, h => by
    rw [(elementsEq_cons a b as bs).1, elementsEq_res as bs (by simpa using h)]
    simp only [RSA.vecEq]
    cases a.beq b <;> rfl

theorem elementsEq_ev : ∀ a b : List BoxedUint, a.length = b.length →
    (elementsEq a b).ev =
      matchTrace (a.map (·.nlimbs)) (b.map (·.nlimbs)) (leading (a.map (·.val)) (b.map (·.val)))
  | [], [], _ => rfl
  | a :: as, b :: bs, h => by
    rw [(elementsEq_cons a b as bs).2, elementsEq_ev as bs (by simpa using h)]
    by_cases hv : a.val = b.val <;> simp [beq, leading, hv, matchTrace]

theorem vecEq_length : ∀ a b : List BoxedUint, a.length ≠ b.length → RSA.vecEq a b = false
  | [], [], h => absurd rfl h
  | [], _ :: _, _ => rfl
  | _ :: _, [], _ => rfl
  | a :: as, b :: bs, h => by
    simp only [RSA.vecEq, vecEq_length as bs (by simpa using h), Bool.and_false]

theorem vecEq_both (a b : List BoxedUint) :
    (vecEq a b).res = .ok (RSA.vecEq a b) ∧
    (vecEq a b).ev = .compare a.length b.length ::
      (if a.length = b.length then
        .branch false :: matchTrace (a.map (·.nlimbs)) (b.map (·.nlimbs)) (leading (a.map (·.val)) (b.map (·.val)))
      else [.branch true]) := by
  by_cases h : a.length = b.length
  · simp [vecEq, branch, Bind.bind, Leak.bind, emit, h, elementsEq_res a b h, elementsEq_ev a b h]
  · simp [vecEq, branch, Bind.bind, Leak.bind, emit, ofRes, h, vecEq_length a b h]

theorem privateEq_res (a b : PrivateKey) : (privateEq a b).res = .ok (a.eq b) := by
  unfold privateEq
  have h1 : (andThen (publicEq a.pub b.pub) (cmp "eq" BoxedUint.beq a.d b.d)).res =
      .ok (a.pub.eq b.pub && a.d.beq b.d) := by
    rw [(andThen_ok (publicEq_res a.pub b.pub)).1, cmp_eq_res]
    cases a.pub.eq b.pub <;> rfl
  rw [(andThen_ok h1).1, (vecEq_both _ _).1]
  unfold PrivateKey.eq
  cases (a.pub.eq b.pub && a.d.beq b.d) <;> rfl

theorem privateEq_ev (a b : PrivateKey) :
    (privateEq a b).ev = compareTrace (keySizes a) (keySizes b) (agreement a b) := by
  unfold privateEq
  have h1 : (andThen (publicEq a.pub b.pub) (cmp "eq" BoxedUint.beq a.d b.d)).res =
      .ok (a.pub.eq b.pub && a.d.beq b.d) := by
    rw [(andThen_ok (publicEq_res a.pub b.pub)).1, cmp_eq_res]
    cases a.pub.eq b.pub <;> rfl
  rw [(andThen_ok h1).2, (andThen_ok (publicEq_res a.pub b.pub)).2, (vecEq_both _ _).2]
  unfold publicEq
  rw [(andThen_ok (cmp_eq_res a.pub.n b.pub.n)).2, cmp_eq_ev, cmp_eq_ev, cmp_eq_ev]
  unfold PublicKey.eq agreement
  by_cases hn : a.pub.n.val = b.pub.n.val <;> by_cases he : a.pub.e.val = b.pub.e.val <;>
    by_cases hd : a.d.val = b.d.val <;> simp [beq, hn, he, hd, compareTrace, keySizes]

theorem leading_le : ∀ p q : List Nat, leading p q ≤ p.length
  | [], _ => Nat.le_refl 0
  | _ :: _, [] => Nat.zero_le _
  | p :: ps, q :: qs => by
    simp only [leading, List.length_cons]
    split
    · exact Nat.succ_le_succ (leading_le ps qs)
    · exact Nat.zero_le _

theorem matchTrace_inj : ∀ (p q : List Nat) (m m' : Nat), p.length = q.length → m ≤ p.length → m' ≤ p.length →
    matchTrace p q m = matchTrace p q m' → m = m'
  | [], [], m, m', _, hm, hm', _ => by simp at hm hm'; omega
  | p :: ps, q :: qs, 0, 0, _, _, _, _ => rfl
  | p :: ps, q :: qs, 0, m' + 1, _, _, _, h => by simp [matchTrace] at h
  | p :: ps, q :: qs, m + 1, 0, _, _, _, h => by simp [matchTrace] at h
  | p :: ps, q :: qs, m + 1, m' + 1, hl, hm, hm', h => by
    simp only [matchTrace, List.cons.injEq, true_and] at h
    rw [matchTrace_inj ps qs m m' (by simpa using hl) (by simpa using hm) (by simpa using hm') h]

end leak

/-- C97: recording the observations does not change what `==` answers. -/
theorem C97_same_program :
    (∀ a b : PublicKey, (leak.publicEq a b).res = .ok (a.eq b)) ∧
    (∀ a b : PrivateKey, (leak.privateEq a b).res = .ok (a.eq b)) :=
  ⟨leak.publicEq_res, leak.privateEq_res⟩

/-- C97: what comparing two private keys shows is a function of the storage sizes and of how far the two keys agree. -/
theorem C97_trace (a b : PrivateKey) :
    (leak.privateEq a b).ev = compareTrace (keySizes a) (keySizes b) (agreement a b) :=
  leak.privateEq_ev a b

/-- C97: if the moduli or the public exponents differ, it shows nothing of the private parts, not even their sizes: put any
other private parts in their place. -/
theorem C97_public_differs (a b : PrivateKey) (h : a.pub.n.val ≠ b.pub.n.val ∨ a.pub.e.val ≠ b.pub.e.val)
    (d d' : BoxedUint) (ps ps' : List BoxedUint) (c c' : Option Precomputed) :
    (leak.privateEq ⟨a.pub, d, ps, c⟩ ⟨b.pub, d', ps', c'⟩).ev = (leak.privateEq a b).ev := by
  rw [leak.privateEq_ev, leak.privateEq_ev]
  unfold agreement
  by_cases hn : a.pub.n.val = b.pub.n.val
  · have he : a.pub.e.val ≠ b.pub.e.val := h.resolve_left (fun x => x hn)
    simp [hn, he, compareTrace, keySizes]
  · simp [hn, compareTrace, keySizes]

/-- C97: the converse.  From what is seen one reads how far the keys agree: comparisons among keys of the same sizes look
the same only if they agree equally far, except that keys with different numbers of factors are told apart before any two
factors are looked at. -/
theorem C97_reads (a b a' b' : PrivateKey) (ha : keySizes a' = keySizes a) (hb : keySizes b' = keySizes b) :
    (leak.privateEq a b).ev = (leak.privateEq a' b').ev ↔
      agreement a b = agreement a' b' ∨
      (a.primes.length ≠ b.primes.length ∧ (∃ m, agreement a b = .factors m) ∧ ∃ m, agreement a' b' = .factors m) := by
  rw [leak.privateEq_ev, leak.privateEq_ev, ha, hb]
  have hla : (keySizes a).primes.length = a.primes.length := by simp [keySizes]
  have hlb : (keySizes b).primes.length = b.primes.length := by simp [keySizes]
  have hla' : a'.primes.length = a.primes.length := by
    have := congrArg (fun s => s.primes.length) ha
    simpa [keySizes] using this
  have bound : ∀ x y : PrivateKey, ∀ m, agreement x y = .factors m → m ≤ x.primes.length := by
    intro x y m h
    unfold agreement at h
    split at h
    · cases h
    split at h
    · cases h
    split at h
    · cases h
    cases h
    simpa using leak.leading_le (x.primes.map (·.val)) (y.primes.map (·.val))
  have b1 := bound a b
  have b2 := bound a' b'
  generalize agreement a b = g at b1 ⊢
  generalize agreement a' b' = g' at b2 ⊢
  constructor
  · intro h
    cases g <;> cases g' <;> first | exact Or.inl rfl | (simp [compareTrace] at h; done) | skip
    rename_i m m'
    by_cases hl : a.primes.length = b.primes.length
    · left
      have hl' : (keySizes a).primes.length = (keySizes b).primes.length := by rw [hla, hlb, hl]
      simp only [compareTrace, hl', if_true, List.append_cancel_left_eq, List.cons.injEq, true_and] at h
      rw [leak.matchTrace_inj _ _ m m' hl' (by rw [hla]; exact b1 m rfl) (by rw [hla, ← hla']; exact b2 m' rfl) h]
    · exact Or.inr ⟨hl, ⟨m, rfl⟩, ⟨m', rfl⟩⟩
  · rintro (h | ⟨hl, ⟨m, rfl⟩, ⟨m', rfl⟩⟩)
    · rw [h]
    · have hl' : (keySizes a).primes.length ≠ (keySizes b).primes.length := by rw [hla, hlb]; exact hl
      simp [compareTrace, hl']

/-- A key as `Ex.key` whose private exponent is another one. -/
private def otherD : PrivateKey := { Ex.key with d := wrap Ex.key.d.nlimbs (Ex.key.d.val + 2) }
/-- A key as `Ex.key` with its factors in the other order. -/
private def swapped : PrivateKey := { Ex.key with primes := Ex.key.primes.reverse }

example : agreement Ex.key Ex.key = .factors 2 ∧ agreement Ex.key otherD = .privateExponentDiffers ∧
    agreement Ex.key swapped = .factors 0 := by decide +kernel
example : (leak.privateEq Ex.key otherD).ev ≠ (leak.privateEq Ex.key swapped).ev := by decide +kernel
example : (leak.privateEq Ex.key Ex.key).res = .ok true ∧ (leak.privateEq Ex.key swapped).res = .ok false := by
  decide +kernel
example : keySizes Ex.key = keySizes otherD ∧ keySizes Ex.key = keySizes swapped := by decide +kernel
example : Ex.key.pub.n.val ≠ Ex.key3.pub.n.val ∨ Ex.key.pub.e.val ≠ Ex.key3.pub.e.val := by decide +kernel
example : (leak.privateEq Ex.key Ex.key3).ev =
    [.bignum "eq" [4, 3], .branch false, .branch false, .branch false] := by decide +kernel
/-- Three factors of which the first agrees. -/
example : agreement Ex.key3 { Ex.key3 with primes := Ex.key3.primes.take 1 ++ (Ex.key3.primes.drop 1).reverse } =
    .factors 1 := by decide +kernel

end RSA
