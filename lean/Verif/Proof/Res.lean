import Verif.Model.Prelude

namespace RSA
namespace Res
variable {α β : Type}

@[simp] theorem ok_bind (a : α) (f : α → Res β) : (Res.ok a >>= f) = f a := rfl
@[simp] theorem err_bind (e : Error) (f : α → Res β) : ((Res.err e : Res α) >>= f) = .err e := rfl
@[simp] theorem panic_bind (k : PanicKind) (f : α → Res β) : ((Res.panic k : Res α) >>= f) = .panic k := rfl
@[simp] theorem loop_bind (f : α → Res β) : ((Res.loop : Res α) >>= f) = .loop := rfl
@[simp] theorem pure_eq (a : α) : (pure a : Res α) = .ok a := rfl

theorem bind_eq_ok {x : Res α} {f : α → Res β} {b : β} :
    (x >>= f) = .ok b ↔ ∃ a, x = .ok a ∧ f a = .ok b := by
  cases x <;> simp

theorem bind_eq_err {x : Res α} {f : α → Res β} {e : Error} :
    (x >>= f) = .err e ↔ x = .err e ∨ ∃ a, x = .ok a ∧ f a = .err e := by
  cases x <;> simp

theorem bind_eq_panic {x : Res α} {f : α → Res β} {k : PanicKind} :
    (x >>= f) = .panic k ↔ x = .panic k ∨ ∃ a, x = .ok a ∧ f a = .panic k := by
  cases x <;> simp

theorem bind_eq_loop {x : Res α} {f : α → Res β} :
    (x >>= f) = .loop ↔ x = .loop ∨ ∃ a, x = .ok a ∧ f a = .loop := by
  cases x <;> simp

@[simp] theorem returns_ok (a : α) : (Res.ok a).Returns := trivial
@[simp] theorem returns_err (e : Error) : (Res.err e : Res α).Returns := trivial
@[simp] theorem not_returns_panic (k : PanicKind) : ¬ (Res.panic k : Res α).Returns := id
@[simp] theorem not_returns_loop : ¬ (Res.loop : Res α).Returns := id
@[simp] theorem not_panics_ok (a : α) : ¬ (Res.ok a).Panics := id
@[simp] theorem not_panics_err (e : Error) : ¬ (Res.err e : Res α).Panics := id
@[simp] theorem not_panics_loop : ¬ (Res.loop : Res α).Panics := id
@[simp] theorem panics_panic (k : PanicKind) : (Res.panic k : Res α).Panics := trivial

theorem Returns.bind {x : Res α} {f : α → Res β} (hx : x.Returns) (hf : ∀ a, x = .ok a → (f a).Returns) :
    (x >>= f).Returns := by
  cases x <;> simp_all

theorem not_panics_bind {x : Res α} {f : α → Res β} (hx : ¬ x.Panics) (hf : ∀ a, x = .ok a → ¬ (f a).Panics) :
    ¬ (x >>= f).Panics := by
  cases x <;> simp_all

end Res

theorem idx_of_lt {l : Bytes} {i : Nat} (h : i < l.length) : idx l i = .ok l[i] := by
  simp [idx, h]

theorem setIdx_of_lt {l : Bytes} {i : Nat} {b : UInt8} (h : i < l.length) : setIdx l i b = .ok (l.set i b) := by
  simp [setIdx, h]

theorem slice_of_le {l : Bytes} {lo hi : Nat} (h : lo ≤ hi) (h' : hi ≤ l.length) :
    slice l lo hi = .ok ((l.take hi).drop lo) := by
  simp [slice, h, h']

theorem sliceFrom_of_le {l : Bytes} {lo : Nat} (h : lo ≤ l.length) : sliceFrom l lo = .ok (l.drop lo) := by
  simp [sliceFrom, slice, h]

theorem copyInto_of_le {dst src : Bytes} {lo hi : Nat} (h : lo ≤ hi) (h' : hi ≤ dst.length)
    (hs : src.length = hi - lo) : copyInto dst lo hi src = .ok (dst.take lo ++ src ++ dst.drop hi) := by
  simp [copyInto, h, h', hs]

theorem splitAt_of_le {l : Bytes} {i : Nat} (h : i ≤ l.length) : RSA.splitAt l i = .ok (l.take i, l.drop i) := by
  simp [RSA.splitAt, h]

theorem subU_of_le {a b : Nat} (h : b ≤ a) : subU a b = .ok (a - b) := by simp [subU, h]

theorem addU_of_lt {a b : Nat} (h : a + b < 2 ^ 64) : addU a b = .ok (a + b) := by simp [addU, h]

end RSA
