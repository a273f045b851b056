import Verif.Model.LeakKey
import Verif.Spec.LeakKey
import Verif.Proof.Leak
import Verif.Proof.Bytes

/- Lemmas for C89: a run of the key building routines shows what its operand sizes say, up to where it stops. -/
namespace RSA
open BoxedUint

namespace CutOff

theorem nil (full : List Ev) : Spec.CutOff full [] := Or.inl List.nil_prefix

theorem refl (full : List Ev) : Spec.CutOff full full := Or.inl (List.prefix_refl _)

theorem flip (b : Bool) (full : List Ev) : Spec.CutOff (.branch b :: full) [.branch (!b)] :=
  Or.inr ⟨[], b, by simp, rfl⟩

theorem cons {full seen : List Ev} (e : Ev) (h : Spec.CutOff full seen) : Spec.CutOff (e :: full) (e :: seen) := by
  rcases h with h | ⟨pre, b, h, rfl⟩
  · exact Or.inl ((List.prefix_cons_inj e).mpr h)
  · exact Or.inr ⟨e :: pre, b, (List.prefix_cons_inj e).mpr h, rfl⟩

theorem append {full seen : List Ev} (a : List Ev) (h : Spec.CutOff full seen) : Spec.CutOff (a ++ full) (a ++ seen) := by
  induction a with
  | nil => exact h
  | cons e a ih => exact cons e ih

theorem more {full seen : List Ev} (b : List Ev) (h : Spec.CutOff full seen) : Spec.CutOff (full ++ b) seen := by
  rcases h with h | ⟨pre, c, h, rfl⟩
  · exact Or.inl (h.trans (List.prefix_append _ _))
  · exact Or.inr ⟨pre, c, h.trans (List.prefix_append _ _), rfl⟩

end CutOff

namespace leak
open Leak
variable {α β : Type}

/-- `x` shows `full` and its result has `P` if it succeeds; otherwise it shows `full` cut off. -/
structure Along (x : Leak α) (full : List Ev) (P : α → Prop) : Prop where
  ok : ∀ a, x.res = .ok a → x.ev = full ∧ P a
  cut : (∀ a, x.res ≠ .ok a) → Spec.CutOff full x.ev

theorem Along.seen {x : Leak α} {full : List Ev} {P : α → Prop} (h : Along x full P) : Spec.CutOff full x.ev := by
  by_cases hx : ∃ a, x.res = .ok a
  · obtain ⟨a, ha⟩ := hx
    rw [(h.ok a ha).1]; exact CutOff.refl _
  · exact h.cut fun a ha => hx ⟨a, ha⟩

theorem Along.done {a : α} {P : α → Prop} (h : P a) : Along (ofRes (.ok a)) [] P :=
  ⟨fun b hb => by cases hb; exact ⟨rfl, h⟩, fun h => absurd rfl (h a)⟩

theorem Along.fail {r : Res α} (h : ∀ a, r ≠ .ok a) (full : List Ev) (P : α → Prop) : Along (ofRes r) full P :=
  ⟨fun a ha => absurd ha (h a), fun _ => CutOff.nil _⟩

theorem Along.bind {x : Leak α} {f : α → Leak β} {A B : List Ev} {P : α → Prop} {Q : β → Prop} (hx : Along x A P)
    (hf : ∀ a, P a → Along (f a) B Q) : Along (x >>= f) (A ++ B) Q := by
  rcases x with ⟨e, r⟩
  rcases r with a | er | k | _
  · obtain ⟨rfl, hp⟩ := hx.ok a rfl
    have hb := hf a hp
    refine ⟨fun b hb' => ?_, fun hn => ?_⟩
    · obtain ⟨h1, h2⟩ := hb.ok b hb'
      exact ⟨congrArg (e ++ ·) h1, h2⟩
    · exact CutOff.append _ (hb.cut hn)
  · exact ⟨fun b hb => (by cases hb), fun _ => CutOff.more _ (hx.cut fun a h => by cases h)⟩
  · exact ⟨fun b hb => (by cases hb), fun _ => CutOff.more _ (hx.cut fun a h => by cases h)⟩
  · exact ⟨fun b hb => (by cases hb), fun _ => CutOff.more _ (hx.cut fun a h => by cases h)⟩

theorem Along.last {x : Leak α} {f : α → Leak β} {A : List Ev} {P : α → Prop} {Q : β → Prop} (hx : Along x A P)
    (hf : ∀ a, P a → Along (f a) [] Q) : Along (x >>= f) A Q := by
  have := hx.bind hf
  rwa [List.append_nil] at this

theorem Along.mono {x : Leak α} {A : List Ev} {P Q : α → Prop} (hx : Along x A P) (h : ∀ a, P a → Q a) : Along x A Q :=
  ⟨fun a ha => ⟨(hx.ok a ha).1, h a (hx.ok a ha).2⟩, hx.cut⟩

theorem Along.emit {x : Unit → Leak α} {e e' : Ev} {A : List Ev} {P : α → Prop} (he : e = e') (hx : Along (x ()) A P) :
    Along (Leak.emit e >>= x) (e' :: A) P := by
  subst he
  refine ⟨fun a ha => ?_, fun hn => ?_⟩
  · obtain ⟨h1, h2⟩ := hx.ok a ha
    exact ⟨congrArg (e :: ·) h1, h2⟩
  · exact CutOff.cons e (hx.cut hn)

theorem Along.guardNot {c : Bool} {fail : Res α} {next : Leak α} {A : List Ev} {P : α → Prop} (hf : ∀ a, fail ≠ .ok a)
    (h : Along next A P) : Along (guardNot c fail next) (.branch false :: A) P := by
  unfold leak.guardNot branch
  cases c with
  | false => exact Along.emit (by simp) (by simpa using h)
  | true =>
    refine ⟨fun a ha => absurd ha (hf a), fun _ => ?_⟩
    exact CutOff.flip false A

theorem Along.check {o : Option α} {fail : Res α} {f : α → Leak β} {A : List Ev} {Q : β → Prop} (hf : ∀ a, fail ≠ .ok a)
    (h : ∀ a, o = some a → Along (f a) A Q) : Along (check o fail >>= f) (.branch true :: A) Q := by
  cases o with
  | some a => exact Along.emit (x := fun _ => f a) rfl (h a rfl)
  | none =>
    have hr : (leak.check none fail >>= f).ev = [.branch false] := by
      cases fail with
      | ok a => exact absurd rfl (hf a)
      | _ => rfl
    refine ⟨fun b hb => ?_, fun _ => ?_⟩
    · cases fail with
      | ok a => exact absurd rfl (hf a)
      | _ => cases hb
    · rw [hr]; exact CutOff.flip true A

/-- A call into the bignum crate followed by the rest of the program. -/
theorem Along.bn {name : String} {s s' : List Nat} {f : Unit → Leak α} {A : List Ev} {P : α → Prop} (hs : s = s')
    (h : Along (f ()) A P) : Along (leak.bn name s >>= f) (.bignum name s' :: A) P :=
  Along.emit (by rw [hs]) h

theorem Along.res {e e' : Ev} {r : Res α} {f : α → Leak β} {A : List Ev} {Q : β → Prop} (he : e = e')
    (h : ∀ a, r = .ok a → Along (f a) A Q) : Along ((Leak.emit e >>= fun _ => ofRes r) >>= f) (e' :: A) Q := by
  have h1 : Along (Leak.emit e >>= fun _ => ofRes r) [e'] (fun a => r = .ok a) := by
    refine Along.emit he ⟨fun a ha => ⟨rfl, ha⟩, fun _ => CutOff.nil _⟩
  exact h1.bind h

variable {x y : BoxedUint} {a b : Nat} {A : List Ev} {Q : β → Prop}

theorem Along.op {name : String} {g : BoxedUint → BoxedUint → BoxedUint} {f : BoxedUint → Leak β} (hx : x.nlimbs = a)
    (hy : y.nlimbs = b) (h : Along (f (g x y)) A Q) : Along (op name g x y >>= f) (.bignum name [a, b] :: A) Q :=
  Along.res (by rw [hx, hy]) fun r hr => by cases hr; exact h

theorem Along.mul {f : BoxedUint → Leak β} (hx : x.nlimbs = a) (hy : y.nlimbs = b)
    (h : ∀ r : BoxedUint, r.nlimbs = a + b → Along (f r) A Q) :
    Along (leak.op "mul" BoxedUint.mul x y >>= f) (.bignum "mul" [a, b] :: A) Q :=
  Along.op hx hy (h _ (by rw [← hx, ← hy]; rfl))

theorem Along.div {f : BoxedUint → Leak β} (hx : x.nlimbs = a) (hy : y.nlimbs = b)
    (h : ∀ r : BoxedUint, r.nlimbs = a → Along (f r) A Q) :
    Along (leak.op "div" BoxedUint.div x y >>= f) (.bignum "div" [a, b] :: A) Q :=
  Along.op hx hy (h _ hx)

theorem Along.rem {name : String} {f : BoxedUint → Leak β} (hx : x.nlimbs = a) (hy : y.nlimbs = b)
    (h : ∀ r : BoxedUint, r.nlimbs = b → Along (f r) A Q) :
    Along (leak.op name BoxedUint.rem x y >>= f) (.bignum name [a, b] :: A) Q :=
  Along.op hx hy (h _ hy)

theorem Along.gcd {f : BoxedUint → Leak β} (hx : x.nlimbs = a) (hy : y.nlimbs = b)
    (h : ∀ r : BoxedUint, r.nlimbs = max a b → Along (f r) A Q) :
    Along (leak.op "gcd" BoxedUint.gcd x y >>= f) (.bignum "gcd" [a, b] :: A) Q :=
  Along.op hx hy (h _ (by rw [← hx, ← hy]; rfl))

theorem Along.wmul {f : BoxedUint → Leak β} (hx : x.nlimbs = a) (hy : y.nlimbs = b)
    (h : ∀ r : BoxedUint, r.nlimbs = a → Along (f r) A Q) :
    Along (leak.op "wrapping_mul" BoxedUint.wrappingMul x y >>= f) (.bignum "wrapping_mul" [a, b] :: A) Q :=
  Along.op hx hy (h _ hx)

theorem Along.wsub {f : BoxedUint → Leak β} (hx : x.nlimbs = a) (hy : y.nlimbs = b)
    (h : ∀ r : BoxedUint, r.nlimbs = a → Along (f r) A Q) :
    Along (leak.op "wrapping_sub" BoxedUint.wrappingSub x y >>= f) (.bignum "wrapping_sub" [a, b] :: A) Q :=
  Along.op hx hy (h _ hx)

theorem Along.square {f : BoxedUint → Leak β} (hx : x.nlimbs = a)
    (h : ∀ r : BoxedUint, r.nlimbs = a + a → Along (f r) A Q) :
    Along (leak.op1 "square" BoxedUint.square x >>= f) (.bignum "square" [a] :: A) Q :=
  Along.res (by rw [hx]) fun r hr => by cases hr; exact h _ (by rw [← hx]; rfl)

theorem Along.sqrt {f : BoxedUint → Leak β} (hx : x.nlimbs = a)
    (h : ∀ r : BoxedUint, r.nlimbs = a → Along (f r) A Q) :
    Along (leak.op1 "sqrt" BoxedUint.sqrt x >>= f) (.bignum "sqrt" [a] :: A) Q :=
  Along.res (by rw [hx]) fun r hr => by cases hr; exact h _ hx

theorem Along.cmp {name : String} {g : BoxedUint → BoxedUint → Bool} {f : Bool → Leak β} (hx : x.nlimbs = a)
    (hy : y.nlimbs = b) (h : ∀ c, Along (f c) A Q) : Along (leak.cmp name g x y >>= f) (.bignum name [a, b] :: A) Q :=
  Along.res (by rw [hx, hy]) fun r _ => h r

theorem Along.test {name : String} {g : BoxedUint → Bool} {f : Bool → Leak β} (hx : x.nlimbs = a)
    (h : ∀ c, Along (f c) A Q) : Along (leak.test name g x >>= f) (.bignum name [a] :: A) Q :=
  Along.res (by rw [hx]) fun r _ => h r

theorem Along.sub {f : BoxedUint → Leak β} (hx : x.nlimbs = a) (hy : y.nlimbs = b)
    (h : ∀ r : BoxedUint, r.nlimbs = max a b → Along (f r) A Q) :
    Along (leak.sub x y >>= f) (.bignum "sub" [a, b] :: A) Q :=
  Along.res (by rw [hx, hy]) fun r hr => h r (by
    unfold BoxedUint.sub at hr
    split at hr <;> cases hr
    rw [← hx, ← hy]; rfl)

theorem Along.add {f : BoxedUint → Leak β} (hx : x.nlimbs = a) (hy : y.nlimbs = b)
    (h : ∀ r : BoxedUint, r.nlimbs = max a b → Along (f r) A Q) :
    Along (leak.add x y >>= f) (.bignum "add" [a, b] :: A) Q :=
  Along.res (by rw [hx, hy]) fun r hr => h r (by
    unfold BoxedUint.add at hr
    split at hr <;> cases hr
    rw [← hx, ← hy]; rfl)

theorem Along.widen {bits b : Nat} {f : BoxedUint → Leak β} (hx : x.nlimbs = a) (hb : bits = b)
    (h : ∀ r : BoxedUint, r.nlimbs = max 1 ((b + 63) / 64) → Along (f r) A Q) :
    Along (leak.widen x bits >>= f) (.bignum "widen" [a, b] :: A) Q :=
  Along.res (by rw [hx, hb]) fun r hr => h r (by
    unfold BoxedUint.widen at hr
    split at hr <;> cases hr
    rw [← hb]; rfl)

theorem bind_assoc' {α β γ : Type} (x : Leak α) (f : α → Leak β) (g : β → Leak γ) :
    ((x >>= f) >>= g) = (x >>= fun a => f a >>= g) := by
  rcases x with ⟨e, r⟩
  rcases r with a | _ | _ | _
  · simp only [Leak.bind_def, Leak.bind]
    rcases f a with ⟨e', r'⟩
    rcases r' with a' | _ | _ | _ <;> simp
  · rfl
  · rfl
  · rfl

theorem Along.nonZero {fail : Res BoxedUint} {f : BoxedUint → Leak β} (hf : ∀ a, fail ≠ .ok a) (hx : x.nlimbs = a)
    (h : ∀ r : BoxedUint, r.nlimbs = a → Along (f r) A Q) :
    Along ((leak.bn "NonZero::new" [x.nlimbs] >>= fun _ => leak.check x.nonZero fail) >>= f)
      (.bignum "NonZero::new" [a] :: .branch true :: A) Q := by
  rw [bind_assoc']
  refine Along.bn (by rw [hx]) (Along.check hf fun r hr => h r ?_)
  unfold BoxedUint.nonZero at hr
  split at hr <;> cases hr
  exact hx

theorem Along.expectNonZero {f : BoxedUint → Leak β} (hx : x.nlimbs = a)
    (h : ∀ r : BoxedUint, r.nlimbs = a → Along (f r) A Q) :
    Along (leak.expectNonZero x >>= f) (.bignum "NonZero::new" [a] :: .branch true :: A) Q :=
  Along.nonZero (fun _ h => by cases h) hx h

theorem Along.nonZeroOrInvalid {f : BoxedUint → Leak β} (hx : x.nlimbs = a)
    (h : ∀ r : BoxedUint, r.nlimbs = a → Along (f r) A Q) :
    Along (leak.nonZeroOrInvalid x >>= f) (.bignum "NonZero::new" [a] :: .branch true :: A) Q :=
  Along.nonZero (fun _ h => by cases h) hx h

theorem oddNew_some {x : BoxedUint} {o : OddUint} (h : OddUint.new x = some o) : o.toBoxedUint = x := by
  unfold OddUint.new at h
  split at h <;> cases h
  rfl

theorem Along.oddOrInvalid {f : OddUint → Leak β} (hx : x.nlimbs = a)
    (h : ∀ r : OddUint, r.toBoxedUint.nlimbs = a → Along (f r) A Q) :
    Along (leak.oddOrInvalid x >>= f) (.bignum "Odd::new" [a] :: .branch true :: A) Q := by
  unfold leak.oddOrInvalid
  rw [bind_assoc']
  exact Along.bn (by rw [hx]) (Along.check (fun _ h => by cases h) fun r hr => h r (by rw [oddNew_some hr, hx]))

theorem Along.montyParams {o : OddUint} {f : MontyParams → Leak β} (ho : o.toBoxedUint.nlimbs = a)
    (h : ∀ r : MontyParams, limbsOf r = a → r.modulus = o → Along (f r) A Q) :
    Along (leak.montyParams o >>= f) (.bignum "BoxedMontyParams::new" [a] :: A) Q :=
  Along.res (by rw [ho]) fun r hr => by cases hr; exact h ⟨o⟩ ho rfl

theorem Along.montyNew {p : MontyParams} {f : MontyForm → Leak β} (hx : x.nlimbs = a) (hp : limbsOf p = b)
    (h : ∀ r : MontyForm, limbsOf r.params = b → Along (f r) A Q) :
    Along (leak.montyNew x p >>= f) (.bignum "BoxedMontyForm::new" [a, b] :: A) Q :=
  Along.res (by rw [hx, hp]) fun r hr => h r (by
    unfold MontyForm.new at hr
    split at hr <;> cases hr
    exact hp)

theorem Along.primeAt {l : List BoxedUint} {i : Nat} {f : BoxedUint → Leak β}
    (h : ∀ r : BoxedUint, l[i]? = some r → Along (f r) A Q) :
    Along (leak.primeAt l i >>= f) (.read l.length i :: A) Q :=
  Along.res rfl fun r hr => h r (by
    unfold RSA.primeAt at hr
    split at hr
    · next p hp => cases hr; exact hp
    · cases hr)

theorem Along.debugAssert {c : Bool} {f : Unit → Leak β} (h : Along (f ()) A Q) :
    Along (leak.debugAssert c >>= f) (.branch true :: A) Q := by
  unfold leak.debugAssert branch
  cases c with
  | true => exact Along.emit (x := f) (by simp) h
  | false =>
    refine ⟨fun a ha => (by cases ha), fun _ => ?_⟩
    exact CutOff.flip true A

theorem Along.invMod (hx : x.nlimbs = a) (hy : y.nlimbs = b) :
    Along (leak.invMod x y) [.bignum "inv_mod" [a, b], .branch true] (fun r => r.nlimbs = b) := by
  have : leak.invMod x y = (leak.invMod x y >>= fun r => ofRes (.ok r)) := by
    rcases leak.invMod x y with ⟨e, r⟩
    rcases r with _ | _ | _ | _ <;> simp [Leak.bind_def, Leak.bind]
  rw [this]
  unfold leak.invMod
  rw [bind_assoc']
  refine Along.bn (by rw [hx, hy]) (Along.check (fun _ h => by cases h) fun r hr => Along.done ?_)
  unfold BoxedUint.invMod at hr
  obtain ⟨v, -, rfl⟩ := Option.map_eq_some_iff.mp hr
  exact hy

theorem noErr {e : Error} {a : α} : (Res.err e : Res α) ≠ .ok a := fun h => by cases h

/-! ### The routines -/

theorem checkPublic_along (n e : BoxedUint) (sz : Nat) :
    Along (checkPublicWithMaxSize n e sz) (Spec.checkPublicTrace n.nlimbs e.nlimbs) (fun _ => True) := by
  unfold checkPublicWithMaxSize Spec.checkPublicTrace
  refine Along.guardNot (fun _ => noErr) ?_
  refine Along.cmp rfl rfl fun _ => Along.guardNot (fun _ => noErr) ?_
  refine Along.test rfl fun _ => Along.guardNot (fun _ => noErr) ?_
  refine Along.test rfl fun _ => Along.guardNot (fun _ => noErr) ?_
  refine Along.test rfl fun _ => Along.guardNot (fun _ => noErr) ?_
  refine Along.cmp rfl rfl fun _ => Along.guardNot (fun _ => noErr) ?_
  refine Along.cmp rfl rfl fun _ => Along.guardNot (fun _ => noErr) ?_
  exact Along.done trivial

theorem validateProduct_along (w : Nat) : ∀ (ps : List BoxedUint) (m : BoxedUint), m.nlimbs = w →
    Along (validateProduct ps m) (Spec.productTrace w (ps.map (·.nlimbs))) (fun r => r.nlimbs = w)
  | [], m, hm => Along.done hm
  | p :: ps, m, hm => by
    rw [validateProduct]
    simp only [Spec.productTrace, List.map_cons, List.flatMap_cons, List.cons_append, List.nil_append]
    refine Along.cmp rfl rfl fun _ => Along.guardNot (fun _ => noErr) ?_
    exact Along.wmul hm rfl fun r hr => validateProduct_along w ps r hr

theorem validateExponents_along (w : Nat) (hw : 1 ≤ w) (de : BoxedUint) (hde : de.nlimbs = w) (dp : Nat) (hdp : dp = 64 * w) :
    ∀ ps : List BoxedUint, Along (validateExponents de dp ps) (Spec.exponentsTrace w (ps.map (·.nlimbs))) (fun _ => True)
  | [] => Along.done trivial
  | p :: ps => by
    rw [validateExponents]
    simp only [Spec.exponentsTrace, List.map_cons, List.flatMap_cons, List.cons_append, List.nil_append]
    refine Along.widen rfl hdp fun r hr => ?_
    refine Along.wsub (by omega) rfl fun r hr => ?_
    refine Along.expectNonZero hr fun r hr => ?_
    refine Along.rem hde hr fun r hr => ?_
    refine Along.test hr fun _ => Along.guardNot (fun _ => noErr) ?_
    exact validateExponents_along w hw de hde dp hdp ps

theorem validate_along (k : PrivateKey) :
    Along (validate k) (Spec.validateTrace k.pub.n.nlimbs k.pub.e.nlimbs k.d.nlimbs (k.primes.map (·.nlimbs)))
      (fun _ => True) := by
  unfold validate Spec.validateTrace leak.checkPublic
  simp only [List.append_assoc]
  refine (checkPublic_along _ _ _).bind fun _ _ => ?_
  refine (validateProduct_along (max 1 k.pub.n.nlimbs) _ _ ?_).bind fun m hm => ?_
  · show limbsFor (64 * k.pub.n.nlimbs) = _
    unfold limbsFor; omega
  simp only [List.cons_append, List.nil_append]
  refine Along.cmp hm rfl fun _ => Along.guardNot (fun _ => noErr) ?_
  refine Along.widen rfl rfl fun d hd => ?_
  have hd' : d.nlimbs = max 1 (2 * k.d.nlimbs) := by omega
  refine Along.wmul hd' rfl fun de hde => ?_
  exact validateExponents_along _ (by omega) de hde _ (by unfold prec; rw [hd']) _

theorem precomputeValues_along (d : BoxedUint) (p q : BoxedUint) (ps : List BoxedUint) :
    Along (precomputeValues d (p :: q :: ps)) (Spec.precomputeTrace d.nlimbs (ps.length + 2) p.nlimbs q.nlimbs).tail
      (fun _ => True) := by
  unfold precomputeValues Spec.precomputeTrace
  simp only [List.tail_cons]
  refine Along.primeAt fun r hr => ?_
  cases hr
  refine Along.widen rfl rfl fun p' hp => ?_
  refine Along.primeAt fun r hr => ?_
  cases hr
  refine Along.widen rfl rfl fun q' hq => ?_
  refine Along.oddOrInvalid (by omega) fun po hpo => ?_
  refine Along.montyParams hpo fun pp hpp _ => ?_
  refine Along.oddOrInvalid (by omega) fun qo hqo => ?_
  refine Along.montyParams hqo fun qp hqp _ => ?_
  refine Along.wsub (by omega) rfl fun x hx => ?_
  refine Along.nonZeroOrInvalid hx fun x hx => ?_
  refine Along.rem rfl hx fun dp hdp => ?_
  refine Along.wsub (by omega) rfl fun x hx => ?_
  refine Along.nonZeroOrInvalid hx fun x hx => ?_
  refine Along.rem rfl hx fun dq hdq => ?_
  refine Along.montyNew (by omega) hpp fun qm hqm => ?_
  refine Along.bn (by rw [hqm]) (Along.check (fun _ => noErr) fun qi hqi => ?_)
  refine Along.debugAssert (Along.debugAssert (Along.debugAssert (Along.debugAssert (Along.debugAssert ?_))))
  exact Along.done trivial

theorem precompute_along (k : PrivateKey) (p q : BoxedUint) (ps : List BoxedUint) (hk : k.primes = p :: q :: ps)
    (hn : k.precomputed = none) :
    Along (precompute k) (Spec.precomputeTrace k.d.nlimbs (ps.length + 2) p.nlimbs q.nlimbs)
      (fun k' => k'.precomputed.isSome) := by
  have h := precomputeValues_along k.d p q ps
  unfold precompute
  rw [hn, hk]
  have h2 : Along (precomputeValues k.d (p :: q :: ps) >>= fun v => ofRes (.ok { k with precomputed := some v }))
      (Spec.precomputeTrace k.d.nlimbs (ps.length + 2) p.nlimbs q.nlimbs).tail (fun k' => k'.precomputed.isSome) :=
    Along.last h fun v _ => Along.done rfl
  unfold leak.guardNot branch
  rw [if_neg (by simp)]
  rw [hk] at h2
  exact Along.emit (by simp) h2

theorem recoverPrimes_along (n e d : BoxedUint) :
    Along (recoverPrimes n e d) (Spec.recoverTrace n.nlimbs e.nlimbs d.nlimbs)
      (fun r => r.1.nlimbs = 16 * max 1 (2 * d.nlimbs) ∧ r.2.nlimbs = 16 * max 1 (2 * d.nlimbs)) := by
  unfold recoverPrimes Spec.recoverTrace
  obtain ⟨w, hw⟩ : ∃ w, w = max 1 (2 * d.nlimbs) := ⟨_, rfl⟩
  simp only [← hw]
  have hb : ∀ r : BoxedUint, r.nlimbs = max 1 ((64 * d.nlimbs * 2 + 63) / 64) → r.nlimbs = w := by intro r hr; omega
  refine Along.cmp rfl rfl fun _ => Along.guardNot (fun _ => noErr) ?_
  refine Along.widen rfl rfl fun one h1 => ?_
  replace h1 := hb _ h1
  refine Along.widen rfl rfl fun e' he => ?_
  replace he := hb _ he
  refine Along.widen rfl rfl fun d' hd => ?_
  replace hd := hb _ hd
  refine Along.widen rfl rfl fun n' hn => ?_
  replace hn := hb _ hn
  refine Along.mul hd he fun de hde => ?_
  refine Along.sub (by omega) h1 fun a1 ha1 => ?_
  refine Along.sub hn h1 fun n1 hn1 => ?_
  refine Along.gcd (by omega) (by omega) fun a2 ha2 => ?_
  refine Along.mul (by omega) (by omega) fun aa haa => ?_
  refine Along.widen hn (by unfold prec; omega) fun n2 hn2 => ?_
  refine Along.expectNonZero (by omega) fun nz hnz => ?_
  refine Along.div (by omega) hnz fun m hm => ?_
  refine Along.mul hm (by omega) fun mn hmn => ?_
  refine Along.sub (by omega) (by omega) fun r hr => ?_
  refine Along.sub (by omega) (by omega) fun num hnum => ?_
  refine Along.add (by omega) (by omega) fun m1 hm1 => ?_
  refine Along.expectNonZero (by omega) fun den hden => ?_
  refine Along.rem (by omega) hden fun mc hmc => ?_
  refine Along.test hmc fun _ => Along.guardNot (fun _ => noErr) ?_
  refine Along.sub (by omega) (by omega) fun num hnum => ?_
  refine Along.add (by omega) (by omega) fun m1 hm1 => ?_
  refine Along.expectNonZero (by omega) fun den hden => ?_
  refine Along.div (by omega) hden fun b0 hb0 => ?_
  refine Along.add (by omega) (by omega) fun b hb => ?_
  refine Along.mul (b := 1) (by omega) rfl fun fn hfn => ?_
  refine Along.square (by omega) fun bs hbs => ?_
  refine Along.cmp (by omega) (by omega) fun _ => Along.guardNot (fun _ => noErr) ?_
  refine Along.sub (by omega) (by omega) fun df hdf => ?_
  refine Along.sqrt (by omega) fun y hy => ?_
  refine Along.square (by omega) fun ys hys => ?_
  refine Along.cmp (by omega) (by omega) fun _ => Along.guardNot (fun _ => noErr) ?_
  refine Along.expectNonZero rfl fun two htwo => ?_
  refine Along.widen htwo (by unfold prec; omega) fun two htwo => ?_
  refine Along.add (by omega) (by omega) fun s hs => ?_
  refine Along.div (by omega) (by omega) fun p hp => ?_
  refine Along.sub (by omega) (by omega) fun t ht => ?_
  refine Along.div (by omega) (by omega) fun q hq => ?_
  exact Along.done ⟨by omega, by omega⟩

theorem productLoop_along : ∀ (ps : List BoxedUint) (out : BoxedUint),
    Along (productLoop ps out) (Spec.factorsTrace out.nlimbs (ps.map (·.nlimbs)))
      (fun r => r.nlimbs = out.nlimbs + (ps.map (·.nlimbs)).sum)
  | [], out => Along.done (by simp)
  | p :: ps, out => by
    rw [productLoop]
    simp only [List.map_cons, Spec.factorsTrace, List.sum_cons]
    refine Along.mul rfl rfl fun r hr => ?_
    have := productLoop_along ps r
    rw [hr] at this
    exact this.mono fun x hx => by omega

theorem computeModulus_along (ps : List BoxedUint) :
    Along (computeModulus ps) (Spec.modulusTrace (ps.map (·.nlimbs)))
      (fun r => r.toBoxedUint.nlimbs = (ps.map (·.nlimbs)).sum) := by
  cases ps with
  | nil => exact Along.fail (fun _ h => by cases h) _ _
  | cons p ps =>
    have e : ∀ out : BoxedUint, check (OddUint.new out) (.panic .unwrap) =
        (check (OddUint.new out) (.panic .unwrap) >>= fun o => ofRes (.ok o)) := by
      intro out
      rcases OddUint.new out with _ | o <;> rfl
    simp only [computeModulus, List.map_cons, Spec.modulusTrace, List.sum_cons]
    refine (productLoop_along ps p).bind fun out ho => ?_
    rw [e]
    refine Along.bn (by rw [ho]) (Along.check (fun _ h => by cases h) fun o hoo => Along.done ?_)
    rw [oddNew_some hoo, ho]

theorem totientLoop_along : ∀ (ps : List BoxedUint) (t : BoxedUint),
    Along (totientLoop ps t) (Spec.totientTrace t.nlimbs (ps.map (·.nlimbs)))
      (fun r => r.nlimbs = t.nlimbs + ((ps.map (·.nlimbs)).map (max · 1)).sum)
  | [], t => Along.done (by simp)
  | p :: ps, t => by
    rw [totientLoop]
    simp only [List.map_cons, Spec.totientTrace, List.sum_cons]
    refine Along.sub rfl rfl fun p1 hp1 => ?_
    refine Along.mul rfl hp1 fun r hr => ?_
    have := totientLoop_along ps r
    rw [hr] at this
    exact this.mono fun x hx => by omega

theorem totientSize_pos (ps : List Nat) : 1 ≤ Spec.totientSize ps := by
  unfold Spec.totientSize; omega

theorem euler_along (ps : List BoxedUint) (e : BoxedUint) :
    Along (computePrivateExponentEulerTotient ps e) (Spec.eulerTrace (ps.map (·.nlimbs)) e.nlimbs)
      (fun r => r.nlimbs = Spec.totientSize (ps.map (·.nlimbs))) := by
  unfold computePrivateExponentEulerTotient Spec.eulerTrace
  rw [List.length_map, List.append_assoc]
  refine Along.guardNot (fun _ => noErr) ?_
  refine Along.primeAt fun p0 hp0 => ?_
  cases ps with
  | nil => cases hp0
  | cons p ps =>
    cases hp0
    have h1 : (oneWithPrecision p0.prec).nlimbs = max 1 p0.nlimbs := by
      show limbsFor (64 * p0.nlimbs) = _
      unfold limbsFor; omega
    have h := totientLoop_along (p0 :: ps) (oneWithPrecision p0.prec)
    rw [h1] at h
    refine h.bind fun t ht => ?_
    replace ht : t.nlimbs = Spec.totientSize ((p0 :: ps).map (·.nlimbs)) := ht
    have hp := totientSize_pos ((p0 :: ps).map (·.nlimbs))
    refine Along.widen rfl (by unfold prec; rw [ht]) fun e' he => ?_
    exact Along.invMod (by omega) ht

theorem carmichael_along (p q e : BoxedUint) :
    Along (computePrivateExponentCarmichael p q e) (Spec.carmichaelTrace p.nlimbs q.nlimbs e.nlimbs)
      (fun r => r.nlimbs = max p.nlimbs 1 + max q.nlimbs 1) := by
  unfold computePrivateExponentCarmichael Spec.carmichaelTrace
  refine Along.sub rfl rfl fun p1 hp1 => ?_
  refine Along.sub rfl rfl fun q1 hq1 => ?_
  refine Along.gcd hp1 hq1 fun g hg => ?_
  refine Along.expectNonZero hg fun g hg => ?_
  refine Along.div hp1 hg fun x hx => ?_
  refine Along.mul hx hq1 fun l hl => ?_
  refine Along.widen rfl (by unfold prec; rw [hl]) fun e' he => ?_
  exact Along.invMod (by omega) hl

/-! ### Runs that may also give up without failing -/

/-- `x` shows `full` cut off, and all of `full` if it succeeds with a result that has `P`; `Q` is known of such a result. -/
structure Mostly {α : Type} (x : Leak α) (full : List Ev) (P Q : α → Prop) : Prop where
  seen : Spec.CutOff full x.ev
  ok : ∀ a, x.res = .ok a → P a → x.ev = full ∧ Q a

theorem Along.mostly {α : Type} {x : Leak α} {full : List Ev} {Q : α → Prop} (P : α → Prop) (h : Along x full Q) :
    Mostly x full P Q := ⟨h.seen, fun a ha _ => h.ok a ha⟩

theorem Along.bindMostly {α β : Type} {x : Leak α} {f : α → Leak β} {A B : List Ev} {P : α → Prop} {Q R : β → Prop}
    (hx : Along x A P) (hf : ∀ a, P a → Mostly (f a) B Q R) : Mostly (x >>= f) (A ++ B) Q R := by
  rcases x with ⟨e, r⟩
  rcases r with a | er | k | _
  · obtain ⟨rfl, hp⟩ := hx.ok a rfl
    have hb := hf a hp
    refine ⟨CutOff.append _ hb.seen, fun b hb' hq => ?_⟩
    obtain ⟨h1, h2⟩ := hb.ok b hb' hq
    exact ⟨congrArg (e ++ ·) h1, h2⟩
  · exact ⟨CutOff.more _ (hx.cut fun a h => by cases h), fun b hb => (by cases hb)⟩
  · exact ⟨CutOff.more _ (hx.cut fun a h => by cases h), fun b hb => (by cases hb)⟩
  · exact ⟨CutOff.more _ (hx.cut fun a h => by cases h), fun b hb => (by cases hb)⟩

theorem Mostly.bind {α β : Type} {x : Leak α} {f : α → Leak β} {A B : List Ev} {P R : α → Prop} {Q S : β → Prop}
    (hx : Mostly x A P R) (hf : ∀ a, P a → R a → Mostly (f a) B Q S)
    (hn : ∀ a, ¬ P a → (f a).ev = [] ∧ ∀ b, (f a).res = .ok b → ¬ Q b) : Mostly (x >>= f) (A ++ B) Q S := by
  rcases x with ⟨e, r⟩
  rcases r with a | er | k | _
  · by_cases hp : P a
    · obtain ⟨rfl, hr⟩ := hx.ok a rfl hp
      have hb := hf a hp hr
      refine ⟨CutOff.append _ hb.seen, fun b hb' hq => ?_⟩
      obtain ⟨h1, h2⟩ := hb.ok b hb' hq
      exact ⟨congrArg (e ++ ·) h1, h2⟩
    · obtain ⟨h1, h2⟩ := hn a hp
      refine ⟨?_, fun b hb hq => absurd hq (h2 b hb)⟩
      show Spec.CutOff (A ++ B) (e ++ (f a).ev)
      rw [h1, List.append_nil]
      exact CutOff.more _ hx.seen
  · exact ⟨CutOff.more _ hx.seen, fun b hb => (by cases hb)⟩
  · exact ⟨CutOff.more _ hx.seen, fun b hb => (by cases hb)⟩
  · exact ⟨CutOff.more _ hx.seen, fun b hb => (by cases hb)⟩

theorem Mostly.emit {α : Type} {x : Unit → Leak α} {e e' : Ev} {A : List Ev} {P Q : α → Prop} (he : e = e')
    (hx : Mostly (x ()) A P Q) : Mostly (Leak.emit e >>= x) (e' :: A) P Q := by
  subst he
  refine ⟨CutOff.cons e hx.seen, fun a ha hp => ?_⟩
  obtain ⟨h1, h2⟩ := hx.ok a ha hp
  exact ⟨congrArg (e :: ·) h1, h2⟩

theorem Mostly.cmp {β : Type} {name : String} {g : BoxedUint → BoxedUint → Bool} {x y : BoxedUint} {f : Bool → Leak β}
    {A : List Ev} {P Q : β → Prop} (h : Mostly (f (g x y)) A P Q) :
    Mostly (leak.cmp name g x y >>= f) (.bignum name [x.nlimbs, y.nlimbs] :: A) P Q :=
  Mostly.emit (x := fun _ => f (g x y)) rfl h

/-- A test of which one outcome ends the run. -/
theorem Mostly.branch {α : Type} {c : Prop} [Decidable c] {r : Res α} {y : Leak α} {A : List Ev} {P Q : α → Prop}
    (hr : ∀ a, r = .ok a → ¬ P a) (hy : Mostly y A P Q) : Mostly (branch c (ofRes r) y) (.branch false :: A) P Q := by
  unfold leak.branch
  by_cases hc : c
  · simp only [hc, if_true, decide_true]
    exact ⟨CutOff.flip false A, fun a ha hp => absurd hp (hr a ha)⟩
  · simp only [hc, if_false, decide_false]
    exact Mostly.emit rfl hy

theorem tryPrecompute_mostly (k : PrivateKey) (p q : BoxedUint) (ps : List BoxedUint) (hk : k.primes = p :: q :: ps)
    (hn : k.precomputed = none) :
    Mostly (tryPrecompute k) (Spec.precomputeTrace k.d.nlimbs (ps.length + 2) p.nlimbs q.nlimbs)
      (fun k' => k'.precomputed.isSome) (fun _ => True) := by
  have h := precompute_along k p q ps hk hn
  have hs := h.seen
  unfold tryPrecompute
  rcases hr : (precompute k).res with a | e | c | _
  · simp only [hr]
    exact ⟨hs, fun b hb _ => ⟨(h.ok b hb).1, trivial⟩⟩
  · simp only [hr]
    refine ⟨hs, fun b hb hp => ?_⟩
    cases hb
    rw [hn] at hp
    cases hp
  · simp only [hr]
    exact ⟨hs, fun b hb _ => by rw [hr] at hb; cases hb⟩
  · simp only [hr]
    exact ⟨hs, fun b hb _ => by rw [hr] at hb; cases hb⟩

theorem fromComponents_mostly (n : OddUint) (e d : BoxedUint) (ps : List BoxedUint) :
    Mostly (fromComponents n e d ps)
      (Spec.buildTrace n.toBoxedUint.nlimbs e.nlimbs d.nlimbs (ps.map (·.nlimbs)))
      (fun k => k.precomputed.isSome) (fun _ => True) := by
  have start : ∀ (B : List Ev) (f : MontyParams → BoxedUint → Leak PrivateKey),
      (∀ m nC, nC = n.toBoxedUint → Mostly (f m nC) B (fun k => k.precomputed.isSome) (fun _ => True)) →
      Mostly (do
        let nParams ← montyParams n
        bn "NonZero::new" [n.toBoxedUint.nlimbs]
        let nC ← check n.toBoxedUint.nonZero (.err .invalidModulus)
        f nParams nC)
        ([.bignum "BoxedMontyParams::new" [n.toBoxedUint.nlimbs], .bignum "NonZero::new" [n.toBoxedUint.nlimbs], .branch true]
          ++ B) (fun k => k.precomputed.isSome) (fun _ => True) := by
    intro B f hf
    have h1 : Along (do
        let nParams ← montyParams n
        bn "NonZero::new" [n.toBoxedUint.nlimbs]
        let nC ← check n.toBoxedUint.nonZero (.err .invalidModulus)
        ofRes (.ok (nParams, nC)))
        [.bignum "BoxedMontyParams::new" [n.toBoxedUint.nlimbs], .bignum "NonZero::new" [n.toBoxedUint.nlimbs], .branch true]
        (fun r => r.2 = n.toBoxedUint) := by
      refine Along.montyParams rfl fun m _ _ => ?_
      refine Along.bn rfl (Along.check (fun _ => noErr) fun nC hnC => Along.done ?_)
      unfold BoxedUint.nonZero at hnC
      split at hnC <;> cases hnC
      rfl
    have h2 := h1.bindMostly (f := fun r => f r.1 r.2) fun a ha => hf a.1 a.2 ha
    simp only [bind_assoc'] at h2
    exact h2
  have rest : ∀ (m : MontyParams) (p q : BoxedUint) (l : List BoxedUint), Mostly (do
      validate { pub := { n := n.toBoxedUint, e := e, nParams := m }, d := d, primes := p :: q :: l, precomputed := none }
      tryPrecompute
        { pub := { n := n.toBoxedUint, e := e, nParams := m }, d := d, primes := p :: q :: l, precomputed := none })
      (Spec.validateTrace n.toBoxedUint.nlimbs e.nlimbs d.nlimbs ((p :: q :: l).map (·.nlimbs)) ++
        Spec.precomputeTrace d.nlimbs (l.length + 2) p.nlimbs q.nlimbs)
      (fun k => k.precomputed.isSome) (fun _ => True) := by
    intro m p q l
    exact (validate_along _).bindMostly fun _ _ => tryPrecompute_mostly _ p q l rfl rfl
  unfold fromComponents
  rcases ps with _ | ⟨p, _ | ⟨q, l⟩⟩
  · simp only [List.map_nil, Spec.buildTrace, List.append_assoc]
    refine start _ _ fun m nC hnC => ?_
    subst hnC
    unfold factorsOrRecover
    rw [bind_assoc']
    refine Mostly.emit rfl ?_
    rw [bind_assoc']
    refine (recoverPrimes_along _ _ _).bindMostly fun r hr => ?_
    have h := rest m r.1 r.2 []
    simp only [List.map_cons, List.map_nil, hr.1, hr.2, List.length_nil] at h
    exact h
  · simp only [List.map_cons, List.map_nil, Spec.buildTrace]
    refine start [.compare 1 0] _ fun m nC _ => ?_
    refine ⟨CutOff.refl _, fun a ha => (by cases ha)⟩
  · simp only [List.map_cons, Spec.buildTrace, List.length_map, List.append_assoc]
    refine start (_ :: _) _ fun m nC hnC => ?_
    subst hnC
    unfold factorsOrRecover
    rw [bind_assoc']
    exact Mostly.emit rfl (rest m p q l)

theorem fromPQ_mostly (p q e : BoxedUint) :
    Mostly (fromPQ p q e) (Spec.fromTwoTrace p.nlimbs q.nlimbs e.nlimbs) (fun k => k.precomputed.isSome)
      (fun _ => True) := by
  unfold fromPQ Spec.fromTwoTrace
  simp only [List.append_assoc]
  refine Mostly.cmp ?_
  show Mostly (branch (BoxedUint.beq p q = true) _ _) _ _ _
  refine Mostly.branch (fun a h => by cases h) ?_
  refine (carmichael_along p q e).bindMostly fun d hd => ?_
  refine (computeModulus_along [p, q]).bindMostly fun n hn => ?_
  have h := fromComponents_mostly n e d [p, q]
  simp only [List.map_cons, List.map_nil, List.sum_cons, List.sum_nil, Nat.add_zero] at h hn
  rw [hn, hd] at h
  exact h

theorem anyEqual_mostly (p : BoxedUint) : ∀ xs : List BoxedUint,
    Mostly (anyEqual p xs) ((xs.map (·.nlimbs)).flatMap fun x => [.bignum "eq" [p.nlimbs, x], .branch false])
      (fun c => c = false) (fun _ => True)
  | [] => ⟨CutOff.nil _, fun _ _ _ => ⟨rfl, trivial⟩⟩
  | x :: xs => by
    rw [anyEqual]
    simp only [List.map_cons, List.flatMap_cons, List.cons_append, List.nil_append]
    refine Mostly.cmp ?_
    show Mostly (branch (BoxedUint.beq p x = true) _ _) _ _ _
    exact Mostly.branch (fun a h => by cases h; simp) (anyEqual_mostly p xs)

theorem hasDuplicate_mostly : ∀ ps seen : List BoxedUint,
    Mostly (hasDuplicate seen ps) (Spec.distinctTrace (seen.map (·.nlimbs)) (ps.map (·.nlimbs)))
      (fun c => c = false) (fun _ => True)
  | [], seen => ⟨CutOff.nil _, fun _ _ _ => ⟨by simp [hasDuplicate, Spec.distinctTrace, ofRes], trivial⟩⟩
  | p :: ps, seen => by
    rw [hasDuplicate]
    simp only [List.map_cons, Spec.distinctTrace]
    refine (anyEqual_mostly p seen).bind (fun c hc _ => ?_) (fun c hc => ?_)
    · subst hc
      have := hasDuplicate_mostly ps (seen ++ [p])
      simpa using this
    · have : c = true := by simpa using hc
      subst this
      exact ⟨rfl, fun b hb => by cases hb; simp⟩

theorem fromPrimes_mostly (ps : List BoxedUint) (e : BoxedUint) :
    Mostly (fromPrimes ps e) (Spec.fromPrimesTrace (ps.map (·.nlimbs)) e.nlimbs) (fun k => k.precomputed.isSome)
      (fun _ => True) := by
  unfold fromPrimes Spec.fromPrimesTrace
  simp only [List.append_assoc]
  refine Mostly.branch (fun a h => by cases h) ?_
  refine (hasDuplicate_mostly ps []).bind (fun c hc _ => ?_) (fun c hc => ?_)
  · subst hc
    simp only [Bool.false_eq_true, if_false]
    refine (computeModulus_along ps).bindMostly fun n hn => ?_
    refine (euler_along ps e).bindMostly fun d hd => ?_
    have h := fromComponents_mostly n e d ps
    rw [hn, hd] at h
    exact h
  · have : c = true := by simpa using hc
    subst this
    exact ⟨rfl, fun b hb => by cases hb⟩

/-! ### Key generation -/

theorem bits_exact {x : BoxedUint} {b : Nat} (hb : 2 ≤ b) (h1 : 2 ^ (b - 1) ≤ x.val) (h2 : x.val < 2 ^ b) : x.bits = b := by
  have h := (Nat.size_le.mpr h2)
  have h' := (Nat.lt_size.mpr h1)
  rw [bits_eq_size]
  omega

theorem generatePrimes_along {σ : Type} {G : PrimeGen σ} (hG : Spec.ExactBits G) : ∀ (left todo : Nat) (s : σ),
    Along (generatePrimes G left todo s)
      ((Spec.primeLengths left todo).flatMap fun b =>
        [.bignum "sieve_and_find" [b], .bignum "bits" [Spec.words b], .branch true])
      (fun r => r.1.map (·.nlimbs) = (Spec.primeLengths left todo).map Spec.words)
  | 0, _, _ => Along.done rfl
  | left + 1, todo, s => by
    rw [generatePrimes]
    simp only [Spec.primeLengths, List.flatMap_cons, List.cons_append, List.nil_append, List.map_cons]
    generalize todo / (left + 1) % 2 ^ 32 = b
    refine Along.res rfl fun r hr => ?_
    unfold RSA.generatePrimeWithRng at hr
    split at hr
    · cases hr
    · next hb =>
      cases hr
      obtain ⟨h1, h2, h3⟩ := hG s b (by omega)
      have hbits := bits_exact (by omega) h1 h2
      refine Along.bn (by rw [h3]) ?_
      rw [hbits]
      have hsub : Along (subU todo b) [.branch true] (fun t => t = todo - b) := by
        unfold leak.subU leak.branch
        by_cases hc : b ≤ todo
        · simp only [hc, decide_true, if_true]
          exact ⟨fun a ha => by cases ha; exact ⟨rfl, rfl⟩, fun h => absurd rfl (h (todo - b))⟩
        · simp only [hc, decide_false, if_false]
          exact ⟨fun a ha => (by cases ha), fun _ => CutOff.flip true []⟩
      refine hsub.bind fun t ht => ?_
      subst ht
      refine Along.last (generatePrimes_along hG left (todo - b) _) fun r hr => Along.done ?_
      simp only [List.map_cons, hr, h3]

/-- What is known of the components a turn comes up with. -/
def Sized (nprimes bitSize : Nat) (e : BoxedUint) (c : Components) : Prop :=
  c.primes.map (·.nlimbs) =
      (Spec.primeLengths nprimes (if nprimes ≥ 7 then bitSize + (nprimes - 2) / 5 else bitSize)).map Spec.words ∧
    c.n.toBoxedUint.nlimbs = (c.primes.map (·.nlimbs)).sum ∧ c.e = e ∧
    c.d.nlimbs = Spec.totientSize (c.primes.map (·.nlimbs))

theorem generateTurn_mostly {σ : Type} {G : PrimeGen σ} (hG : Spec.ExactBits G) (nprimes bitSize : Nat) (e : BoxedUint)
    (s : σ) :
    Mostly (generateTurn G nprimes bitSize e s) (Spec.turnTrace nprimes bitSize e.nlimbs) (fun r => r.1.isSome)
      (fun r => ∀ c, r.1 = some c → Sized nprimes bitSize e c) := by
  unfold generateTurn Spec.turnTrace
  simp only [List.append_assoc]
  have h0 : Along (branch (nprimes ≥ 7) (ofRes (.ok (bitSize + (nprimes - 2) / 5))) (ofRes (.ok bitSize)))
      [.branch (decide (nprimes ≥ 7))] (fun t => t = if nprimes ≥ 7 then bitSize + (nprimes - 2) / 5 else bitSize) := by
    unfold leak.branch
    refine Along.emit rfl ?_
    split
    · exact Along.done rfl
    · exact Along.done rfl
  refine h0.bindMostly fun t ht => ?_
  rw [← ht]
  refine (generatePrimes_along hG nprimes t s).bindMostly fun r hr => ?_
  rw [← hr]
  refine (hasDuplicate_mostly r.1 []).bind (fun c hc _ => ?_) (fun c hc => ?_)
  · subst hc
    simp only [Bool.false_eq_true, if_false]
    refine (computeModulus_along r.1).bindMostly fun n hn => ?_
    refine Mostly.emit (by rw [hn]) (Mostly.branch (fun a h => by cases h; simp) ?_)
    have h := euler_along r.1 e
    have hs := h.seen
    rcases hx : (computePrivateExponentEulerTotient r.1 e).res with d | er | k | _
    · simp only
      refine ⟨hs, fun b hb _ => ⟨(h.ok d hx).1, fun c hc => ?_⟩⟩
      cases hb
      cases hc
      refine ⟨?_, hn, rfl, (h.ok d hx).2⟩
      rw [hr, ht]
    · simp only
      exact ⟨hs, fun b hb hp => by cases hb; cases hp⟩
    · simp only
      exact ⟨hs, fun b hb => (by cases hb)⟩
    · simp only
      exact ⟨hs, fun b hb => (by cases hb)⟩
  · have : c = true := by simpa using hc
    subst this
    exact ⟨rfl, fun b hb => by cases hb; simp⟩

theorem generateLoop_shows {σ : Type} {G : PrimeGen σ} (hG : Spec.ExactBits G) (nprimes bitSize : Nat) (e : BoxedUint) :
    ∀ (fuel : Nat) (s s' : σ) (c : Components), (generateLoop G nprimes bitSize e fuel s).res = .ok (c, s') →
      Sized nprimes bitSize e c ∧ ∃ turns : List (List Ev), turns.length < fuel ∧
        (∀ t ∈ turns, Spec.CutOff (Spec.turnTrace nprimes bitSize e.nlimbs) t) ∧
        (generateLoop G nprimes bitSize e fuel s).ev = turns.flatten ++ Spec.turnTrace nprimes bitSize e.nlimbs
  | 0, _, _, _, h => by cases h
  | fuel + 1, s, s', c, h => by
    have hm := generateTurn_mostly hG nprimes bitSize e s
    rw [generateLoop] at h ⊢
    rcases hx : generateTurn G nprimes bitSize e s with ⟨ev, r⟩
    rw [hx] at h hm
    rcases r with ⟨o, s1⟩ | _ | _ | _
    · rcases o with _ | c1
      · have h' : (generateLoop G nprimes bitSize e fuel s1).res = .ok (c, s') := h
        obtain ⟨h1, turns, h2, h3, h4⟩ := generateLoop_shows hG nprimes bitSize e fuel s1 s' c h'
        refine ⟨h1, ev :: turns, by simpa using h2, ?_, ?_⟩
        · intro t ht
          rcases List.mem_cons.mp ht with rfl | ht
          · exact hm.seen
          · exact h3 t ht
        · show ev ++ (generateLoop G nprimes bitSize e fuel s1).ev = _
          rw [h4, List.flatten_cons, List.append_assoc]
      · obtain ⟨h1, h2⟩ := hm.ok _ rfl rfl
        have h' : Res.ok (c1, s1) = Res.ok (c, s') := h
        cases h'
        refine ⟨h2 _ rfl, [], by simp, by simp, ?_⟩
        show ev ++ [] = _
        rw [List.append_nil]
        exact h1
    · cases h
    · cases h
    · cases h

end leak
end RSA
