import Verif.Model.Leak
import Verif.Spec.Leak
import Verif.Proof.Pad
import Verif.Proof.Oaep
import Verif.Proof.Pkcs1v15

/- The observing versions of the decryption routines: they compute what the model computes, and two runs on buffers of equal
lengths make the same observations until the padding verdict is branched on. -/
namespace RSA
open BoxedUint

namespace Leak
variable {α β γ : Type}

@[simp] theorem ev_pure (a : α) : (pure a : Leak α) = ⟨[], .ok a⟩ := rfl

theorem bind_def (x : Leak α) (f : α → Leak β) : (x >>= f) = Leak.bind x f := rfl

@[simp] theorem res_bind (x : Leak α) (f : α → Leak β) : (x >>= f).res = (x.res >>= fun a => (f a).res) := by
  rcases x with ⟨e, r⟩
  cases r <;> rfl

@[simp] theorem res_emit (e : Ev) : (emit e).res = .ok () := rfl
@[simp] theorem res_ofRes (r : Res α) : (ofRes r).res = r := rfl
@[simp] theorem ev_ofRes (r : Res α) : (ofRes r).ev = [] := rfl

theorem res_ite (c : Prop) [Decidable c] (x y : Leak α) : (if c then x else y).res = if c then x.res else y.res := by
  split <;> rfl

@[simp] theorem emit_bind (e : Ev) (f : Unit → Leak β) : (emit e >>= f) = ⟨e :: (f ()).ev, (f ()).res⟩ := rfl

theorem ofRes_ok_bind (a : α) (f : α → Leak β) : (ofRes (.ok a) >>= f) = f a := rfl

theorem ev_bind_ok {x : Leak α} {a : α} (h : x.res = .ok a) (f : α → Leak β) : (x >>= f).ev = x.ev ++ (f a).ev := by
  rcases x with ⟨e, r⟩
  subst h; rfl

/-- Same kind of outcome, related values. -/
def ResRel (R : α → β → Prop) : Res α → Res β → Prop
  | .ok a, .ok b => R a b
  | .err e, .err f => e = f
  | .panic k, .panic l => k = l
  | .loop, .loop => True
  | _, _ => False

/-- Same observations, same kind of outcome, related values. -/
structure Rel (R : α → β → Prop) (x : Leak α) (y : Leak β) : Prop where
  ev : x.ev = y.ev
  res : ResRel R x.res y.res

theorem Rel.bind {α' β' : Type} {R : α → β → Prop} {S : α' → β' → Prop} {x : Leak α} {y : Leak β} {f : α → Leak α'}
    {g : β → Leak β'} (h : Rel R x y) (hf : ∀ a b, R a b → Rel S (f a) (g b)) : Rel S (x >>= f) (y >>= g) := by
  obtain ⟨he, hr⟩ := h
  rcases x with ⟨e, r⟩
  rcases y with ⟨e', r'⟩
  simp only at he hr
  subst he
  cases r <;> cases r' <;> simp only [ResRel] at hr
  · have := hf _ _ hr
    exact ⟨congrArg (e ++ ·) this.ev, this.res⟩
  · subst hr; exact ⟨rfl, rfl⟩
  · subst hr; exact ⟨rfl, rfl⟩
  · exact ⟨rfl, trivial⟩

theorem Rel.ok {R : α → β → Prop} {a : α} {b : β} (h : R a b) : Rel R (ofRes (.ok a)) (ofRes (.ok b)) := ⟨rfl, h⟩

theorem Rel.refl {R : α → α → Prop} (hR : ∀ a, R a a) (x : Leak α) : Rel R x x := by
  refine ⟨rfl, ?_⟩
  cases x.res <;> simp [ResRel, hR]

theorem Rel.emit {α' β' : Type} {S : α' → β' → Prop} {e e' : Ev} {f : Unit → Leak α'} {g : Unit → Leak β'}
    (h : e = e') (hf : Rel S (f ()) (g ())) : Rel S (Leak.emit e >>= f) (Leak.emit e' >>= g) := by
  subst h
  exact ⟨congrArg (e :: ·) hf.ev, hf.res⟩

theorem Rel.mono {R S : α → β → Prop} {x : Leak α} {y : Leak β} (h : Rel R x y) (hRS : ∀ a b, R a b → S a b) :
    Rel S x y := by
  refine ⟨h.ev, ?_⟩
  have := h.res
  cases hx : x.res <;> cases hy : y.res <;> simp only [hx, hy, ResRel] at this ⊢
  · exact hRS _ _ this
  · exact this
  · exact this

theorem Rel.ofRes {R : α → β → Prop} {x : Res α} {y : Res β} (h : ResRel R x y) : Rel R (Leak.ofRes x) (Leak.ofRes y) :=
  ⟨rfl, h⟩

theorem Rel.err {R : α → β → Prop} (e : Error) : Rel R (Leak.ofRes (.err e)) (Leak.ofRes (.err e)) := ⟨rfl, rfl⟩

end Leak

namespace leak
open Leak

theorem _root_.RSA.Leak.Rel.branch {α β : Type} {R : α → β → Prop} {c c' : Prop} [Decidable c] [Decidable c'] (h : c ↔ c')
    {x y : Leak α} {x' y' : Leak β} (hx : Rel R x x') (hy : Rel R y y') : Rel R (leak.branch c x y) (leak.branch c' x' y') := by
  unfold leak.branch
  refine Rel.emit (by simp only [h]) ?_
  by_cases hc : c
  · simp only [hc, h.mp hc, if_true]; exact hx
  · simp only [hc, (not_congr h).mp hc, if_false]; exact hy

/-- Buffers of equal lengths. -/
def SL (a b : Bytes) : Prop := a.length = b.length
/-- Digest objects of the same function which absorbed equally many octets. -/
def SD (d d' : DigestState) : Prop := d.fn = d'.fn ∧ d.buf.length = d'.buf.length

theorem idx_rel {l l' : Bytes} (h : SL l l') (i : Nat) : Rel (fun _ _ => True) (idx l i) (idx l' i) := by
  unfold SL at h
  refine Rel.emit (by rw [h]) (Rel.ofRes ?_)
  unfold RSA.idx
  by_cases hi : i < l.length
  · rw [List.getElem?_eq_getElem hi, List.getElem?_eq_getElem (h ▸ hi)]; trivial
  · rw [List.getElem?_eq_none (by omega), List.getElem?_eq_none (by omega)]; rfl

theorem slice_rel {l l' : Bytes} (h : SL l l') (lo hi : Nat) : Rel SL (slice l lo hi) (slice l' lo hi) := by
  unfold SL at h
  refine Rel.emit (by rw [h]) (Rel.ofRes ?_)
  unfold RSA.slice
  rw [h]
  split
  · simp [ResRel, SL, h]
  · rfl

theorem sliceFrom_rel {l l' : Bytes} (h : SL l l') (lo : Nat) : Rel SL (sliceFrom l lo) (sliceFrom l' lo) := by
  have : l.length = l'.length := h
  unfold sliceFrom
  rw [this]
  exact slice_rel h _ _

theorem copyInto_rel {d d' s s' : Bytes} (hd : SL d d') (hs : SL s s') (lo hi : Nat) :
    Rel SL (copyInto d lo hi s) (copyInto d' lo hi s') := by
  unfold SL at hd hs
  refine Rel.emit (by rw [hd]) (Rel.emit (by rw [hs]) (Rel.ofRes ?_))
  unfold RSA.copyInto
  rw [hd, hs]
  split
  · split
    · simp [ResRel, SL, hd, hs]
    · rfl
  · rfl

theorem splitAt_rel {l l' : Bytes} (h : SL l l') (i : Nat) :
    Rel (fun p q => SL p.1 q.1 ∧ SL p.2 q.2) (splitAt l i) (splitAt l' i) := by
  unfold SL at h
  refine Rel.emit (by rw [h]) (Rel.ofRes ?_)
  unfold RSA.splitAt
  rw [h]
  split
  · simp [ResRel, SL, h]
  · rfl

theorem ctEq_rel {a a' b b' : Bytes} (h : SL a a') (h' : SL b b') : Rel (fun _ _ => True) (ctEq a b) (ctEq a' b') := by
  unfold SL at h h'
  exact Rel.emit (by rw [h, h']) (Rel.ok trivial)

theorem update_rel {d d' : DigestState} {x x' : Bytes} (h : SD d d') (hx : SL x x') : Rel SD (update d x) (update d' x') := by
  unfold SL at hx
  refine Rel.emit (by rw [hx]) (Rel.ok ?_)
  exact ⟨h.1, by simp [DigestState.update, h.2, hx]⟩

theorem finalizeReset_rel {d d' : DigestState} (h : SD d d') :
    Rel (fun p q => SL p.1 q.1 ∧ SD p.2 q.2) (finalizeReset d) (finalizeReset d') := by
  refine Rel.emit (by rw [h.2]) (Rel.ok ?_)
  refine ⟨?_, h.1, rfl⟩
  unfold SL DigestState.finalizeReset
  simp only [d'.fn.hash_len, h.1]

theorem forIn_rel {S S' E E' : Type} {R : S → S' → Prop} {Q : E → E' → Prop} {body : S → E → Leak S}
    {body' : S' → E' → Leak S'} (hb : ∀ s s' e e', R s s' → Q e e' → Rel R (body s e) (body' s' e')) :
    ∀ {l : List E} {l' : List E'}, List.Forall₂ Q l l' → ∀ {s s'}, R s s' → Rel R (forIn body l s) (forIn body' l' s')
  | _, _, .nil, _, _, h => Rel.ok h
  | _, _, .cons hq hl, _, _, h => Rel.bind (hb _ _ _ _ h hq) fun _ _ h' => forIn_rel hb hl h'

theorem zipIdx_pos {l l' : Bytes} (h : SL l l') : ∀ i, List.Forall₂ (fun e e' : UInt8 × Nat => e.2 = e'.2) (l.zipIdx i) (l'.zipIdx i) := by
  induction l generalizing l' with
  | nil => cases l' with
    | nil => intro i; exact .nil
    | cons => simp [SL] at h
  | cons a l ih => cases l' with
    | nil => simp [SL] at h
    | cons b l' => intro i; exact .cons rfl (ih (by simpa [SL] using h) _)

theorem forall₂_drop {E E' : Type} {Q : E → E' → Prop} : ∀ (n : Nat) {l : List E} {l' : List E'}, List.Forall₂ Q l l' →
    List.Forall₂ Q (l.drop n) (l'.drop n)
  | 0, _, _, h => h
  | _ + 1, _, _, .nil => .nil
  | n + 1, _, _, .cons _ h => forall₂_drop n h

theorem xorInto_rel (dlen olen : Nat) : ∀ {ds ds' os os' : Bytes} (j i : Nat), SL ds ds' → SL os os' →
    Rel (fun p q => SL p.1 q.1 ∧ SL p.2 q.2) (xorInto dlen olen j i ds os) (xorInto dlen olen j i ds' os')
  | [], [], os, os', _, _, _, h => Rel.emit rfl (Rel.ok ⟨rfl, h⟩)
  | [], _ :: _, _, _, _, _, h, _ => by simp [SL] at h
  | _ :: _, [], _, _, _, _, h, _ => by simp [SL] at h
  | _ :: _, _ :: _, [], [], _, _, _, _ => Rel.emit rfl (Rel.ok ⟨rfl, rfl⟩)
  | _ :: _, _ :: _, [], _ :: _, _, _, _, h => by simp [SL] at h
  | _ :: _, _ :: _, _ :: _, [], _, _, _, h => by simp [SL] at h
  | d :: ds, d' :: ds', o :: os, o' :: os', j, i, hd, ho =>
    Rel.emit rfl <| Rel.emit rfl <| Rel.emit rfl <|
      Rel.bind (xorInto_rel dlen olen (j + 1) (i + 1) (by simpa [SL] using hd) (by simpa [SL] using ho))
        fun _ _ h => Rel.ok ⟨by simpa [SL] using h.1, h.2⟩

/-- What is related after masking. -/
def SP (p q : Bytes × DigestState) : Prop := SL p.1 q.1 ∧ SD p.2 q.2

theorem mgf1XorLoop_rel (olen : Nat) : ∀ (fuel : Nat) {o o' s s' : Bytes} {d d' : DigestState} (c : Counter),
    SL o o' → SD d d' → SL s s' → Rel SP (mgf1XorLoop olen fuel o d s c) (mgf1XorLoop olen fuel o' d' s' c)
  | fuel, [], [], _, _, _, _, _, _, hd, _ => by
    unfold mgf1XorLoop
    exact Rel.emit rfl (Rel.ok ⟨rfl, hd⟩)
  | _, [], _ :: _, _, _, _, _, _, h, _, _ => by simp [SL] at h
  | _, _ :: _, [], _, _, _, _, _, h, _, _ => by simp [SL] at h
  | 0, _ :: _, _ :: _, _, _, _, _, _, _, _, _ => by
    unfold mgf1XorLoop
    exact ⟨rfl, trivial⟩
  | fuel + 1, x :: o, x' :: o', s, s', d, d', c, ho, hd, hs => by
    have hs' : s.length = s'.length := hs
    have ho' : o.length = o'.length := by simpa [SL] using ho
    unfold mgf1XorLoop
    simp only [hs', ho']
    refine Rel.emit rfl (Rel.emit rfl ?_)
    refine Rel.bind (copyInto_rel rfl hs _ _) fun b b' hb => ?_
    refine Rel.bind (copyInto_rel hb rfl _ _) fun b b' hb => ?_
    refine Rel.bind (update_rel hd hb) fun e e' he => ?_
    refine Rel.bind (finalizeReset_rel he) fun p q hpq => ?_
    obtain ⟨h1, h2⟩ := hpq
    have h1' : p.1.length = q.1.length := h1
    simp only [h1']
    refine Rel.bind (xorInto_rel _ _ _ _ h1 ho) fun r r' hr => ?_
    refine Rel.bind (R := (· = ·)) (Rel.refl (fun _ => rfl) _) fun c c' hc => ?_
    subst hc
    refine Rel.bind (mgf1XorLoop_rel olen fuel c hr.2 h2 hs) fun t t' ht => ?_
    have := hr.1; have := ht.1
    refine Rel.ok ⟨?_, ht.2⟩
    simp_all [SL]

theorem mgf1Xor_rel {o o' s s' : Bytes} {d d' : DigestState} (ho : SL o o') (hd : SD d d') (hs : SL s s') :
    Rel SP (mgf1Xor o d s) (mgf1Xor o' d' s') := by
  have ho' : o.length = o'.length := ho
  unfold mgf1Xor
  simp only [ho', branch]
  refine Rel.emit rfl ?_
  split
  · exact mgf1XorLoop_rel _ _ _ ho hd hs
  · exact ⟨rfl, rfl⟩

theorem mgf1XorDigestLoop_rel (olen : Nat) : ∀ (fuel : Nat) {o o' s s' : Bytes} {d d' : DigestState} (c : Counter),
    SL o o' → SD d d' → SL s s' → Rel SP (mgf1XorDigestLoop olen fuel o d s c) (mgf1XorDigestLoop olen fuel o' d' s' c)
  | fuel, [], [], _, _, _, _, _, _, hd, _ => by
    unfold mgf1XorDigestLoop
    exact Rel.emit rfl (Rel.ok ⟨rfl, hd⟩)
  | _, [], _ :: _, _, _, _, _, _, h, _, _ => by simp [SL] at h
  | _, _ :: _, [], _, _, _, _, _, h, _, _ => by simp [SL] at h
  | 0, _ :: _, _ :: _, _, _, _, _, _, _, _, _ => by
    unfold mgf1XorDigestLoop
    exact ⟨rfl, trivial⟩
  | fuel + 1, x :: o, x' :: o', s, s', d, d', c, ho, hd, hs => by
    have ho' : o.length = o'.length := by simpa [SL] using ho
    unfold mgf1XorDigestLoop
    simp only [ho']
    refine Rel.emit rfl ?_
    refine Rel.bind (update_rel hd hs) fun e e' he => ?_
    refine Rel.bind (update_rel he rfl) fun e e' he => ?_
    refine Rel.bind (finalizeReset_rel he) fun p q hpq => ?_
    obtain ⟨h1, h2⟩ := hpq
    have h1' : p.1.length = q.1.length := h1
    simp only [h1']
    refine Rel.bind (xorInto_rel _ _ _ _ h1 ho) fun r r' hr => ?_
    refine Rel.bind (R := (· = ·)) (Rel.refl (fun _ => rfl) _) fun c c' hc => ?_
    subst hc
    refine Rel.bind (mgf1XorDigestLoop_rel olen fuel c hr.2 h2 hs) fun t t' ht => ?_
    have := hr.1; have := ht.1
    refine Rel.ok ⟨?_, ht.2⟩
    simp_all [SL]

theorem mgf1XorDigest_rel {o o' s s' : Bytes} {d d' : DigestState} (ho : SL o o') (hd : SD d d') (hs : SL s s') :
    Rel SP (mgf1XorDigest o d s) (mgf1XorDigest o' d' s') := by
  have ho' : o.length = o'.length := ho
  unfold mgf1XorDigest
  simp only [ho', branch]
  refine Rel.emit rfl ?_
  split
  · exact mgf1XorDigestLoop_rel _ _ _ ho hd hs
  · exact ⟨rfl, rfl⟩

/-- The PKCS#1 v1.5 padding check, up to its verdict. -/
theorem pkcs1v15DecryptInner_rel {em em' : Bytes} (h : SL em em') (k : Nat) :
    Rel (fun a b => SL a.2.1 b.2.1) (pkcs1v15DecryptInner em k) (pkcs1v15DecryptInner em' k) := by
  have h' : em.length = em'.length := h
  unfold pkcs1v15DecryptInner
  refine Rel.emit rfl ?_
  by_cases hk : k < 11
  · simp only [if_pos hk]; exact Rel.err _
  · simp only [if_neg hk, h']
    refine Rel.bind (idx_rel h 0) fun b0 b0' _ => ?_
    refine Rel.bind (idx_rel h 1) fun b1 b1' _ => ?_
    refine Rel.bind (R := fun _ _ => True) (forIn_rel (Q := fun e e' => e.2 = e'.2) ?_ ?_ trivial) fun a a' _ => Rel.ok h
    · intro s s' e e' _ he
      exact Rel.emit (by rw [he]) (Rel.ok trivial)
    · exact forall₂_drop 2 (zipIdx_pos h 0)

/-- The OAEP padding check, up to its verdict. -/
theorem oaepDecryptInner_rel {em em' : Bytes} (h : SL em em') (hSize : Nat) (pHash : Bytes) (k : Nat)
    {mgf mgf' : Bytes → Bytes → Leak (Bytes × Bytes)}
    (hm : ∀ s s' d d', SL s s' → SL d d' → Rel (fun p q => SL p.1 q.1 ∧ SL p.2 q.2) (mgf s d) (mgf' s' d')) :
    Rel (fun a b => SL a.2.1 b.2.1) (oaepDecryptInner em hSize pHash k mgf) (oaepDecryptInner em' hSize pHash k mgf') := by
  have h' : em.length = em'.length := h
  unfold oaepDecryptInner
  refine Rel.emit rfl ?_
  by_cases hk : k < 11
  · simp only [if_pos hk]; exact Rel.err _
  simp only [if_neg hk]
  refine Rel.emit rfl ?_
  by_cases hk : k < hSize * 2 + 2
  · simp only [if_pos hk]; exact Rel.err _
  simp only [if_neg hk]
  refine Rel.bind (idx_rel h 0) fun b0 b0' _ => ?_
  refine Rel.bind (splitAt_rel h 1) fun p p' hp => ?_
  refine Rel.bind (splitAt_rel hp.2 hSize) fun q q' hq => ?_
  refine Rel.bind (hm _ _ _ _ hq.1 hq.2) fun r r' hr => ?_
  refine Rel.bind (slice_rel hr.2 _ _) fun x x' hx => ?_
  refine Rel.bind (ctEq_rel hx rfl) fun y y' _ => ?_
  have hr2 : r.2.length = r'.2.length := hr.2
  have hl : (p.1 ++ (r.1 ++ r.2)).length = (p'.1 ++ (r'.1 ++ r'.2)).length := by
    have := hp.1; have := hr.1; have := hr.2
    simp_all [SL]
  refine Rel.bind (R := fun _ _ => True) (forIn_rel (Q := fun e e' => e.2 = e'.2) ?_ ?_ trivial) fun a a' _ => ?_
  · intro s s' e e' _ he
    exact Rel.emit (by rw [he, hr2]) (Rel.ok trivial)
  · exact zipIdx_pos (by simp [SL, hr2]) 0
  · exact Rel.emit (by rw [hl]) (Rel.ok hl)

/-! ### They compute what the model computes -/

theorem idx_res (l : Bytes) (i : Nat) : (idx l i).res = RSA.idx l i := rfl
theorem slice_res (l : Bytes) (lo hi : Nat) : (slice l lo hi).res = RSA.slice l lo hi := rfl
theorem sliceFrom_res (l : Bytes) (lo : Nat) : (sliceFrom l lo).res = RSA.sliceFrom l lo := rfl
theorem copyInto_res (d : Bytes) (lo hi : Nat) (s : Bytes) : (copyInto d lo hi s).res = RSA.copyInto d lo hi s := rfl
theorem splitAt_res (l : Bytes) (i : Nat) : (splitAt l i).res = RSA.splitAt l i := rfl
theorem subU_res (a b : Nat) : (subU a b).res = RSA.subU a b := by
  unfold subU RSA.subU branch
  simp only [res_bind, res_emit, Res.ok_bind, res_ite, res_ofRes]

theorem branch_pos {α : Type} {c : Prop} [Decidable c] (h : c) (x y : Leak α) :
    branch c x y = (emit (.branch true) >>= fun _ => x) := by
  unfold branch
  simp only [h, if_true, decide_true]

theorem branch_neg {α : Type} {c : Prop} [Decidable c] (h : ¬ c) (x y : Leak α) :
    branch c x y = (emit (.branch false) >>= fun _ => y) := by
  unfold branch
  simp only [h, if_false, decide_false]

theorem branch_ok_bind {α β : Type} (c : Prop) [Decidable c] (a b : α) (f : α → Leak β) :
    (branch c (ofRes (.ok a)) (ofRes (.ok b)) >>= f) = (emit (.branch (decide c)) >>= fun _ => f (if c then a else b)) := by
  unfold branch
  split <;> rfl

theorem branch_ok {α : Type} (c : Prop) [Decidable c] (a b : α) :
    branch c (ofRes (.ok a)) (ofRes (.ok b)) = (emit (.branch (decide c)) >>= fun _ => ofRes (.ok (if c then a else b))) := by
  unfold branch
  split <;> rfl

theorem forIn_res {S E : Type} {body : S → E → Leak S} {step : S → E → S} (h : ∀ s e, (body s e).res = .ok (step s e)) :
    ∀ (l : List E) (s : S), (forIn body l s).res = .ok (l.foldl step s)
  | [], _ => rfl
  | e :: l, s => by
    unfold forIn
    rw [res_bind, h, Res.ok_bind, forIn_res h l, List.foldl_cons]

theorem pkcs1v15Step_res (len : Nat) (st : UInt8 × UInt32) (e : UInt8 × Nat) :
    (pkcs1v15Step len st e).res = .ok (RSA.pkcs1v15Step st e) := by
  unfold pkcs1v15Step RSA.pkcs1v15Step
  rfl

theorem pkcs1v15DecryptInner_res (em : Bytes) (k : Nat) :
    (pkcs1v15DecryptInner em k).res = RSA.pkcs1v15DecryptInner em k := by
  unfold pkcs1v15DecryptInner RSA.pkcs1v15DecryptInner
  by_cases hk : k < 11
  · simp [hk, branch]
  · simp only [hk, branch, if_false, res_bind, res_emit, Res.ok_bind, idx_res,
      forIn_res (pkcs1v15Step_res em.length), res_ofRes]

theorem pkcs1v15EncryptUnpad_res (em : Bytes) (k : Nat) :
    (pkcs1v15EncryptUnpad em k).res = RSA.pkcs1v15EncryptUnpad em k := by
  unfold pkcs1v15EncryptUnpad RSA.pkcs1v15EncryptUnpad
  rw [res_bind, pkcs1v15DecryptInner_res]
  congr 1
  funext x
  simp only [branch, res_bind, res_emit, Res.ok_bind, res_ite, res_ofRes, sliceFrom_res]

theorem incCounter_res (c : Counter) : (incCounter c).res = .ok (RSA.incCounter c) := by
  unfold incCounter RSA.incCounter
  simp only [branch, res_bind, res_emit, Res.ok_bind, res_ite, res_ofRes]
  split
  · rfl
  · split
    · rfl
    · split
      · rfl
      · split <;> rfl

theorem xorInto_res (dlen olen : Nat) : ∀ (ds os : Bytes) (j i : Nat),
    (xorInto dlen olen j i ds os).res = .ok (RSA.xorInto ds os)
  | [], _, _, _ => rfl
  | _ :: _, [], _, _ => rfl
  | _ :: ds, _ :: os, j, i => by
    unfold xorInto RSA.xorInto
    simp only [res_bind, res_emit, Res.ok_bind, xorInto_res dlen olen ds os, res_ofRes]

theorem mgf1XorLoop_res (olen : Nat) : ∀ (fuel : Nat) (o : Bytes) (d : DigestState) (s : Bytes) (c : Counter),
    (mgf1XorLoop olen fuel o d s c).res = RSA.mgf1XorLoop fuel o d s c
  | _, [], _, _, _ => by unfold mgf1XorLoop RSA.mgf1XorLoop; rfl
  | 0, _ :: _, _, _, _ => by unfold mgf1XorLoop RSA.mgf1XorLoop; rfl
  | fuel + 1, _ :: os, d, s, c => by
    unfold mgf1XorLoop RSA.mgf1XorLoop
    simp only [res_bind, res_emit, Res.ok_bind, copyInto_res, update, finalizeReset, res_ofRes, xorInto_res,
      incCounter_res, mgf1XorLoop_res olen fuel]

theorem mgf1Xor_res (o : Bytes) (d : DigestState) (s : Bytes) : (mgf1Xor o d s).res = RSA.mgf1Xor o d s := by
  unfold mgf1Xor RSA.mgf1Xor
  simp only [branch, res_bind, res_emit, Res.ok_bind, res_ite, res_ofRes, mgf1XorLoop_res]

theorem mgf1XorDigestLoop_res (olen : Nat) : ∀ (fuel : Nat) (o : Bytes) (d : DigestState) (s : Bytes) (c : Counter),
    (mgf1XorDigestLoop olen fuel o d s c).res = RSA.mgf1XorDigestLoop fuel o d s c
  | _, [], _, _, _ => by unfold mgf1XorDigestLoop RSA.mgf1XorDigestLoop; rfl
  | 0, _ :: _, _, _, _ => by unfold mgf1XorDigestLoop RSA.mgf1XorDigestLoop; rfl
  | fuel + 1, _ :: os, d, s, c => by
    unfold mgf1XorDigestLoop RSA.mgf1XorDigestLoop
    simp only [res_bind, res_emit, Res.ok_bind, update, finalizeReset, res_ofRes, xorInto_res,
      incCounter_res, mgf1XorDigestLoop_res olen fuel]

theorem mgf1XorDigest_res (o : Bytes) (d : DigestState) (s : Bytes) :
    (mgf1XorDigest o d s).res = RSA.mgf1XorDigest o d s := by
  unfold mgf1XorDigest RSA.mgf1XorDigest
  simp only [branch, res_bind, res_emit, Res.ok_bind, res_ite, res_ofRes, mgf1XorDigestLoop_res]

theorem oaepStep_res (len off : Nat) (st : Bool × UInt32 × Bool) (e : UInt8 × Nat) :
    (oaepStep len off st e).res = .ok (RSA.oaepStep st e) := rfl

theorem oaepDecryptInner_res (em : Bytes) (hSize : Nat) (pHash : Bytes) (k : Nat)
    (mgf : Bytes → Bytes → Leak (Bytes × Bytes)) :
    (oaepDecryptInner em hSize pHash k mgf).res = RSA.oaepDecryptInner em hSize pHash k (fun s d => (mgf s d).res) := by
  unfold oaepDecryptInner RSA.oaepDecryptInner
  simp only [branch, ctEq, res_bind, res_emit, Res.ok_bind, res_ite, res_ofRes, idx_res, splitAt_res, slice_res,
    forIn_res (oaepStep_res _ _)]

theorem oaepDecrypt_res (em : Bytes) (dg mg : DigestState) (label : Option Bytes) (k : Nat) :
    (oaepDecrypt em dg mg label k).res = RSA.oaepDecrypt em dg mg label k := by
  unfold oaepDecrypt RSA.oaepDecrypt
  simp only [branch, update, finalizeReset, res_bind, res_emit, Res.ok_bind, res_ite, res_ofRes, oaepDecryptInner_res,
    mgf1Xor_res, sliceFrom_res, Bool.not_eq_eq_eq_not, Bool.not_true]

theorem oaepDecryptDigest_res (em : Bytes) (D MGD : HashFn) (label : Option Bytes) (k : Nat) :
    (oaepDecryptDigest em D MGD label k).res = RSA.oaepDecryptDigest em D MGD label k := by
  unfold oaepDecryptDigest RSA.oaepDecryptDigest
  simp only [branch, res_bind, res_emit, Res.ok_bind, res_ite, res_ofRes, oaepDecryptInner_res,
    mgf1XorDigest_res, sliceFrom_res, Bool.not_eq_eq_eq_not, Bool.not_true]

theorem leftPad_res (b : Bytes) (len : Nat) : (leftPad b len).res = RSA.leftPad b len := by
  unfold leftPad RSA.leftPad
  simp only [branch, res_bind, res_emit, Res.ok_bind, res_ite, res_ofRes, subU_res, copyInto_res]

theorem uintToZeroizingBePad_res (x : BoxedUint) (len : Nat) :
    (uintToZeroizingBePad x len).res = RSA.uintToZeroizingBePad x len := by
  unfold uintToZeroizingBePad RSA.uintToZeroizingBePad
  simp only [res_bind, res_emit, Res.ok_bind, sliceFrom_res, leftPad_res]

/-! The private operation. -/

theorem widen_res (x : BoxedUint) (b : Nat) : (widen x b).res = x.widen b := rfl
theorem shorten_res (x : BoxedUint) (b : Nat) : (shorten x b).res = x.shorten b := rfl
theorem montyNew_res (x : BoxedUint) (p : MontyParams) : (montyNew x p).res = MontyForm.new x p := rfl
theorem montyMul_res (x y : MontyForm) : (montyMul x y).res = x.mul y := rfl
theorem primeAt_res (l : List BoxedUint) (i : Nat) : (primeAt l i).res = RSA.primeAt l i := rfl

theorem reduceVartime_res (x : BoxedUint) (p : MontyParams) : (reduceVartime x p).res = RSA.reduceVartime x p := by
  unfold reduceVartime RSA.reduceVartime
  simp only [branch, bn, res_bind, res_emit, Res.ok_bind, res_ite, res_ofRes, widen_res, shorten_res, montyNew_res]
  split
  · rfl
  · split <;> rfl

theorem powModParams_res (b e : BoxedUint) (p : MontyParams) : (powModParams b e p).res = RSA.powModParams b e p := by
  unfold powModParams RSA.powModParams
  simp only [bn, res_bind, res_emit, Res.ok_bind, res_ofRes, reduceVartime_res]

theorem mulModParams_res (a b : BoxedUint) (p : MontyParams) : (mulModParams a b p).res = RSA.mulModParams a b p := by
  unfold mulModParams RSA.mulModParams
  simp only [res_bind, res_ofRes, montyNew_res, montyMul_res]

theorem rsaEncrypt_res (k : PublicKey) (m : BoxedUint) : (rsaEncrypt k m).res = RSA.rsaEncrypt k m :=
  powModParams_res _ _ _

theorem blindLoop_res {σ : Type} (R : RngImpl σ) (n : BoxedUint) : ∀ (fuel : Nat) (s : σ),
    (blindLoop R n fuel s).res = RSA.blindLoop R n fuel s
  | 0, _ => rfl
  | fuel + 1, s => by
    unfold blindLoop RSA.blindLoop
    simp only [bn, res_bind, res_emit, Res.ok_bind]
    rcases R.randMod s n.val with ⟨_ | rv, s'⟩
    · rfl
    · simp only [branch_ok, res_bind, res_emit, Res.ok_bind, res_ofRes]
      cases (if (wrap n.nlimbs rv).isZero = true then oneWithPrecision n.prec else wrap n.nlimbs rv).invMod n with
      | none => simp only [res_bind, res_emit, Res.ok_bind, blindLoop_res R n fuel]
      | some ir => rfl

theorem debugAssert_res (b : Bool) : (debugAssert b).res = if b then .ok () else .panic .assert := by
  cases b <;> rfl

theorem blind_res {σ : Type} (R : RngImpl σ) (fuel : Nat) (s : σ) (k : PublicKey) (c : BoxedUint) (p : MontyParams) :
    (blind R fuel s k c p).res = RSA.blind R fuel s k c p := by
  unfold blind RSA.blind
  simp only [res_bind, debugAssert_res, blindLoop_res, powModParams_res, mulModParams_res, res_ofRes]
  cases hb : k.n.beq p.modulus.toBoxedUint with
  | false => rfl
  | true =>
    simp only [if_true, Res.ok_bind, Bool.not_true, Bool.false_eq_true, if_false]
    congr 1
    funext x
    congr 1
    funext y
    congr 1
    funext z
    by_cases h1 : z.prec = k.nBitsPrecision
    · by_cases h2 : x.1.2.prec = k.nBitsPrecision
      · simp only [h1, h2, decide_true, if_true, Res.ok_bind, ne_eq, not_true, if_false]
      · simp only [h1, h2, decide_true, decide_false, if_true, Res.ok_bind, ne_eq, not_true, not_false_iff, if_false,
          Bool.false_eq_true]
        rfl
    · simp only [h1, decide_false, ne_eq, not_false_iff, if_true, if_false, Bool.false_eq_true]
      rfl

theorem unblind_res (m u : BoxedUint) (p : MontyParams) : (unblind m u p).res = RSA.unblind m u p := by
  unfold unblind RSA.unblind
  simp only [res_bind, debugAssert_res, mulModParams_res]
  by_cases h1 : m.prec = u.prec
  · by_cases h2 : m.prec = p.prec
    · simp only [h1, ← h2, decide_true, if_true, Res.ok_bind, ne_eq, not_true, if_false]
    · simp only [h1, decide_true, if_true, Res.ok_bind, ne_eq, not_true, if_false]
      rw [h1] at h2
      simp only [h2, decide_false, if_false, not_false_iff, if_true, Bool.false_eq_true]
      rfl
  · simp only [h1, decide_false, ne_eq, not_false_iff, if_true, if_false, Bool.false_eq_true]
    rfl

theorem rsaPrivateExp_res (k : PrivateKey) (c : BoxedUint) : (rsaPrivateExp k c).res = RSA.rsaPrivateExp k c := by
  unfold rsaPrivateExp RSA.rsaPrivateExp
  simp only [res_bind, res_emit, Res.ok_bind]
  cases k.precomputed with
  | none => exact powModParams_res _ _ _
  | some pre =>
    cases decide (k.primes.length > 2) with
    | true => exact powModParams_res _ _ _
    | false =>
      simp only [bn, res_bind, res_emit, Res.ok_bind, res_ofRes, primeAt_res, montyNew_res, montyMul_res]

theorem rsaDecrypt_res {σ : Type} (R : RngImpl σ) (fuel : Nat) (rng : Option σ) (k : PrivateKey) (c : BoxedUint) :
    (rsaDecrypt R fuel rng k c).res = RSA.rsaDecrypt R fuel rng k c := by
  unfold rsaDecrypt RSA.rsaDecrypt
  simp only [bn, branch, res_bind, res_emit, Res.ok_bind, res_ite, res_ofRes]
  split
  · rfl
  · cases rng <;>
      simp only [res_bind, res_ofRes, blind_res, widen_res, shorten_res, rsaPrivateExp_res, unblind_res]

theorem rsaDecryptAndCheck_res {σ : Type} (R : RngImpl σ) (fuel : Nat) (k : PrivateKey) (rng : Option σ) (c : BoxedUint) :
    (rsaDecryptAndCheck R fuel k rng c).res = RSA.rsaDecryptAndCheck R fuel k rng c := by
  unfold rsaDecryptAndCheck RSA.rsaDecryptAndCheck
  simp only [bn, branch, res_bind, res_emit, Res.ok_bind, res_ite, res_ofRes, rsaDecrypt_res, rsaEncrypt_res,
    Bool.not_eq_eq_eq_not, Bool.not_true]

theorem pkcs1v15Decrypt_res {σ : Type} (R : RngImpl σ) (fuel : Nat) (rng : Option σ) (k : PrivateKey) (ct : Bytes) :
    (pkcs1v15Decrypt R fuel rng k ct).res = pkcs1v15.decrypt R fuel rng k ct := by
  unfold pkcs1v15Decrypt pkcs1v15.decrypt
  simp only [rsaDecryptAndCheck_res, res_bind, res_ofRes, uintToZeroizingBePad_res,
    pkcs1v15EncryptUnpad_res]

theorem oaepSchemeDecrypt_res {σ : Type} (R : RngImpl σ) (fuel : Nat) (rng : Option σ) (k : PrivateKey) (ct : Bytes)
    (dg mg : DigestState) (label : Option Bytes) :
    (oaepSchemeDecrypt R fuel rng k ct dg mg label).res = oaep.decrypt R fuel rng k ct dg mg label := by
  unfold oaepSchemeDecrypt oaep.decrypt
  simp only [rsaDecryptAndCheck_res, res_bind, res_ite, res_ofRes, uintToZeroizingBePad_res,
    oaepDecrypt_res]

theorem oaepSchemeDecryptDigest_res {σ : Type} (R : RngImpl σ) (fuel : Nat) (D MGD : HashFn) (rng : Option σ)
    (k : PrivateKey) (ct : Bytes) (label : Option Bytes) :
    (oaepSchemeDecryptDigest R fuel D MGD rng k ct label).res = oaep.decryptDigest R fuel D MGD rng k ct label := by
  unfold oaepSchemeDecryptDigest oaep.decryptDigest
  simp only [rsaDecryptAndCheck_res, res_bind, res_ite, res_ofRes, uintToZeroizingBePad_res,
    oaepDecryptDigest_res]

/-! ### The verdict and what follows it -/

/-- Positions found by the PKCS#1 v1.5 search are inside the buffer. -/
theorem pkcs1v15Fold_inv (n : Nat) : ∀ (l : List (UInt8 × Nat)) (st : UInt8 × UInt32), (∀ e ∈ l, e.2 < n) →
    (st.1 = 1 ∨ st.1 = 0 ∧ st.2.toNat < n) →
    (l.foldl RSA.pkcs1v15Step st).1 = 1 ∨
      (l.foldl RSA.pkcs1v15Step st).1 = 0 ∧ (l.foldl RSA.pkcs1v15Step st).2.toNat < n
  | [], _, _, h => h
  | e :: l, st, hl, h => by
    rw [List.foldl_cons]
    refine pkcs1v15Fold_inv n l _ (fun e he => hl e (List.mem_cons_of_mem _ he)) ?_
    have he := hl e List.mem_cons_self
    have hmod : (UInt32.ofNat e.2).toNat < n := lt_of_le_of_lt (by simp [Nat.mod_le]) he
    unfold RSA.pkcs1v15Step
    rcases h with h | ⟨h, h2⟩
    · by_cases hz : e.1 = 0
      · right; simpa [h, hz] using hmod
      · left; simp [h, hz]
    · right
      by_cases hz : e.1 = 0 <;> simp [h, h2, hz]

theorem pkcs1v15DecryptInner_bound {em : Bytes} {k : Nat} {v : UInt8} {out : Bytes} {ix : UInt32}
    (h : RSA.pkcs1v15DecryptInner em k = .ok (v, out, ix)) : ix.toNat ≤ out.length := by
  unfold RSA.pkcs1v15DecryptInner at h
  by_cases hk : k < 11
  · rw [if_pos hk] at h; cases h
  rw [if_neg hk] at h
  simp only [Res.bind_eq_ok] at h
  obtain ⟨b0, hb0, b1, hb1, h⟩ := h
  have hinv := pkcs1v15Fold_inv em.length (em.zipIdx.drop 2) (1, 0) (fun e he => by
    have := List.mem_zipIdx (List.mem_of_mem_drop he); omega) (Or.inl rfl)
  generalize (em.zipIdx.drop 2).foldl RSA.pkcs1v15Step (1, 0) = st at h hinv
  obtain ⟨lk, i⟩ := st
  simp only [Res.ok.injEq, Prod.mk.injEq] at h
  obtain ⟨-, rfl, h⟩ := h
  rw [← h]
  simp only at hinv
  split
  · next hv =>
    rcases hinv with rfl | ⟨rfl, hi⟩
    · simp at hv
    · rw [UInt32.toNat_add]
      refine le_trans (Nat.mod_le _ _) ?_
      simpa using hi
  · simp

/-- Positions found by the OAEP search are inside the buffer. -/
theorem oaepFold_inv (n : Nat) : ∀ (l : List (UInt8 × Nat)) (st : Bool × UInt32 × Bool), (∀ e ∈ l, e.2 < n) →
    (st.1 = true ∨ st.2.1.toNat < n) →
    (l.foldl RSA.oaepStep st).1 = true ∨ (l.foldl RSA.oaepStep st).2.1.toNat < n
  | [], _, _, h => h
  | e :: l, st, hl, h => by
    rw [List.foldl_cons]
    refine oaepFold_inv n l _ (fun e he => hl e (List.mem_cons_of_mem _ he)) ?_
    have he := hl e List.mem_cons_self
    have hmod : (UInt32.ofNat e.2).toNat < n := lt_of_le_of_lt (by simp [Nat.mod_le]) he
    obtain ⟨lk, i, nz⟩ := st
    unfold RSA.oaepStep
    cases lk
    · right; simpa using h
    · by_cases hz : e.1 = 1
      · right; simpa [hz] using hmod
      · left; simp [hz]

theorem oaepDecryptInner_bound {em : Bytes} {hSize k : Nat} {pHash : Bytes} {mgf : Bytes → Bytes → Res (Bytes × Bytes)}
    (hm : ∀ s d s' d', mgf s d = .ok (s', d') → SL s s' ∧ SL d d') {out : Bytes} {ix : UInt32}
    (h : RSA.oaepDecryptInner em hSize pHash k mgf = .ok (true, out, ix)) : ix.toNat ≤ out.length := by
  unfold RSA.oaepDecryptInner at h
  by_cases hk : k < 11
  · rw [if_pos hk] at h; cases h
  rw [if_neg hk] at h
  by_cases hk : k < hSize * 2 + 2
  · rw [if_pos hk] at h; cases h
  rw [if_neg hk] at h
  simp only [Res.bind_eq_ok] at h
  obtain ⟨b0, hb0, ⟨p1, p2⟩, hp, ⟨q1, q2⟩, hq, ⟨r1, r2⟩, hr, x, hx, h⟩ := h
  obtain ⟨hr1, hr2⟩ := hm _ _ _ _ hr
  have hinv := oaepFold_inv (r2.drop hSize).length (r2.drop hSize).zipIdx (true, 0, false) (fun e he => by
    have := List.mem_zipIdx he; omega) (Or.inl rfl)
  generalize (r2.drop hSize).zipIdx.foldl RSA.oaepStep (true, 0, false) = st at h hinv
  obtain ⟨lk, i, nz⟩ := st
  simp only [Res.ok.injEq, Prod.mk.injEq] at h
  obtain ⟨hv, rfl, rfl⟩ := h
  simp only [Bool.and_eq_true, Bool.not_eq_true'] at hv
  simp only [hv.2, Bool.false_eq_true, false_or, List.length_drop] at hinv
  have h1 : q1.length = hSize := by
    unfold RSA.splitAt at hq
    split at hq
    · cases hq; simp; omega
    · cases hq
  have h2 : p1.length = 1 := by
    unfold RSA.splitAt at hp
    split at hp
    · cases hp; simp; omega
    · cases hp
  unfold SL at hr1 hr2
  simp only [List.length_append, h2, ← hr1, h1]
  have e1 : (i + 2 + UInt32.ofNat (hSize * 2)).toNat ≤ i.toNat + 2 + hSize * 2 := by
    rw [UInt32.toNat_add, UInt32.toNat_add]
    refine le_trans (Nat.mod_le _ _) (Nat.add_le_add (le_trans (Nat.mod_le _ _) le_rfl) ?_)
    simp [Nat.mod_le]
  omega

/-- What a caller observes of a decryption: failure (and which), or success and the length of the message. -/
theorem tail_iff {V : Type} (p : V → Prop) [DecidablePred p] {x y : Leak (V × Bytes × UInt32)}
    (hxy : Rel (fun a b => SL a.2.1 b.2.1) x y)
    (hx : ∀ v o i, x.res = .ok (v, o, i) → ¬ p v → i.toNat ≤ o.length)
    (hy : ∀ v o i, y.res = .ok (v, o, i) → ¬ p v → i.toNat ≤ o.length)
    (f : V × Bytes × UInt32 → Leak Bytes)
    (hf : ∀ v o i, f (v, o, i) = branch (p v) (ofRes (.err .decryption)) (sliceFrom o i.toNat)) :
    ((x >>= f).ev = (y >>= f).ev ↔ Spec.outcome (x >>= f).res = Spec.outcome (y >>= f).res) := by
  obtain ⟨he, hr⟩ := hxy
  rcases x with ⟨e, r⟩
  rcases y with ⟨e', r'⟩
  simp only at he hr hx hy
  subst he
  cases r <;> cases r' <;> simp only [ResRel] at hr
  · next a b =>
    obtain ⟨v, o, i⟩ := a
    obtain ⟨w, o', j⟩ := b
    have hi := hx v o i rfl
    have hj := hy w o' j rfl
    have ho : o.length = o'.length := hr
    rw [ev_bind_ok (x := ⟨e, .ok (v, o, i)⟩) rfl, ev_bind_ok (x := ⟨e, .ok (w, o', j)⟩) rfl, List.append_cancel_left_eq,
      res_bind, res_bind]
    simp only [Res.ok_bind]
    rw [hf, hf]
    by_cases hv : p v <;> by_cases hw : p w
    · simp [branch, hv, hw]
    · simp [branch, hv, hw, sliceFrom, slice, RSA.slice, ← ho, Spec.outcome]
      rw [if_pos (by rw [ho]; exact hj hw)]; simp
    · simp [branch, hv, hw, sliceFrom, slice, RSA.slice, hi hv, Spec.outcome]
    · have h1 : i.toNat ≤ o'.length := ho ▸ hi hv
      have h2 := hj hw
      simp only [branch, hv, hw, sliceFrom, slice, RSA.slice, Spec.outcome, if_false, emit_bind, decide_false,
        h1, h2, le_refl, and_self, if_true, res_ofRes, ev_ofRes, List.cons.injEq, true_and, Ev.range.injEq, and_true,
        ho, Res.ok.injEq, List.length_take, min_self, List.length_drop]
      omega
  · subst hr; simp [bind_def, Leak.bind, Spec.outcome]
  · subst hr; simp [bind_def, Leak.bind, Spec.outcome]
  · simp [bind_def, Leak.bind, Spec.outcome]

theorem mgf1XorLoop_length : ∀ (fuel : Nat) (o : Bytes) (d : DigestState) (s : Bytes) (c : Counter) (p : Bytes × DigestState),
    RSA.mgf1XorLoop fuel o d s c = .ok p → SL o p.1
  | _, [], _, _, _, _, h => by unfold RSA.mgf1XorLoop at h; cases h; rfl
  | 0, _ :: _, _, _, _, _, h => by unfold RSA.mgf1XorLoop at h; cases h
  | fuel + 1, x :: os, d, s, c, p, h => by
    unfold RSA.mgf1XorLoop at h
    simp only [Res.bind_eq_ok] at h
    obtain ⟨_, _, _, _, ⟨t, d'⟩, ht, h⟩ := h
    cases h
    have := mgf1XorLoop_length fuel _ _ _ _ _ ht
    rw [xorInto_eq] at this ⊢
    simp only [SL, List.length_append, Spec.xorBytes, List.length_zipWith, List.length_drop, List.length_cons] at this ⊢
    omega

theorem mgf1Xor_length {o s : Bytes} {d : DigestState} {p : Bytes × DigestState} (h : RSA.mgf1Xor o d s = .ok p) :
    SL o p.1 := by
  unfold RSA.mgf1Xor at h
  split at h
  · exact mgf1XorLoop_length _ _ _ _ _ _ h
  · cases h

theorem mgf1XorDigestLoop_length : ∀ (fuel : Nat) (o : Bytes) (d : DigestState) (s : Bytes) (c : Counter)
    (p : Bytes × DigestState), RSA.mgf1XorDigestLoop fuel o d s c = .ok p → SL o p.1
  | _, [], _, _, _, _, h => by unfold RSA.mgf1XorDigestLoop at h; cases h; rfl
  | 0, _ :: _, _, _, _, _, h => by unfold RSA.mgf1XorDigestLoop at h; cases h
  | fuel + 1, x :: os, d, s, c, p, h => by
    unfold RSA.mgf1XorDigestLoop at h
    simp only [Res.bind_eq_ok] at h
    obtain ⟨⟨t, d'⟩, ht, h⟩ := h
    cases h
    have := mgf1XorDigestLoop_length fuel _ _ _ _ _ ht
    rw [xorInto_eq] at this ⊢
    simp only [SL, List.length_append, Spec.xorBytes, List.length_zipWith, List.length_drop, List.length_cons] at this ⊢
    omega

theorem mgf1XorDigest_length {o s : Bytes} {d : DigestState} {p : Bytes × DigestState}
    (h : RSA.mgf1XorDigest o d s = .ok p) : SL o p.1 := by
  unfold RSA.mgf1XorDigest at h
  split at h
  · exact mgf1XorDigestLoop_length _ _ _ _ _ _ h
  · cases h

theorem pkcs1v15EncryptUnpad_iff {em em' : Bytes} (h : SL em em') (k : Nat) :
    (pkcs1v15EncryptUnpad em k).ev = (pkcs1v15EncryptUnpad em' k).ev ↔
      Spec.outcome (RSA.pkcs1v15EncryptUnpad em k) = Spec.outcome (RSA.pkcs1v15EncryptUnpad em' k) := by
  rw [← pkcs1v15EncryptUnpad_res, ← pkcs1v15EncryptUnpad_res]
  unfold pkcs1v15EncryptUnpad
  refine tail_iff (fun v : UInt8 => v = 0) (pkcs1v15DecryptInner_rel h k) ?_ ?_ _ fun _ _ _ => rfl
  · intro v o i hr _
    rw [pkcs1v15DecryptInner_res] at hr
    exact pkcs1v15DecryptInner_bound hr
  · intro v o i hr _
    rw [pkcs1v15DecryptInner_res] at hr
    exact pkcs1v15DecryptInner_bound hr

theorem prefix_iff {α : Type} {x : Leak α} {a : α} (hx : x.res = .ok a) {f g : α → Leak Bytes}
    (h : (f a).ev = (g a).ev ↔ Spec.outcome (f a).res = Spec.outcome (g a).res) :
    (x >>= f).ev = (x >>= g).ev ↔ Spec.outcome (x >>= f).res = Spec.outcome (x >>= g).res := by
  rw [ev_bind_ok hx, ev_bind_ok hx, res_bind, res_bind, hx, List.append_cancel_left_eq]
  exact h

theorem oaepDecrypt_iff {em em' : Bytes} (h : SL em em') (dg mg : DigestState) (label : Option Bytes) (k : Nat) :
    (oaepDecrypt em dg mg label k).ev = (oaepDecrypt em' dg mg label k).ev ↔
      Spec.outcome (RSA.oaepDecrypt em dg mg label k) = Spec.outcome (RSA.oaepDecrypt em' dg mg label k) := by
  rw [← oaepDecrypt_res, ← oaepDecrypt_res]
  unfold oaepDecrypt
  by_cases hl : (label.getD []).length ≥ maxLabelLen
  · simp [hl, branch]
  simp only [branch_neg hl]
  refine prefix_iff (a := ()) rfl (prefix_iff rfl (prefix_iff rfl ?_))
  refine tail_iff (fun v : Bool => v = false) (oaepDecryptInner_rel h _ _ k ?_) ?_ ?_ _ fun v _ _ => by cases v <;> rfl
  · intro s s' d d' hs hd
    refine Rel.bind (mgf1Xor_rel hs ⟨rfl, rfl⟩ hd) fun p p' hp => ?_
    refine Rel.bind (mgf1Xor_rel hd hp.2 hp.1) fun q q' hq => ?_
    exact Rel.ok ⟨hp.1, hq.1⟩
  all_goals
    intro v o i hr hv
    rw [oaepDecryptInner_res] at hr
    cases v
    · exact absurd rfl hv
    refine oaepDecryptInner_bound ?_ hr
    intro s d s' d' hm
    simp only [res_bind, mgf1Xor_res, res_ofRes, Res.bind_eq_ok] at hm
    obtain ⟨p, hp, q, hq, hm⟩ := hm
    cases hm
    exact ⟨mgf1Xor_length hp, mgf1Xor_length hq⟩

theorem oaepDecryptDigest_iff {em em' : Bytes} (h : SL em em') (D MGD : HashFn) (label : Option Bytes) (k : Nat) :
    (oaepDecryptDigest em D MGD label k).ev = (oaepDecryptDigest em' D MGD label k).ev ↔
      Spec.outcome (RSA.oaepDecryptDigest em D MGD label k) = Spec.outcome (RSA.oaepDecryptDigest em' D MGD label k) := by
  rw [← oaepDecryptDigest_res, ← oaepDecryptDigest_res]
  unfold oaepDecryptDigest
  by_cases hl : (label.getD []).length ≥ maxLabelLen
  · simp [hl, branch]
  simp only [branch_neg hl]
  refine prefix_iff (a := ()) rfl (prefix_iff (a := ()) rfl ?_)
  refine tail_iff (fun v : Bool => v = false) (oaepDecryptInner_rel h _ _ k ?_) ?_ ?_ _ fun v _ _ => by cases v <;> rfl
  · intro s s' d d' hs hd
    refine Rel.bind (mgf1XorDigest_rel hs ⟨rfl, rfl⟩ hd) fun p p' hp => ?_
    refine Rel.bind (mgf1XorDigest_rel hd hp.2 hp.1) fun q q' hq => ?_
    exact Rel.ok ⟨hp.1, hq.1⟩
  all_goals
    intro v o i hr hv
    rw [oaepDecryptInner_res] at hr
    cases v
    · exact absurd rfl hv
    refine oaepDecryptInner_bound ?_ hr
    intro s d s' d' hm
    simp only [res_bind, mgf1XorDigest_res, res_ofRes, Res.bind_eq_ok] at hm
    obtain ⟨p, hp, q, hq, hm⟩ := hm
    cases hm
    exact ⟨mgf1XorDigest_length hp, mgf1XorDigest_length hq⟩

/-! ### Conversion of the decrypted integer -/

theorem octetLen_eq (x : BoxedUint) : Spec.octetLen x.val = (x.bits + 7) / 8 := by
  have : x.bits = x.val.size := by
    apply le_antisymm
    · rw [bits_le_iff]; exact Nat.lt_size_self _
    · rw [Nat.size_le]; exact x.val_lt_bits
  unfold Spec.octetLen
  rw [this]

theorem uintToZeroizingBePad_ev (x : BoxedUint) (k : Nat) (h : x.val < 256 ^ k) :
    (uintToZeroizingBePad x k).ev =
      [.opaque "leading_zeros", .alloc (8 * x.nlimbs),
        .range (8 * x.nlimbs) (8 * x.nlimbs - Spec.octetLen x.val) (8 * x.nlimbs), .branch false, .alloc k, .branch true,
        .range k (k - Spec.octetLen x.val) k, .copy (Spec.octetLen x.val)] := by
  have hiff : (x.bits + 7) / 8 ≤ k := by
    have := h
    rw [pow256, ← bits_le_iff] at this; omega
  have hb := bits_le_prec x
  have hlz : x.leadingZeros / 8 = 8 * x.nlimbs - (x.bits + 7) / 8 := by
    unfold leadingZeros; unfold prec at *; omega
  have hlen : x.toBeBytes.length = 8 * x.nlimbs := by simp [toBeBytes]
  have hsl := stripped_eq x
  unfold uintToZeroizingBePad
  rw [emit_bind, emit_bind]
  have hs : (sliceFrom x.toBeBytes (x.leadingZeros / 8)).res = .ok (beBytes ((x.bits + 7) / 8) x.val) := hsl
  simp only [ev_bind_ok hs]
  rw [octetLen_eq]
  unfold leftPad
  simp only [beBytes_length, if_false, if_true, branch, subU, emit_bind, RSA.subU, copyInto, sliceFrom,
    slice, ev_ofRes, hlen, List.length_replicate, hlz, hiff, not_lt.mpr hiff, decide_false, decide_true,
    List.cons_append, List.nil_append]
  rfl

/-- The observations of converting two integers agree exactly when they have equally many octets. -/
theorem uintToZeroizingBePad_iff {x y : BoxedUint} (hn : x.nlimbs = y.nlimbs) {k : Nat} (hx : x.val < 256 ^ k)
    (hy : y.val < 256 ^ k) :
    (uintToZeroizingBePad x k).ev = (uintToZeroizingBePad y k).ev ↔ Spec.octetLen x.val = Spec.octetLen y.val := by
  rw [uintToZeroizingBePad_ev x k hx, uintToZeroizingBePad_ev y k hy, hn]
  constructor
  · intro h
    simp only [List.cons.injEq, Ev.copy.injEq] at h
    exact h.2.2.2.2.2.2.2.1
  · intro h; rw [h]

theorem append_iff {a b c d : List Ev} (h : a.length = b.length) : a ++ c = b ++ d ↔ a = b ∧ c = d :=
  ⟨fun h' => List.append_inj h' h, fun h' => by rw [h'.1, h'.2]⟩

/-- Decrypt, convert, unpad: what two runs with the same key reveal. -/
theorem core_iff {n : Nat} {x y : BoxedUint} (hn : x.nlimbs = y.nlimbs) (hx : x.val < 256 ^ n)
    (hy : y.val < 256 ^ n) (f : Bytes → Leak Bytes) (P : Prop)
    (hf : (f (beBytes n x.val)).ev = (f (beBytes n y.val)).ev ↔ P) :
    (uintToZeroizingBePad x n >>= f).ev = (uintToZeroizingBePad y n >>= f).ev ↔
      Spec.octetLen x.val = Spec.octetLen y.val ∧ P := by
  have ex : (uintToZeroizingBePad x n).res = .ok (beBytes n x.val) := by
    rw [uintToZeroizingBePad_res, uintToZeroizingBePad_eq, if_pos hx]
  have ey : (uintToZeroizingBePad y n).res = .ok (beBytes n y.val) := by
    rw [uintToZeroizingBePad_res, uintToZeroizingBePad_eq, if_pos hy]
  rw [ev_bind_ok ex, ev_bind_ok ey, append_iff, uintToZeroizingBePad_iff hn hx hy, hf]
  rw [uintToZeroizingBePad_ev x n hx, uintToZeroizingBePad_ev y n hy]; rfl

/-! ### The private operation -/

/-- Numbers of the same storage size. -/
def SW (x y : BoxedUint) : Prop := x.nlimbs = y.nlimbs

theorem SW.prec {x y : BoxedUint} (h : SW x y) : x.prec = y.prec := by unfold BoxedUint.prec; rw [h]

theorem widen_rel {x x' : BoxedUint} (h : SW x x') (b : Nat) : Rel SW (widen x b) (widen x' b) := by
  refine Rel.emit (by rw [h]) (Rel.ofRes ?_)
  unfold BoxedUint.widen
  rw [h.prec]
  split
  · exact rfl
  · exact rfl

theorem shorten_rel {x x' : BoxedUint} (h : SW x x') (b : Nat) : Rel SW (shorten x b) (shorten x' b) := by
  refine Rel.emit (by rw [h]) (Rel.ofRes ?_)
  unfold BoxedUint.shorten
  rw [h.prec]
  split
  · exact rfl
  · exact rfl

theorem limbsOf_prec {p p' : MontyParams} (h : limbsOf p = limbsOf p') : p.prec = p'.prec := by
  unfold MontyParams.prec BoxedUint.prec
  unfold limbsOf at h
  rw [h]

theorem montyNew_rel {x x' : BoxedUint} {p p' : MontyParams} (h : SW x x') (hp : limbsOf p = limbsOf p') :
    Rel (fun a b => a.params = p ∧ b.params = p') (montyNew x p) (montyNew x' p') := by
  refine Rel.emit (by rw [h, hp]) (Rel.ofRes ?_)
  unfold MontyForm.new
  rw [h.prec, limbsOf_prec hp]
  split
  · exact ⟨rfl, rfl⟩
  · exact rfl

theorem montyMul_rel {x y x' y' : MontyForm} {p p' : MontyParams} (hx : x.params = p) (hy : y.params = p)
    (hx' : x'.params = p') (hy' : y'.params = p') (hp : limbsOf p = limbsOf p') :
    Rel (fun a b => a.params = p ∧ b.params = p') (montyMul x y) (montyMul x' y') := by
  refine Rel.emit (by rw [hx, hy, hx', hy', hp]) (Rel.ofRes ?_)
  unfold MontyForm.mul
  rw [if_pos (by rw [hx, hy]), if_pos (by rw [hx', hy'])]
  exact ⟨hx, hx'⟩

theorem retrieve_sw {a b : MontyForm} (h : limbsOf a.params = limbsOf b.params) : SW a.retrieve b.retrieve := h

theorem reduceVartime_rel {x x' : BoxedUint} {p p' : MontyParams} (h : SW x x') (hp : limbsOf p = limbsOf p') :
    Rel (fun a b => a.params = p ∧ b.params = p') (reduceVartime x p) (reduceVartime x' p') := by
  have hpp : p.modulus.toBoxedUint.prec = p'.modulus.toBoxedUint.prec := limbsOf_prec hp
  have hpp' : p.prec = p'.prec := limbsOf_prec hp
  unfold reduceVartime
  simp only [h.prec, hpp, hpp']
  have tail : ∀ y y' : BoxedUint, SW y y' → Rel (fun a b => a.params = p ∧ b.params = p')
      (bn "rem_vartime" [y.nlimbs, p.modulus.toBoxedUint.nlimbs] >>= fun _ =>
        widen (y.rem p.modulus.toBoxedUint) p'.prec >>= fun z => montyNew z p)
      (bn "rem_vartime" [y'.nlimbs, p'.modulus.toBoxedUint.nlimbs] >>= fun _ =>
        widen (y'.rem p'.modulus.toBoxedUint) p'.prec >>= fun z => montyNew z p') := by
    intro y y' hy
    refine Rel.emit (by rw [hy]; unfold limbsOf at hp; rw [hp]) (Rel.bind (widen_rel ?_ _) ?_)
    · exact hp
    · intro z z' hz
      exact montyNew_rel hz hp
  exact Rel.bind (Rel.branch Iff.rfl (widen_rel h _) (Rel.branch Iff.rfl (Rel.ok h) (shorten_rel h _))) tail

theorem powModParams_rel {b b' e e' : BoxedUint} {p p' : MontyParams} (hb : SW b b') (he : SW e e')
    (hp : limbsOf p = limbsOf p') :
    Rel (fun x y => x.nlimbs = limbsOf p ∧ y.nlimbs = limbsOf p') (powModParams b e p) (powModParams b' e' p') := by
  unfold powModParams
  refine Rel.bind (reduceVartime_rel hb hp) ?_
  rintro x y ⟨hx, hy⟩
  refine Rel.emit (by rw [hx, hy, hp, he]) (Rel.ok ?_)
  exact ⟨by rw [← hx]; rfl, by rw [← hy]; rfl⟩

theorem mulModParams_rel {a a' b b' : BoxedUint} {p p' : MontyParams} (ha : SW a a') (hb : SW b b')
    (hp : limbsOf p = limbsOf p') :
    Rel (fun x y => x.nlimbs = limbsOf p ∧ y.nlimbs = limbsOf p') (mulModParams a b p) (mulModParams a' b' p') := by
  unfold mulModParams
  refine Rel.bind (montyNew_rel ha hp) ?_
  rintro x y ⟨hx, hy⟩
  refine Rel.bind (montyNew_rel hb hp) ?_
  rintro x2 y2 ⟨hx2, hy2⟩
  refine Rel.bind (montyMul_rel hx hx2 hy hy2 hp) ?_
  rintro x3 y3 ⟨hx3, hy3⟩
  exact Rel.ok ⟨by rw [← hx3]; rfl, by rw [← hy3]; rfl⟩

theorem debugAssert_rel {b b' : Bool} (h : b = b') : Rel (fun _ _ => True) (debugAssert b) (debugAssert b') := by
  subst h
  exact Rel.refl (fun _ => trivial) _

/-- What one draw reveals. -/
theorem blindLoop_rel {σ σ' : Type} (R : RngImpl σ) (R' : RngImpl σ') {n n' : BoxedUint} (hn : 1 < n.val)
    (hn' : 1 < n'.val) (hw : SW n n') : ∀ (fuel : Nat) (s : σ) (s' : σ'), Spec.SameDraws R R' n.val n'.val fuel s s' →
    Rel (fun x y => SW x.1.1 y.1.1 ∧ SW x.1.2 y.1.2) (blindLoop R n fuel s) (blindLoop R' n' fuel s')
  | 0, _, _, _ => Rel.ofRes trivial
  | fuel + 1, s, s', h => by
    have hl := nlimbs_pos_of_val_pos n (by omega)
    have hl' := nlimbs_pos_of_val_pos n' (by omega)
    unfold Spec.SameDraws at h
    unfold blindLoop
    refine Rel.emit (by rw [hw]) ?_
    have hlt := R.randMod_lt s n.val
    have hlt' := R'.randMod_lt s' n'.val
    rcases hr : R.randMod s n.val with ⟨_ | r, t⟩ <;> rcases hr' : R'.randMod s' n'.val with ⟨_ | r', t'⟩ <;>
      rw [hr, hr'] at h <;> simp only at h
    · exact Rel.emit rfl (Rel.err _)
    · obtain ⟨h0, hc, hnext⟩ := h
      have hlt := hlt r (by rw [hr]) (by omega)
      have hlt' := hlt' r' (by rw [hr']) (by omega)
      have hv : (wrap n.nlimbs r).val = r := wrap_lt_val hlt
      have hv' : (wrap n'.nlimbs r').val = r' := wrap_lt_val hlt'
      simp only [branch_ok_bind]
      refine Rel.emit rfl (Rel.emit ?_ ?_)
      · unfold isZero; rw [hv, hv']; congr 1; simp [h0]
      have key : ∀ (m : BoxedUint) (a : Nat), 1 < m.val → 1 ≤ m.nlimbs → a < m.val →
          let x := if (wrap m.nlimbs a).isZero then oneWithPrecision m.prec else wrap m.nlimbs a
          x.nlimbs = m.nlimbs ∧
            ((a = 0 ∨ Nat.Coprime a m.val) ∧ (∃ y, x.invMod m = some y ∧ y.nlimbs = m.nlimbs) ∨
             (a ≠ 0 ∧ ¬ Nat.Coprime a m.val) ∧ x.invMod m = none) := by
        intro m a hm hml ha
        have hva : (wrap m.nlimbs a).val = a := wrap_lt_val ha
        have hlf : limbsFor m.prec = m.nlimbs := limbsFor_prec m hml
        by_cases ha0 : a = 0
        · subst ha0
          have hz : (wrap m.nlimbs 0).isZero = true := by unfold isZero; rw [hva]; rfl
          simp only [hz, if_true]
          refine ⟨hlf, Or.inl ⟨Or.inl (by trivial), ?_⟩⟩
          have h1v : (oneWithPrecision m.prec).val = 1 := by
            unfold oneWithPrecision; rw [hlf]; exact wrap_val_of_lt (Nat.one_lt_two_pow (by omega))
          unfold invMod
          rw [h1v]
          obtain ⟨y, hy⟩ := natInvMod_isSome (a := 1) (m := m.val) (by omega) (Nat.coprime_one_left _)
          rw [hy]; exact ⟨_, rfl, rfl⟩
        · have hz : (wrap m.nlimbs a).isZero = false := by unfold isZero; rw [hva]; simp [ha0]
          simp only [hz, Bool.false_eq_true, if_false]
          refine ⟨rfl, ?_⟩
          unfold invMod
          rw [hva]
          by_cases hco : Nat.Coprime a m.val
          · obtain ⟨y, hy⟩ := natInvMod_isSome (a := a) (m := m.val) (by omega) hco
            rw [hy]; exact Or.inl ⟨Or.inr hco, _, rfl, rfl⟩
          · rw [(natInvMod_none (by omega)).mpr hco]; exact Or.inr ⟨⟨ha0, hco⟩, rfl⟩
      obtain ⟨k1, k2⟩ := key n r hn hl hlt
      obtain ⟨k1', k2'⟩ := key n' r' hn' hl' hlt'
      refine Rel.emit ?_ ?_
      · rw [k1, k1', hw]
      rcases k2 with ⟨ha, y, hy, hyl⟩ | ⟨ha, hy⟩ <;> rcases k2' with ⟨ha', y', hy', hyl'⟩ | ⟨ha', hy'⟩
      · rw [hy, hy']
        exact Rel.emit rfl (Rel.ok ⟨k1.trans (Eq.trans hw k1'.symm), hyl.trans (Eq.trans hw hyl'.symm)⟩)
      · rw [h0, hc] at ha; exact absurd ha (by tauto)
      · rw [ne_eq, h0, hc] at ha; exact absurd ha (by tauto)
      · rw [hy, hy']
        exact Rel.emit rfl (blindLoop_rel R R' hn hn' hw fuel t t' (hnext ha.1 ha.2))

theorem blind_rel {σ σ' : Type} (R : RngImpl σ) (R' : RngImpl σ') (fuel : Nat) {s : σ} {s' : σ'} {k k' : PublicKey}
    (hk : k.Coherent) (hk' : k'.Coherent) (hn : 1 < k.n.val) (hn' : 1 < k'.n.val) (hw : SW k.n k'.n) (he : SW k.e k'.e)
    {c c' : BoxedUint} (hc : SW c c') (hd : Spec.SameDraws R R' k.n.val k'.n.val fuel s s') :
    Rel (fun x y => SW x.1.1 y.1.1 ∧ SW x.1.2 y.1.2) (blind R fuel s k c k.nParams) (blind R' fuel s' k' c' k'.nParams) := by
  have hp : limbsOf k.nParams = limbsOf k'.nParams := by
    unfold limbsOf
    unfold PublicKey.Coherent at hk hk'
    rw [hk, hk']; exact hw
  have hbits : k.nBitsPrecision = k'.nBitsPrecision := hw.prec
  have hb : ∀ {k : PublicKey}, k.Coherent → k.n.beq k.nParams.modulus.toBoxedUint = true := by
    intro k hk
    unfold PublicKey.Coherent at hk
    rw [hk]; simp [beq]
  unfold blind
  refine Rel.bind (debugAssert_rel (by rw [hb hk, hb hk'])) ?_
  intro _ _ _
  refine Rel.bind (blindLoop_rel R R' hn hn' hw fuel s s' hd) ?_
  rintro ⟨⟨r, ir⟩, t⟩ ⟨⟨r', ir'⟩, t'⟩ ⟨hr, hir⟩
  simp only at hr hir ⊢
  refine Rel.bind (powModParams_rel hr he hp) ?_
  rintro x x' ⟨hx, hx'⟩
  refine Rel.bind (mulModParams_rel hc (show SW x x' by unfold SW; rw [hx, hx', hp]) hp) ?_
  rintro y y' ⟨hy, hy'⟩
  have hyy : SW y y' := by unfold SW; rw [hy, hy', hp]
  refine Rel.bind (debugAssert_rel (by rw [hyy.prec, hbits])) ?_
  intro _ _ _
  refine Rel.bind (debugAssert_rel (by rw [hir.prec, hbits])) ?_
  intro _ _ _
  exact Rel.ok ⟨hyy, hir⟩

theorem unblind_rel {m m' u u' : BoxedUint} {p p' : MontyParams} (hm : SW m m') (hu : SW u u')
    (hp : limbsOf p = limbsOf p') : Rel SW (unblind m u p) (unblind m' u' p') := by
  unfold unblind
  refine Rel.bind (debugAssert_rel (by rw [hm.prec, hu.prec])) ?_
  intro _ _ _
  refine Rel.bind (debugAssert_rel (by rw [hm.prec, limbsOf_prec hp])) ?_
  intro _ _ _
  refine Rel.mono (mulModParams_rel hm hu hp) ?_
  rintro a b ⟨ha, hb⟩
  unfold SW; rw [ha, hb, hp]

theorem primeAt_rel {l l' : List BoxedUint} (h : l.map BoxedUint.nlimbs = l'.map BoxedUint.nlimbs) (i : Nat) :
    Rel SW (primeAt l i) (primeAt l' i) := by
  have hl : l.length = l'.length := by simpa using congrArg List.length h
  refine Rel.emit (by rw [hl]) (Rel.ofRes ?_)
  have hi := congrArg (fun x : List Nat => x[i]?) h
  simp only [List.getElem?_map] at hi
  unfold RSA.primeAt
  cases h1 : l[i]? <;> cases h2 : l'[i]? <;> rw [h1, h2] at hi <;> simp at hi
  · exact rfl
  · exact hi

theorem rsaPrivateExp_rel {k k' : PrivateKey} (hs : Spec.SameShape k k') (hk : k.pub.Coherent) (hk' : k'.pub.Coherent)
    (hq : ∀ pre, k.precomputed = some pre → pre.qinv.params = pre.pParams ∧ limbsOf pre.pParams = k.d.nlimbs ∧
      limbsOf pre.qParams = k.d.nlimbs)
    (hq' : ∀ pre, k'.precomputed = some pre → pre.qinv.params = pre.pParams ∧ limbsOf pre.pParams = k'.d.nlimbs ∧
      limbsOf pre.qParams = k'.d.nlimbs) {c c' : BoxedUint} (hc : SW c c') :
    Rel SW (rsaPrivateExp k c) (rsaPrivateExp k' c') := by
  have hp : limbsOf k.pub.nParams = limbsOf k'.pub.nParams := by
    unfold limbsOf
    unfold PublicKey.Coherent at hk hk'
    rw [hk, hk']; exact hs.n
  have hlen : k.primes.length = k'.primes.length := by simpa using congrArg List.length hs.primes
  have hplain : Rel SW (powModParams c k.d k.pub.nParams) (powModParams c' k'.d k'.pub.nParams) := by
    refine Rel.mono (powModParams_rel hc hs.d hp) ?_
    rintro a b ⟨ha, hb⟩
    unfold SW; rw [ha, hb, hp]
  have hcache := hs.cache
  unfold rsaPrivateExp
  simp only [hlen]
  cases h1 : k.precomputed <;> cases h2 : k'.precomputed <;> rw [h1, h2] at hcache <;> simp at hcache
  · exact Rel.emit rfl (Rel.emit rfl hplain)
  · rename_i pre pre'
    obtain ⟨a1, a2, a3⟩ := hq _ h1
    obtain ⟨b1, b2, b3⟩ := hq' _ h2
    refine Rel.emit rfl (Rel.emit rfl ?_)
    cases decide (k'.primes.length > 2) with
    | true => exact hplain
    | false =>
      simp only
      have hpp : limbsOf pre.pParams = limbsOf pre'.pParams := by rw [a2, b2]; exact hs.d
      have hqq : limbsOf pre.qParams = limbsOf pre'.qParams := by rw [a3, b3]; exact hs.d
      refine Rel.bind (primeAt_rel hs.primes 0) ?_
      intro _ _ _
      refine Rel.bind (primeAt_rel hs.primes 1) ?_
      intro q q' hqs
      refine Rel.bind (montyNew_rel hc hpp) ?_
      rintro cp cp' ⟨hcp, hcp'⟩
      refine Rel.emit (by rw [hcp, hcp', hpp, hcache.1]) ?_
      refine Rel.bind (montyNew_rel hc hqq) ?_
      rintro cq cq' ⟨hcq, hcq'⟩
      refine Rel.emit (by rw [hcq, hcq', hqq, hcache.2]) ?_
      have hm2 : SW (cq.pow pre.dq).retrieve (cq'.pow pre'.dq).retrieve := by
        show limbsOf cq.params = limbsOf cq'.params
        rw [hcq, hcq', hqq]
      refine Rel.bind (montyNew_rel hm2 hpp) ?_
      rintro m2r m2r' ⟨hm, hm'⟩
      have hpa : (cp.pow pre.dp).params = pre.pParams := hcp
      have hpa' : (cp'.pow pre'.dp).params = pre'.pParams := hcp'
      refine Rel.emit (by rw [hm, hm', hpp, hpa, hpa', hpp]) ?_
      refine Rel.bind (R := fun a b => a.params = pre.pParams ∧ b.params = pre'.pParams) (Rel.ofRes ?_) ?_
      · unfold MontyForm.sub
        rw [if_pos (by rw [hpa, hm]), if_pos (by rw [hpa', hm'])]
        exact ⟨hpa, hpa'⟩
      rintro d1 d1' ⟨hd1, hd1'⟩
      refine Rel.bind (montyMul_rel a1 hd1 b1 hd1' hpp) ?_
      rintro x x' ⟨hx, hx'⟩
      have hxx : SW x.retrieve x'.retrieve := by
        show limbsOf x.params = limbsOf x'.params
        rw [hx, hx', hpp]
      refine Rel.emit (by rw [hxx, hqs]) ?_
      have hy : SW (x.retrieve.wrappingMul q) (x'.retrieve.wrappingMul q') := hxx
      refine Rel.emit (by rw [hy, hm2]) (Rel.ok ?_)
      show max _ _ = max _ _
      rw [hy, hm2]

theorem modulus_one_lt {k : PrivateKey} (hk : Spec.WellFormed k) : 1 < k.pub.n.val := by
  have hn := coherent_pos hk.coherent
  have h2 := hk.numbers.two
  rcases hp : k.primes.map BoxedUint.val with _ | ⟨p, ps⟩
  · rw [hp] at h2; simp at h2
  · have hpm : p ∈ k.primes.map BoxedUint.val := by rw [hp]; simp
    have hd : p ∣ k.pub.n.val := by rw [← hk.numbers.prod]; exact List.dvd_prod hpm
    exact lt_of_lt_of_le (hk.numbers.prime p hpm).one_lt (Nat.le_of_dvd hn hd)

theorem rsaDecrypt_rel {σ σ' : Type} (R : RngImpl σ) (R' : RngImpl σ') (fuel : Nat) {rng : Option σ} {rng' : Option σ'}
    {k k' : PrivateKey} (hs : Spec.SameShape k k') (hk : Spec.WellFormed k) (hk' : Spec.WellFormed k')
    (hb : Spec.SameBlinding R R' k.pub.n.val k'.pub.n.val fuel rng rng') {c c' : BoxedUint} (hc : SW c c')
    (hlt : c.val < k.pub.n.val) (hlt' : c'.val < k'.pub.n.val) :
    Rel (fun x y => SW x.1 y.1) (rsaDecrypt R fuel rng k c) (rsaDecrypt R' fuel rng' k' c') := by
  have hn := modulus_one_lt hk
  have hn' := modulus_one_lt hk'
  have hp : limbsOf k.pub.nParams = limbsOf k'.pub.nParams := by
    unfold limbsOf
    rw [hk.coherent, hk'.coherent]; exact hs.n
  have hbits : k.d.prec = k'.d.prec := SW.prec hs.d
  have hpp := limbsOf_prec hp
  have hg : c.ge k.pub.n = false := by simp [ge, BoxedUint.lt, hlt]
  have hg' : c'.ge k'.pub.n = false := by simp [ge, BoxedUint.lt, hlt']
  have hexp : ∀ {x x' : BoxedUint}, SW x x' → Rel SW (rsaPrivateExp k x) (rsaPrivateExp k' x') := fun h =>
    rsaPrivateExp_rel hs hk.coherent hk'.coherent
      (fun pre hpre => ⟨(hk.cache pre hpre).qinv_params, (hk.cache pre hpre).p_width, (hk.cache pre hpre).q_width⟩)
      (fun pre hpre => ⟨(hk'.cache pre hpre).qinv_params, (hk'.cache pre hpre).p_width, (hk'.cache pre hpre).q_width⟩) h
  unfold rsaDecrypt
  simp only [hg, hg', Bool.false_eq_true, if_false, hbits, hpp]
  refine Rel.emit (by rw [hc, hs.n]) (Rel.emit rfl ?_)
  match rng, rng', hb with
  | none, none, _ =>
    refine Rel.emit rfl (Rel.bind (widen_rel hc _) ?_)
    intro x x' hx
    refine Rel.bind (hexp hx) ?_
    intro y y' hy
    refine Rel.bind (shorten_rel hy _) ?_
    intro z z' hz
    exact Rel.ok hz
  | some s, some s', hb =>
    refine Rel.emit rfl (Rel.bind (blind_rel R R' fuel hk.coherent hk'.coherent hn hn' hs.n hs.e hc hb) ?_)
    rintro ⟨⟨a, u⟩, t⟩ ⟨⟨a', u'⟩, t'⟩ ⟨ha, hu⟩
    simp only at ha hu ⊢
    refine Rel.bind (widen_rel ha _) ?_
    intro x x' hx
    refine Rel.bind (hexp hx) ?_
    intro y y' hy
    refine Rel.bind (shorten_rel hy _) ?_
    intro z z' hz
    refine Rel.bind (unblind_rel hz hu hp) ?_
    intro w w' hw
    exact Rel.ok hw

/-- With the result re-encrypting to the input. -/
theorem rsaDecryptAndCheck_rel {σ σ' : Type} (R : RngImpl σ) (R' : RngImpl σ') (fuel : Nat) {rng : Option σ}
    {rng' : Option σ'} {k k' : PrivateKey} (hs : Spec.SameShape k k') (hk : Spec.WellFormed k) (hk' : Spec.WellFormed k')
    (hb : Spec.SameBlinding R R' k.pub.n.val k'.pub.n.val fuel rng rng') {c c' : BoxedUint}
    (hc : c.nlimbs = k.pub.n.nlimbs) (hc' : c'.nlimbs = k'.pub.n.nlimbs)
    (hlt : c.val < k.pub.n.val) (hlt' : c'.val < k'.pub.n.val) :
    Rel (fun x y => SW x.1 y.1) (rsaDecryptAndCheck R fuel k rng c) (rsaDecryptAndCheck R' fuel k' rng' c') := by
  have hp : limbsOf k.pub.nParams = limbsOf k'.pub.nParams := by
    unfold limbsOf
    rw [hk.coherent, hk'.coherent]; exact hs.n
  have hcc : SW c c' := by unfold SW; rw [hc, hc', hs.n]
  have hrel := rsaDecrypt_rel R R' fuel hs hk hk' hb hcc hlt hlt'
  -- the check succeeds on every result
  have hcheck : ∀ {σ : Type} (R : RngImpl σ) (rng : Option σ) {k : PrivateKey} (hk : Spec.WellFormed k) (c : BoxedUint),
      c.nlimbs = k.pub.n.nlimbs → c.val < k.pub.n.val → ∀ m r, RSA.rsaDecrypt R fuel rng k c = .ok (m, r) →
      ∃ y, RSA.rsaEncrypt k.pub m = .ok y ∧ c.beq y = true := by
    intro σ R rng k hk c hc hlt m r h
    rcases rsaDecryptAndCheck_cases R fuel rng hk c hc hlt with ⟨r2, h2⟩ | ⟨_, h2⟩ | ⟨_, h2⟩ <;>
      unfold RSA.rsaDecryptAndCheck at h2 <;> rw [h, Res.ok_bind] at h2 <;> simp only at h2
    · obtain ⟨y, hy, h3⟩ := Res.bind_eq_ok.mp h2
      refine ⟨y, hy, ?_⟩
      cases hbq : c.beq y with
      | true => rfl
      | false => rw [hbq] at h3; cases h3
    · rw [rsaEncrypt_eq _ hk.coherent, Res.ok_bind] at h2
      split at h2 <;> cases h2
    · rw [rsaEncrypt_eq _ hk.coherent, Res.ok_bind] at h2
      split at h2 <;> cases h2
  unfold rsaDecryptAndCheck
  have h1 := rsaDecrypt_res R fuel rng k c
  have h1' := rsaDecrypt_res R' fuel rng' k' c'
  generalize rsaDecrypt R fuel rng k c = X at hrel h1
  generalize rsaDecrypt R' fuel rng' k' c' = Y at hrel h1'
  rcases X with ⟨ev, X⟩
  rcases Y with ⟨ev', Y⟩
  obtain ⟨he, hr⟩ := hrel
  simp only at he hr h1 h1'
  subst he
  cases X <;> cases Y <;> simp only [ResRel] at hr
  · rename_i x y
    obtain ⟨v, hv, hvb⟩ := hcheck R rng hk c hc hlt x.1 x.2 h1.symm
    obtain ⟨v', hv', hvb'⟩ := hcheck R' rng' hk' c' hc' hlt' y.1 y.2 h1'.symm
    have henc := powModParams_rel hr hs.e hp
    have e1 : (rsaEncrypt k.pub x.1).res = .ok v := by rw [rsaEncrypt_res, hv]
    have e2 : (rsaEncrypt k'.pub y.1).res = .ok v' := by rw [rsaEncrypt_res, hv']
    have hev : (rsaEncrypt k.pub x.1).ev = (rsaEncrypt k'.pub y.1).ev := henc.ev
    have hvw : v.nlimbs = v'.nlimbs := by
      have h3 := henc.res
      unfold rsaEncrypt at e1 e2
      rw [e1, e2] at h3
      rw [h3.1, h3.2, hp]
    refine ⟨?_, ?_⟩
    · show ev ++ (rsaEncrypt k.pub x.1 >>= _).ev = ev ++ (rsaEncrypt k'.pub y.1 >>= _).ev
      rw [ev_bind_ok e1, ev_bind_ok e2, hev]
      simp only [bn, branch, emit_bind, ev_ofRes, hvb, hvb', hvw, show c.nlimbs = c'.nlimbs from hcc, Bool.true_eq_false,
        decide_false, if_false]
    · show ResRel _ (rsaEncrypt k.pub x.1 >>= _).res (rsaEncrypt k'.pub y.1 >>= _).res
      simp only [res_bind, e1, e2, Res.ok_bind, bn, branch, res_emit, res_ofRes, hvb, hvb', Bool.true_eq_false, if_false]
      exact hr
  · subst hr; exact ⟨rfl, rfl⟩
  · subst hr; exact ⟨rfl, rfl⟩
  · exact ⟨rfl, trivial⟩

theorem sameDraws_refl {σ : Type} (R : RngImpl σ) (n : Nat) : ∀ (fuel : Nat) (s : σ), Spec.SameDraws R R n n fuel s s
  | 0, _ => trivial
  | fuel + 1, s => by
    unfold Spec.SameDraws
    rcases R.randMod s n with ⟨_ | r, t⟩
    · trivial
    · exact ⟨Iff.rfl, Iff.rfl, fun _ _ => sameDraws_refl R n fuel t⟩

theorem sameBlinding_refl {σ : Type} (R : RngImpl σ) (n fuel : Nat) : ∀ rng : Option σ, Spec.SameBlinding R R n n fuel rng rng
  | none => trivial
  | some s => sameDraws_refl R n fuel s

theorem sameShape_refl (k : PrivateKey) : Spec.SameShape k k := ⟨rfl, rfl, rfl, rfl, rfl⟩

/-- The private operation of a well-formed key: the same observations, whatever the ciphertext. -/
theorem rsaDecryptAndCheck_run {σ : Type} (R : RngImpl σ) (fuel : Nat) (rng : Option σ) {k : PrivateKey}
    (hk : Spec.WellFormed k) (hb : Spec.BlindingOk R k.pub.n.val fuel rng) :
    ∃ E : List Ev, ∀ ct : Bytes, ct.length ≤ 8 * k.pub.n.nlimbs → beVal ct < k.pub.n.val → ∀ f : BoxedUint → Leak Bytes,
    ((ofRes (fromBeSlice ct k.pub.nBitsPrecision) >>= fun c =>
        rsaDecryptAndCheck R fuel k rng c >>= fun p => f p.1) : Leak Bytes) =
      ⟨E ++ (f (wrap k.pub.n.nlimbs (beVal ct ^ k.d.val % k.pub.n.val))).ev,
        (f (wrap k.pub.n.nlimbs (beVal ct ^ k.d.val % k.pub.n.val))).res⟩ := by
  have hco : k.pub.Coherent := hk.coherent
  refine ⟨(rsaDecryptAndCheck R fuel k rng (wrap k.pub.n.nlimbs 0)).ev, ?_⟩
  intro ct hl hv f
  have hwv : (wrap k.pub.n.nlimbs (beVal ct)).val = beVal ct := wrap_lt_val hv
  have h0 : (wrap k.pub.n.nlimbs 0).val = 0 := wrap_val_of_lt (by positivity)
  have hlt : (wrap k.pub.n.nlimbs (beVal ct)).val < k.pub.n.val := by rw [hwv]; exact hv
  obtain ⟨r, hr⟩ := rsaDecryptAndCheck_ok R fuel rng hk (wrap k.pub.n.nlimbs (beVal ct)) rfl hlt hb
  have hrel := rsaDecryptAndCheck_rel R R fuel (sameShape_refl k) hk hk (sameBlinding_refl R _ fuel rng)
    (c := wrap k.pub.n.nlimbs (beVal ct)) (c' := wrap k.pub.n.nlimbs 0) rfl rfl hlt (by rw [h0]; omega)
  rw [fromBeSlice_nprec _ hco, if_pos hl, ofRes_ok_bind, ← hrel.ev]
  rw [← rsaDecryptAndCheck_res] at hr
  generalize rsaDecryptAndCheck R fuel k rng (wrap k.pub.n.nlimbs (beVal ct)) = X at hr
  rcases X with ⟨ev, X⟩
  simp only at hr
  subst hr
  rw [hwv]
  rfl

end leak
end RSA
