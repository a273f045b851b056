import Verif.Proof.LeakOps
import Verif.Spec.Trace

/- What the observing versions of the decryption routines record, in absolute terms. -/
namespace RSA
open BoxedUint

namespace Leak
variable {α β : Type}

/-- A run that returns a value satisfying `P` and makes the observations `E`. -/
def Run (x : Leak α) (E : List Ev) (P : α → Prop) : Prop := ∃ a, x = ⟨E, .ok a⟩ ∧ P a

theorem Run.ok {a : α} {P : α → Prop} (h : P a) : Run (ofRes (.ok a)) [] P := ⟨a, rfl, h⟩

theorem Run.bind {x : Leak α} {E E' : List Ev} {P : α → Prop} {f : α → Leak β} {Q : β → Prop} (h : Run x E P)
    (hf : ∀ a, P a → Run (f a) E' Q) : Run (x >>= f) (E ++ E') Q := by
  obtain ⟨a, rfl, ha⟩ := h
  obtain ⟨b, hb, hq⟩ := hf a ha
  refine ⟨b, ?_, hq⟩
  show (⟨E ++ (f a).ev, (f a).res⟩ : Leak β) = _
  rw [hb]

theorem Run.emit {e : Ev} {E : List Ev} {f : Unit → Leak β} {Q : β → Prop} (hf : Run (f ()) E Q) :
    Run (Leak.emit e >>= f) (e :: E) Q := by
  obtain ⟨b, hb, hq⟩ := hf
  exact ⟨b, by rw [emit_bind, hb], hq⟩

theorem Run.mono {x : Leak α} {E : List Ev} {P Q : α → Prop} (h : Run x E P) (hpq : ∀ a, P a → Q a) : Run x E Q := by
  obtain ⟨a, ha, hp⟩ := h
  exact ⟨a, ha, hpq a hp⟩

theorem Run.of_res {x : Leak α} {E : List Ev} {P : α → Prop} {a : α} (h : Run x E P) (hr : x.res = .ok a) : P a := by
  obtain ⟨b, rfl, hp⟩ := h
  cases hr; exact hp

theorem Run.ev {x : Leak α} {E : List Ev} {P : α → Prop} (h : Run x E P) : x.ev = E := by
  obtain ⟨b, rfl, -⟩ := h
  rfl

theorem Run.cast {x : Leak α} {E E' : List Ev} {P : α → Prop} (h : Run x E P) (he : E = E') : Run x E' P := he ▸ h

/-- A run whose value is known. -/
theorem Run.intro {x : Leak α} {a : α} {E : List Ev} {P : α → Prop} (he : x.ev = E) (hr : x.res = .ok a) (h : P a) :
    Run x E P := by
  rcases x with ⟨e, r⟩
  simp only at he hr
  subst he hr
  exact ⟨a, rfl, h⟩

end Leak

namespace leak
open Leak

theorem branch_pos_run {α : Type} {c : Prop} [Decidable c] (h : c) {x y : Leak α} {E : List Ev} {P : α → Prop}
    (hx : Run x E P) : Run (branch c x y) (.branch true :: E) P := by
  rw [branch_pos h]; exact Run.emit hx

theorem branch_neg_run {α : Type} {c : Prop} [Decidable c] (h : ¬ c) {x y : Leak α} {E : List Ev} {P : α → Prop}
    (hy : Run y E P) : Run (branch c x y) (.branch false :: E) P := by
  rw [branch_neg h]; exact Run.emit hy

theorem idx_run {l : Bytes} {i : Nat} (h : i < l.length) : Run (idx l i) [.read l.length i] (fun b => b = l[i]) :=
  Run.intro rfl (by rw [idx_res]; unfold RSA.idx; rw [List.getElem?_eq_getElem h]) rfl

theorem slice_run {l : Bytes} {lo hi : Nat} (h : lo ≤ hi) (h' : hi ≤ l.length) :
    Run (slice l lo hi) [.range l.length lo hi] (fun b => b = (l.take hi).drop lo ∧ b.length = hi - lo) := by
  refine Run.intro rfl (a := (l.take hi).drop lo) ?_ ⟨rfl, by simp; omega⟩
  rw [slice_res]; unfold RSA.slice; rw [if_pos ⟨h, h'⟩]

theorem copyInto_run {d s : Bytes} {lo hi : Nat} (h : lo ≤ hi) (h' : hi ≤ d.length) (hs : s.length = hi - lo) :
    Run (copyInto d lo hi s) [.range d.length lo hi, .copy s.length] (fun b => b.length = d.length) := by
  have hr := copyInto_of_le h h' hs
  exact Run.intro rfl (by rw [copyInto_res]; exact hr) (by simp; omega)

theorem splitAt_run {l : Bytes} {i : Nat} (h : i ≤ l.length) :
    Run (splitAt l i) [.range l.length 0 i] (fun p => p.1 = l.take i ∧ p.2 = l.drop i) := by
  refine Run.intro rfl (a := (l.take i, l.drop i)) ?_ ⟨rfl, rfl⟩
  rw [splitAt_res]; unfold RSA.splitAt; rw [if_pos h]

theorem update_run (d : DigestState) (x : Bytes) : Run (update d x) [.absorb x.length] (fun d' => d' = d.update x) :=
  ⟨_, rfl, rfl⟩

theorem finalizeReset_run (d : DigestState) :
    Run (finalizeReset d) [.finalize d.buf.length] (fun p => p = d.finalizeReset) := ⟨_, rfl, rfl⟩

/-! ### The counter and the inner loop -/

theorem incCounter_run (ctr : Counter) (c : Nat) (h : ctr.bytes = beBytes 4 c) :
    Run (incCounter ctr) (Spec.counterTrace c) (fun x => x.bytes = beBytes 4 (c + 1)) := by
  refine Run.intro ?_ (incCounter_res ctr) (incCounter_bytes ctr c h)
  rcases ctr with ⟨b0, b1, b2, b3⟩
  rw [beBytes4] at h
  simp only [Counter.bytes, List.cons.injEq, and_true] at h
  obtain ⟨rfl, rfl, rfl, rfl⟩ := h
  unfold incCounter Spec.counterTrace
  by_cases h3 : c % 256 = 255
  · have z3 := (ofNat_add_one_eq_zero c).mpr h3
    have g3 : (c + 1) % 256 = 0 := by omega
    by_cases h2 : c / 256 % 256 = 255
    · have z2 := (ofNat_add_one_eq_zero (c / 256)).mpr h2
      have g2 : (c + 1) % 256 ^ 2 = 0 := by omega
      by_cases h1 : c / 256 / 256 % 256 = 255
      · have z1 := (ofNat_add_one_eq_zero (c / 256 / 256)).mpr h1
        have g1 : (c + 1) % 256 ^ 3 = 0 := by omega
        have z0 := ofNat_add_one_eq_zero (c / 256 / 256 / 256)
        by_cases h0 : c / 256 / 256 / 256 % 256 = 255
        · have g0 : (c + 1) % 256 ^ 4 = 0 := by omega
          simp only [branch, z3, z2, z1, z0.mpr h0, g3, g2, g1, g0, ne_eq, not_true, decide_false, if_false, emit_bind]
          rfl
        · have g0 : ¬ (c + 1) % 256 ^ 4 = 0 := by omega
          have z0 : ¬ _ := fun h => h0 (z0.mp h)
          simp only [branch, z3, z2, z1, z0, g3, g2, g1, g0, ne_eq, not_true, not_false_iff, decide_false, decide_true,
            if_false, if_true, emit_bind]
          rfl
      · have z1 : ¬ UInt8.ofNat (c / 256 / 256 % 256) + 1 = 0 := fun h => h1 ((ofNat_add_one_eq_zero _).mp h)
        have g1 : ¬ (c + 1) % 256 ^ 3 = 0 := by omega
        simp only [branch, z3, z2, z1, g3, g2, g1, ne_eq, not_true, not_false_iff, decide_false, decide_true,
          if_false, if_true, emit_bind]
        rfl
    · have z2 : ¬ UInt8.ofNat (c / 256 % 256) + 1 = 0 := fun h => h2 ((ofNat_add_one_eq_zero _).mp h)
      have g2 : ¬ (c + 1) % 256 ^ 2 = 0 := by omega
      simp only [branch, z3, z2, g3, g2, ne_eq, not_true, not_false_iff, decide_false, decide_true, if_false, if_true,
        emit_bind]
      rfl
  · have z3 : ¬ UInt8.ofNat (c % 256) + 1 = 0 := fun h => h3 ((ofNat_add_one_eq_zero _).mp h)
    have g3 : ¬ (c + 1) % 256 = 0 := by omega
    simp only [branch, z3, g3, ne_eq, not_false_iff, decide_true, if_true, emit_bind]
    rfl

theorem xorInto_run (dlen olen : Nat) : ∀ (ds os : Bytes) (j i : Nat),
    Run (xorInto dlen olen j i ds os)
      ((List.range (min ds.length os.length)).flatMap (fun t => [.branch false, .read dlen (j + t), .write olen (i + t)]) ++
        [.branch true])
      (fun p => p.1.length = min ds.length os.length ∧ p.2 = os.drop ds.length)
  | [], os, j, i => by
    unfold xorInto
    exact (Run.emit (Run.ok ⟨by simp, rfl⟩)).cast (by simp)
  | _ :: _, [], j, i => by
    unfold xorInto
    exact (Run.emit (Run.ok ⟨by simp, by simp⟩)).cast (by simp)
  | d :: ds, o :: os, j, i => by
    unfold xorInto
    have ih := xorInto_run dlen olen ds os (j + 1) (i + 1)
    refine (Run.emit (Run.emit (Run.emit (Run.bind (E' := []) ih ?_)))).cast ?_
    · rintro ⟨a, b⟩ ⟨h1, h2⟩
      refine Run.ok ⟨?_, by simpa using h2⟩
      simp only [List.length_cons] at h1 ⊢
      omega
    · rw [show min (d :: ds).length (o :: os).length = min ds.length os.length + 1 by simp [Nat.succ_min_succ],
        List.range_succ_eq_map]
      simp only [List.flatMap_cons, List.flatMap_map, List.append_nil, Nat.add_zero, List.cons_append, List.nil_append,
        Nat.succ_eq_add_one]
      congr 5
      funext t
      rw [show j + 1 + t = j + (t + 1) by omega, show i + 1 + t = i + (t + 1) by omega]

/-! ### MGF1 -/

/-- `n` blocks from number `b` on, the first hashed on top of `pre` octets. -/
def blocksFrom (hash : Nat → List Ev) (h olen : Nat) : Nat → Nat → Nat → List Ev
  | _, _, 0 => []
  | b, pre, n + 1 => (.branch true :: (hash pre ++ Spec.maskTrace h olen (b * h) (min h (olen - b * h)) ++
      Spec.counterTrace b)) ++ blocksFrom hash h olen (b + 1) 0 n

theorem blocksFrom_eq (hash : Nat → List Ev) (h olen : Nat) : ∀ (n b pre : Nat),
    blocksFrom hash h olen b pre n = (List.range' b n).flatMap (fun i => .branch true :: (hash (if i = b then pre else 0) ++
      Spec.maskTrace h olen (i * h) (min h (olen - i * h)) ++ Spec.counterTrace i))
  | 0, _, _ => rfl
  | n + 1, b, pre => by
    unfold blocksFrom
    rw [List.range'_succ, List.flatMap_cons, if_pos rfl, blocksFrom_eq hash h olen n]
    congr 1
    refine List.flatMap_congr fun i hi => ?_
    rw [List.mem_range'_1] at hi
    rw [ite_self, if_neg (by omega)]

theorem blocks_succ {h out : Nat} (hpos : 0 < h) (ho : 0 < out) :
    (out + h - 1) / h = (out - h + h - 1) / h + 1 := by
  by_cases hle : h ≤ out
  · rw [show out - h + h = out by omega, show out + h - 1 = out - 1 + h by omega, Nat.add_div_right _ hpos]
  · rw [show out - h + h - 1 = h - 1 by omega, Nat.div_eq_of_lt (show h - 1 < h by omega),
      show out + h - 1 = out - 1 + h by omega, Nat.add_div_right _ hpos, Nat.div_eq_of_lt (by omega)]

theorem mgf1XorLoop_run {olen h : Nat} (hpos : 0 < h) {seed : Bytes} : ∀ (fuel : Nat) (out : Bytes) (dg : DigestState)
    (ctr : Counter) (b : Nat), out.length ≤ fuel → dg.fn.outLen = h → ctr.bytes = beBytes 4 b →
    out.length = olen - b * h →
    Run (mgf1XorLoop olen fuel out dg seed ctr)
      (blocksFrom (Spec.blockHashTrace seed.length) h olen b dg.buf.length ((out.length + h - 1) / h) ++ [.branch false])
      (fun p => p.1.length = out.length ∧ p.2.fn = dg.fn ∧ p.2.buf = if out.length = 0 then dg.buf else [])
  | fuel, [], dg, ctr, b, _, _, _, _ => by
    unfold mgf1XorLoop
    refine (Run.emit (Run.ok ⟨rfl, rfl, rfl⟩)).cast ?_
    rw [List.length_nil, Nat.zero_add, Nat.div_eq_of_lt (by omega)]
    rfl
  | 0, _ :: _, _, _, _, hf, _, _, _ => by simp at hf
  | fuel + 1, o :: os, dg, ctr, b, hf, hh, hc, hl => by
    have hlen : (o :: os).length = os.length + 1 := rfl
    rw [hlen] at hl hf ⊢
    rw [blocks_succ hpos (by omega)]
    unfold mgf1XorLoop blocksFrom
    have hi : olen - (os.length + 1) = b * h := by omega
    simp only [hi]
    have hcl : ctr.bytes.length = 4 := rfl
    -- the block
    refine Run.cast (E := .branch true :: .alloc (seed.length + 4) :: ([.range (seed.length + 4) 0 seed.length, .copy seed.length] ++
      ([.range (seed.length + 4) seed.length (seed.length + 4), .copy 4] ++ ([.absorb (seed.length + 4)] ++
      ([.finalize (dg.buf.length + (seed.length + 4))] ++ (Spec.maskTrace h olen (b * h) (min h (olen - b * h)) ++
      (Spec.counterTrace b ++ ((blocksFrom (Spec.blockHashTrace seed.length) h olen (b + 1) 0
        ((os.length + 1 - h + h - 1) / h) ++ [.branch false]) ++ [])))))))) ?_ ?_
    · refine Run.emit (Run.emit ?_)
      refine Run.bind ((copyInto_run (by omega) (by simp) (by simp)).cast (by simp)) fun d1 h1 => ?_
      simp only [List.length_replicate] at h1
      refine Run.bind ((copyInto_run (by omega) (by omega) (by rw [hcl]; omega)).cast (by rw [h1, hcl])) fun d2 h2 => ?_
      refine Run.bind ((update_run dg d2).cast (by rw [h2, h1])) ?_
      rintro _ rfl
      refine Run.bind ((finalizeReset_run _).cast (by simp [DigestState.update, h2, h1])) ?_
      rintro _ rfl
      have hol : (dg.update d2).finalizeReset.1.length = h := by
        unfold DigestState.finalizeReset; simp only [(dg.update d2).fn.hash_len]; exact hh
      rw [hol]
      refine Run.bind ((xorInto_run h olen _ (o :: os) 0 (b * h)).cast ?_) ?_
      · rw [hol, hlen, hl]; unfold Spec.maskTrace; simp only [Nat.zero_add]
      rintro ⟨done, rest⟩ ⟨hd, hr⟩
      dsimp only at hd hr ⊢
      subst hr
      rw [hol] at hd ⊢
      refine Run.bind (incCounter_run ctr b hc) fun c' hc' => ?_
      have hrl : ((o :: os).drop h).length = os.length + 1 - h := by simp
      have ih := mgf1XorLoop_run (olen := olen) hpos (seed := seed) fuel ((o :: os).drop h) (dg.update d2).finalizeReset.2 c' (b + 1)
        (by rw [hrl]; omega) hh hc' (by rw [hrl, Nat.add_mul]; omega)
      rw [hrl] at ih
      refine Run.bind ih ?_
      rintro ⟨t, dg'⟩ ⟨h3, h4, h5⟩
      refine Run.ok ⟨?_, h4, ?_⟩
      · simp only [List.length_append] at h3 ⊢
        rw [hlen] at hd; omega
      · rw [if_neg (by omega)]
        simp only at h5
        rw [h5]
        split <;> rfl
    · simp only [Spec.blockHashTrace, List.cons_append, List.nil_append, List.append_assoc, List.append_nil, Nat.add_assoc]

theorem mgf1XorDigestLoop_run {olen h : Nat} (hpos : 0 < h) {seed : Bytes} : ∀ (fuel : Nat) (out : Bytes) (dg : DigestState)
    (ctr : Counter) (b : Nat), out.length ≤ fuel → dg.fn.outLen = h → ctr.bytes = beBytes 4 b →
    out.length = olen - b * h →
    Run (mgf1XorDigestLoop olen fuel out dg seed ctr)
      (blocksFrom (Spec.blockHashTraceDigest seed.length) h olen b dg.buf.length ((out.length + h - 1) / h) ++ [.branch false])
      (fun p => p.1.length = out.length ∧ p.2.fn = dg.fn ∧ p.2.buf = if out.length = 0 then dg.buf else [])
  | fuel, [], dg, ctr, b, _, _, _, _ => by
    unfold mgf1XorDigestLoop
    refine (Run.emit (Run.ok ⟨rfl, rfl, rfl⟩)).cast ?_
    rw [List.length_nil, Nat.zero_add, Nat.div_eq_of_lt (by omega)]
    rfl
  | 0, _ :: _, _, _, _, hf, _, _, _ => by simp at hf
  | fuel + 1, o :: os, dg, ctr, b, hf, hh, hc, hl => by
    have hlen : (o :: os).length = os.length + 1 := rfl
    rw [hlen] at hl hf ⊢
    rw [blocks_succ hpos (by omega)]
    unfold mgf1XorDigestLoop blocksFrom
    have hi : olen - (os.length + 1) = b * h := by omega
    simp only [hi]
    have hcl : ctr.bytes.length = 4 := rfl
    -- the block
    refine Run.cast (E := .branch true :: ([.absorb seed.length] ++ ([.absorb 4] ++
      ([.finalize (dg.buf.length + (seed.length + 4))] ++ (Spec.maskTrace h olen (b * h) (min h (olen - b * h)) ++
      (Spec.counterTrace b ++ ((blocksFrom (Spec.blockHashTraceDigest seed.length) h olen (b + 1) 0
        ((os.length + 1 - h + h - 1) / h) ++ [.branch false]) ++ []))))))) ?_ ?_
    · refine Run.emit ?_
      refine Run.bind (update_run dg seed) ?_
      rintro _ rfl
      refine Run.bind ((update_run _ ctr.bytes).cast (by rw [hcl])) ?_
      rintro _ rfl
      refine Run.bind ((finalizeReset_run _).cast (by simp [DigestState.update, hcl])) ?_
      rintro _ rfl
      have hol : ((dg.update seed).update ctr.bytes).finalizeReset.1.length = h := by
        unfold DigestState.finalizeReset; simp only [((dg.update seed).update ctr.bytes).fn.hash_len]; exact hh
      rw [hol]
      refine Run.bind ((xorInto_run h olen _ (o :: os) 0 (b * h)).cast ?_) ?_
      · rw [hol, hlen, hl]; unfold Spec.maskTrace; simp only [Nat.zero_add]
      rintro ⟨done, rest⟩ ⟨hd, hr⟩
      dsimp only at hd hr ⊢
      subst hr
      rw [hol] at hd ⊢
      refine Run.bind (incCounter_run ctr b hc) fun c' hc' => ?_
      have hrl : ((o :: os).drop h).length = os.length + 1 - h := by simp
      have ih := mgf1XorDigestLoop_run (olen := olen) hpos (seed := seed) fuel ((o :: os).drop h) ((dg.update seed).update ctr.bytes).finalizeReset.2 c' (b + 1)
        (by rw [hrl]; omega) hh hc' (by rw [hrl, Nat.add_mul]; omega)
      rw [hrl] at ih
      refine Run.bind ih ?_
      rintro ⟨t, dg'⟩ ⟨h3, h4, h5⟩
      refine Run.ok ⟨?_, h4, ?_⟩
      · simp only [List.length_append] at h3 ⊢
        rw [hlen] at hd; omega
      · rw [if_neg (by omega)]
        simp only at h5
        rw [h5]
        split <;> rfl
    · simp only [Spec.blockHashTraceDigest, List.cons_append, List.nil_append, List.append_assoc, List.append_nil, Nat.add_assoc]

theorem mgfTrace_eq (hash : Nat → List Ev) (h olen pre : Nat) :
    .branch true :: (blocksFrom hash h olen 0 pre ((olen + h - 1) / h) ++ [.branch false]) =
      Spec.mgfTrace (fun b => hash (if b = 0 then pre else 0)) h olen := by
  unfold Spec.mgfTrace
  rw [blocksFrom_eq, List.range_eq_range']

theorem mgf1Xor_run {out seed : Bytes} {dg : DigestState} (hpos : 0 < dg.fn.outLen) (hl : out.length ≤ 2 ^ 32) :
    Run (mgf1Xor out dg seed) (Spec.mgfTrace (Spec.hashing seed.length dg.buf.length) dg.fn.outLen out.length)
      (fun p => p.1.length = out.length ∧ p.2.fn = dg.fn ∧ p.2.buf = if out.length = 0 then dg.buf else []) := by
  unfold mgf1Xor
  refine (branch_pos_run hl (mgf1XorLoop_run hpos out.length out dg ⟨0, 0, 0, 0⟩ 0 le_rfl rfl rfl (by omega))).cast ?_
  rw [mgfTrace_eq]; rfl

theorem mgf1XorDigest_run {out seed : Bytes} {dg : DigestState} (hpos : 0 < dg.fn.outLen) (hl : out.length ≤ 2 ^ 32) :
    Run (mgf1XorDigest out dg seed) (Spec.mgfTrace (Spec.hashingDigest seed.length dg.buf.length) dg.fn.outLen out.length)
      (fun p => p.1.length = out.length ∧ p.2.fn = dg.fn ∧ p.2.buf = if out.length = 0 then dg.buf else []) := by
  unfold mgf1XorDigest
  refine (branch_pos_run hl (mgf1XorDigestLoop_run hpos out.length out dg ⟨0, 0, 0, 0⟩ 0 le_rfl rfl rfl (by omega))).cast ?_
  rw [mgfTrace_eq]; rfl

/-! ### Padding removal -/

theorem forIn_run {S E : Type} {body : S → E → Leak S} {g : E → Ev} (h : ∀ s e, ∃ s', body s e = ⟨[g e], .ok s'⟩) :
    ∀ (l : List E) (s : S), Run (forIn body l s) (l.map g) (fun _ => True)
  | [], _ => Run.ok trivial
  | e :: l, s => by
    obtain ⟨s', hs⟩ := h s e
    unfold forIn
    exact (Run.bind (E := [g e]) (P := fun _ => True) ⟨s', hs, trivial⟩ fun a _ => forIn_run h l a)

theorem positions_eq (G : Nat → Ev) (l : Bytes) (n : Nat) :
    (l.zipIdx.drop n).map (fun e => G e.2) = (List.range (l.length - n)).map fun i => G (n + i) := by
  have h1 : (l.zipIdx.drop n).map (fun e => G e.2) = ((l.zipIdx.map Prod.snd).drop n).map G := by
    rw [← List.map_drop, List.map_map]; rfl
  rw [h1, List.zipIdx_map_snd, List.drop_range', List.range'_eq_map_range, List.map_map, Nat.mul_one, Nat.zero_add]
  rfl

/-- A padding verdict and its consequence. -/
theorem tail_ev {V : Type} (p : V → Prop) [DecidablePred p] {x : Leak (V × Bytes × UInt32)} {E : List Ev} {k : Nat}
    (hx : Run x E (fun a => a.2.1.length = k)) (hb : ∀ v o i, x.res = .ok (v, o, i) → ¬ p v → i.toNat ≤ o.length)
    (f : V × Bytes × UInt32 → Leak Bytes)
    (hf : ∀ v o i, f (v, o, i) = branch (p v) (ofRes (.err .decryption)) (sliceFrom o i.toNat)) :
    (x >>= f).ev = E ++ Spec.verdictTrace k (x >>= f).res := by
  obtain ⟨⟨v, o, i⟩, rfl, hk⟩ := hx
  have hb := hb v o i rfl
  rw [ev_bind_ok (x := ⟨E, .ok (v, o, i)⟩) rfl, res_bind]
  simp only [Res.ok_bind]
  rw [hf]
  dsimp only at hk
  by_cases hv : p v
  · rw [branch_pos hv]; rfl
  · rw [branch_neg hv]
    have hi : i.toNat ≤ k := hk ▸ hb hv
    simp only [sliceFrom, slice, emit_bind, RSA.slice, ev_ofRes, res_ofRes, hi, le_refl, and_self, if_true, hk,
      Spec.verdictTrace, List.length_drop, List.length_take, min_self]
    congr 4
    omega


theorem pkcs1v15DecryptInner_run {em : Bytes} (hk : 11 ≤ em.length) :
    Run (pkcs1v15DecryptInner em em.length) (.branch false :: Spec.readsTrace em.length 0 em.length)
      (fun a => a.2.1.length = em.length) := by
  unfold pkcs1v15DecryptInner
  refine Run.cast (E := .branch false :: ([.read em.length 0] ++ ([.read em.length 1] ++
    ((em.zipIdx.drop 2).map (fun e => .read em.length e.2) ++ [])))) ?_ ?_
  · refine branch_neg_run (by omega) ?_
    refine Run.bind (idx_run (by omega)) fun _ _ => ?_
    refine Run.bind (idx_run (by omega)) fun _ _ => ?_
    refine Run.bind (forIn_run (g := fun e : UInt8 × Nat => .read em.length e.2) (fun s e => ⟨_, rfl⟩) _ _) fun _ _ => ?_
    exact Run.ok rfl
  rw [positions_eq (fun i => .read em.length i)]
  unfold Spec.readsTrace
  obtain ⟨n, hn⟩ : ∃ n, em.length = n + 2 := ⟨em.length - 2, by omega⟩
  rw [hn, show n + 2 - 2 = n by omega, show n + 2 - 0 = n + 2 by omega, List.range_succ_eq_map, List.range_succ_eq_map]
  simp only [List.map_cons, List.map_map, List.cons_append, List.nil_append, List.append_nil, Nat.zero_add]
  congr 3
  apply List.map_congr_left
  intro i _
  simp only [Function.comp_apply, Nat.succ_eq_add_one]
  rw [show 2 + i = i + 1 + 1 by omega]

theorem pkcs1v15EncryptUnpad_ev {em : Bytes} (hk : 11 ≤ em.length) :
    (pkcs1v15EncryptUnpad em em.length).ev =
      Spec.pkcs1v15UnpadTrace em.length (RSA.pkcs1v15EncryptUnpad em em.length) := by
  rw [← pkcs1v15EncryptUnpad_res]
  unfold pkcs1v15EncryptUnpad
  rw [tail_ev (fun v : UInt8 => v = 0) (pkcs1v15DecryptInner_run hk) ?_ _ fun _ _ _ => rfl]
  · rfl
  · intro v o i hr _
    rw [pkcs1v15DecryptInner_res] at hr
    exact pkcs1v15DecryptInner_bound hr

theorem oaepDecryptInner_run {em pHash : Bytes} {h : Nat} (hk : 11 ≤ em.length) (hk' : 2 * h + 2 ≤ em.length)
    (hp : pHash.length = h) {M : List Ev} {mgf : Bytes → Bytes → Leak (Bytes × Bytes)}
    (hm : ∀ s d : Bytes, s.length = h → d.length = em.length - 1 - h →
      Run (mgf s d) M (fun p => p.1.length = h ∧ p.2.length = em.length - 1 - h)) :
    Run (oaepDecryptInner em h pHash em.length mgf)
      ([.branch false, .branch false, .read em.length 0, .range em.length 0 1, .range (em.length - 1) 0 h] ++ M ++
        [.range (em.length - 1 - h) 0 h, .compare h h] ++ Spec.readsTrace (em.length - 1 - h) h (em.length - 1 - h) ++
        [.alloc em.length])
      (fun a => a.2.1.length = em.length) := by
  unfold oaepDecryptInner
  refine Run.cast (E := .branch false :: .branch false :: ([.read em.length 0] ++ ([.range em.length 0 1] ++
    ([.range (em.length - 1) 0 h] ++ (M ++ ([.range (em.length - 1 - h) 0 h] ++ ([.compare h h] ++
      (Spec.readsTrace (em.length - 1 - h) h (em.length - 1 - h) ++ (.alloc em.length :: []))))))))) ?_ (by simp)
  refine branch_neg_run (by omega) (branch_neg_run (by omega) ?_)
  refine Run.bind (idx_run (by omega)) fun _ _ => ?_
  refine Run.bind (splitAt_run (by omega)) ?_
  rintro ⟨first, payload⟩ ⟨h1, h2⟩
  dsimp only at h1 h2 ⊢
  have hf : first.length = 1 := by rw [h1]; simp; omega
  have hpl : payload.length = em.length - 1 := by rw [h2]; simp
  refine Run.bind ((splitAt_run (by omega)).cast (by rw [hpl])) ?_
  rintro ⟨seed, db⟩ ⟨h3, h4⟩
  dsimp only at h3 h4 ⊢
  have hs : seed.length = h := by rw [h3]; simp; omega
  have hd : db.length = em.length - 1 - h := by rw [h4]; simp [hpl]
  refine Run.bind (hm seed db hs hd) ?_
  rintro ⟨seed', db'⟩ ⟨hs', hd'⟩
  dsimp only at hs' hd' ⊢
  refine Run.bind ((slice_run (by omega) (by omega)).cast (by rw [hd'])) ?_
  rintro x ⟨-, hx⟩
  refine Run.bind (E := [.compare h h]) (P := fun _ => True) ⟨_, by unfold ctEq; rw [hx, hp]; rfl, trivial⟩ fun _ _ => ?_
  refine Run.bind ((forIn_run (g := fun e : UInt8 × Nat => .read db'.length (h + e.2)) (fun s e => ⟨_, rfl⟩) _ _).cast ?_)
    fun _ _ => ?_
  · have := positions_eq (fun i => .read db'.length (h + i)) (db'.drop h) 0
    rw [List.drop_zero, List.length_drop, Nat.sub_zero] at this
    rw [this, hd']
    unfold Spec.readsTrace
    simp only [Nat.zero_add]
  · have hl : (first ++ (seed' ++ db')).length = em.length := by simp only [List.length_append]; omega
    rw [hl]
    exact Run.emit (Run.ok hl)

theorem oaepDecrypt_ev {em : Bytes} {dg mg : DigestState} {label : Option Bytes} (hk : 11 ≤ em.length)
    (hk' : 2 * dg.fn.outLen + 2 ≤ em.length) (hl : em.length ≤ 2 ^ 32) (hlab : (label.getD []).length < 2 ^ 61)
    (hpos : 0 < dg.fn.outLen) (hpos' : 0 < mg.fn.outLen) :
    (oaepDecrypt em dg mg label em.length).ev =
      Spec.oaepUnpadTrace [.absorb (label.getD []).length, .finalize (dg.buf.length + (label.getD []).length)]
        (Spec.oaepMaskTrace dg.fn.outLen mg.fn.outLen em.length mg.buf.length) dg.fn.outLen em.length
        (RSA.oaepDecrypt em dg mg label em.length) := by
  rw [← oaepDecrypt_res]
  unfold oaepDecrypt
  simp only []
  rw [branch_neg (by unfold maxLabelLen; omega)]
  have hmg : ∀ s d : Bytes, s.length = dg.fn.outLen → d.length = em.length - 1 - dg.fn.outLen →
      Run (do
        let (seed, mgfDigest) ← mgf1Xor s mg d
        let (db, _) ← mgf1Xor d mgfDigest seed
        ofRes (.ok (seed, db)) : Leak (Bytes × Bytes))
        (Spec.oaepMaskTrace dg.fn.outLen mg.fn.outLen em.length mg.buf.length)
        (fun p => p.1.length = dg.fn.outLen ∧ p.2.length = em.length - 1 - dg.fn.outLen) := by
    intro s d hs hd
    refine Run.cast (E := Spec.mgfTrace (Spec.hashing (em.length - 1 - dg.fn.outLen) mg.buf.length) mg.fn.outLen dg.fn.outLen ++
      (Spec.mgfTrace (Spec.hashing dg.fn.outLen 0) mg.fn.outLen (em.length - 1 - dg.fn.outLen) ++ [])) ?_
      (by unfold Spec.oaepMaskTrace; simp)
    refine Run.bind ((mgf1Xor_run hpos' (by omega)).cast (by rw [hs, hd])) ?_
    rintro ⟨s', g⟩ ⟨h1, h2, h3⟩
    dsimp only at h1 h2 h3 ⊢
    rw [if_neg (by omega)] at h3
    refine Run.bind ((mgf1Xor_run (by rw [h2]; exact hpos') (by omega)).cast (by rw [h1, h2, h3, hs, hd]; rfl)) ?_
    rintro ⟨d', g'⟩ ⟨h4, -, -⟩
    exact Run.ok ⟨by rw [h1, hs], by rw [h4, hd]⟩
  have hinner := oaepDecryptInner_run (em := em) (pHash := (dg.update (label.getD [])).finalizeReset.1) hk hk'
    (by unfold DigestState.finalizeReset; exact (dg.update _).fn.hash_len _) hmg
  rw [emit_bind]
  have e1 : (update dg (label.getD [])).res = .ok (dg.update (label.getD [])) := rfl
  have e2 : ∀ d, (finalizeReset d).res = .ok d.finalizeReset := fun _ => rfl
  simp only [res_bind, ev_bind_ok e1, ev_bind_ok (e2 _), e1, e2, Res.ok_bind]
  rw [show DigestState.outputSize dg = dg.fn.outLen from rfl]
  have ht := tail_ev (fun v : Bool => v = false) hinner ?_
    (fun (v, o, i) => branch (v = false) (ofRes (.err .decryption)) (sliceFrom o i.toNat)) fun v _ _ => rfl
  · rw [show _ = _ from ht]
    simp only [res_bind]
    unfold Spec.oaepUnpadTrace
    have e3 : (update dg (label.getD [])).ev = [.absorb (label.getD []).length] := rfl
    have e4 : (finalizeReset (dg.update (label.getD []))).ev = [.finalize (dg.buf.length + (label.getD []).length)] := by
      simp [finalizeReset, DigestState.update]
    rw [e3, e4]
    simp only [List.append_assoc, List.cons_append, List.nil_append]
  · intro v o i hr hv
    rw [oaepDecryptInner_res] at hr
    cases v
    · exact absurd rfl hv
    refine oaepDecryptInner_bound ?_ hr
    intro s d s' d' hm
    simp only [res_bind, mgf1Xor_res, res_ofRes, Res.bind_eq_ok] at hm
    obtain ⟨p, hp, q, hq, hm⟩ := hm
    cases hm
    exact ⟨mgf1Xor_length hp, mgf1Xor_length hq⟩

theorem oaepDecryptDigest_ev {em : Bytes} {D MGD : HashFn} {label : Option Bytes} (hk : 11 ≤ em.length)
    (hk' : 2 * D.outLen + 2 ≤ em.length) (hl : em.length ≤ 2 ^ 32) (hlab : (label.getD []).length < 2 ^ 61)
    (hpos : 0 < D.outLen) (hpos' : 0 < MGD.outLen) :
    (oaepDecryptDigest em D MGD label em.length).ev =
      Spec.oaepUnpadTrace [.absorb (label.getD []).length] (Spec.oaepMaskTraceDigest D.outLen MGD.outLen em.length)
        D.outLen em.length (RSA.oaepDecryptDigest em D MGD label em.length) := by
  rw [← oaepDecryptDigest_res]
  unfold oaepDecryptDigest
  simp only []
  rw [branch_neg (by unfold maxLabelLen; omega)]
  have hmg : ∀ s d : Bytes, s.length = D.outLen → d.length = em.length - 1 - D.outLen →
      Run (do
        let (seed, mgfDigest) ← mgf1XorDigest s (DigestState.new MGD) d
        let (db, _) ← mgf1XorDigest d mgfDigest seed
        ofRes (.ok (seed, db)) : Leak (Bytes × Bytes))
        (Spec.oaepMaskTraceDigest D.outLen MGD.outLen em.length)
        (fun p => p.1.length = D.outLen ∧ p.2.length = em.length - 1 - D.outLen) := by
    intro s d hs hd
    refine Run.cast (E := Spec.mgfTrace (Spec.hashingDigest (em.length - 1 - D.outLen) 0) MGD.outLen D.outLen ++
      (Spec.mgfTrace (Spec.hashingDigest D.outLen 0) MGD.outLen (em.length - 1 - D.outLen) ++ [])) ?_
      (by unfold Spec.oaepMaskTraceDigest; simp)
    refine Run.bind ((mgf1XorDigest_run (dg := DigestState.new MGD) hpos' (by omega)).cast (by rw [hs, hd]; rfl)) ?_
    rintro ⟨s', g⟩ ⟨h1, h2, h3⟩
    dsimp only at h1 h2 h3 ⊢
    rw [if_neg (by omega)] at h3
    refine Run.bind ((mgf1XorDigest_run (by rw [h2]; exact hpos') (by omega)).cast (by rw [h1, h2, h3, hs, hd]; rfl)) ?_
    rintro ⟨d', g'⟩ ⟨h4, -, -⟩
    exact Run.ok ⟨by rw [h1, hs], by rw [h4, hd]⟩
  have hinner := oaepDecryptInner_run (em := em) (pHash := D.hash (label.getD [])) hk hk' (D.hash_len _) hmg
  rw [emit_bind, emit_bind]
  have ht := tail_ev (fun v : Bool => v = false) hinner ?_
    (fun (v, o, i) => branch (v = false) (ofRes (.err .decryption)) (sliceFrom o i.toNat)) fun v _ _ => rfl
  · rw [show _ = _ from ht]
    unfold Spec.oaepUnpadTrace
    simp only [List.append_assoc, List.cons_append, List.nil_append]
  · intro v o i hr hv
    rw [oaepDecryptInner_res] at hr
    cases v
    · exact absurd rfl hv
    refine oaepDecryptInner_bound ?_ hr
    intro s d s' d' hm
    simp only [res_bind, mgf1XorDigest_res, res_ofRes, Res.bind_eq_ok] at hm
    obtain ⟨p, hp, q, hq, hm⟩ := hm
    cases hm
    exact ⟨mgf1XorDigest_length hp, mgf1XorDigest_length hq⟩

/-! ### The private operation -/

theorem _root_.RSA.Leak.bind_assoc {α β γ : Type} (x : Leak α) (f : α → Leak β) (g : β → Leak γ) :
    x >>= f >>= g = x >>= fun a => f a >>= g := by
  show Leak.bind (Leak.bind x f) g = Leak.bind x fun a => Leak.bind (f a) g
  rcases x with ⟨e, _ | _ | _ | _⟩
  · unfold Leak.bind
    simp only
    cases h : (f _).res <;> simp [h]
  all_goals rfl

/-- If the run returns a value, it made the observations `E` and the value satisfies `P`. -/
def _root_.RSA.Leak.Tr {α : Type} (x : Leak α) (E : List Ev) (P : α → Prop) : Prop :=
  ∀ a, x.res = .ok a → x.ev = E ∧ P a

theorem Tr.bind {α β : Type} {x : Leak α} {E E' : List Ev} {P : α → Prop} {f : α → Leak β} {Q : β → Prop} (h : Tr x E P)
    (hf : ∀ a, P a → Tr (f a) E' Q) : Tr (x >>= f) (E ++ E') Q := by
  intro b hb
  rw [res_bind] at hb
  obtain ⟨a, ha, hb⟩ := Res.bind_eq_ok.mp hb
  obtain ⟨h1, h2⟩ := h a ha
  obtain ⟨h3, h4⟩ := hf a h2 b hb
  exact ⟨by rw [ev_bind_ok ha, h1, h3], h4⟩

theorem Tr.emit {β : Type} {e : Ev} {E : List Ev} {f : Unit → Leak β} {Q : β → Prop} (hf : Tr (f ()) E Q) :
    Tr (Leak.emit e >>= f) (e :: E) Q := by
  intro b hb
  obtain ⟨h3, h4⟩ := hf b hb
  exact ⟨by rw [emit_bind, h3], h4⟩

theorem Tr.ok {α : Type} {a : α} {P : α → Prop} (h : P a) : Tr (ofRes (.ok a)) [] P := by
  intro b hb
  cases hb
  exact ⟨rfl, h⟩

theorem Tr.ofRes {α : Type} {r : Res α} {P : α → Prop} (h : ∀ a, r = .ok a → P a) : Tr (ofRes r) [] P :=
  fun a ha => ⟨rfl, h a ha⟩

theorem Tr.err {α : Type} {e : Error} {E : List Ev} {P : α → Prop} : Tr (Leak.ofRes (.err e)) E P := by
  intro b hb; cases hb

theorem Tr.cast {α : Type} {x : Leak α} {E E' : List Ev} {P : α → Prop} (h : Tr x E P) (he : E = E') : Tr x E' P := he ▸ h

theorem Tr.mono {α : Type} {x : Leak α} {E : List Ev} {P Q : α → Prop} (h : Tr x E P) (hpq : ∀ a, P a → Q a) : Tr x E Q :=
  fun a ha => ⟨(h a ha).1, hpq a (h a ha).2⟩

theorem Tr.branch_pos {α : Type} {c : Prop} [Decidable c] (h : c) {x y : Leak α} {E : List Ev} {P : α → Prop}
    (hx : Tr x E P) : Tr (branch c x y) (.branch true :: E) P := by
  rw [leak.branch_pos h]; exact Tr.emit hx

theorem Tr.branch_neg {α : Type} {c : Prop} [Decidable c] (h : ¬ c) {x y : Leak α} {E : List Ev} {P : α → Prop}
    (hy : Tr y E P) : Tr (branch c x y) (.branch false :: E) P := by
  rw [leak.branch_neg h]; exact Tr.emit hy

theorem widen_tr (x : BoxedUint) {L : Nat} (hL : 1 ≤ L) :
    Tr (widen x (64 * L)) [.bignum "widen" [x.nlimbs, 64 * L]] (fun y => y.nlimbs = L) := by
  refine Tr.emit (Tr.ofRes ?_)
  intro a ha
  unfold BoxedUint.widen at ha
  split at ha <;> cases ha
  exact limbsFor_mul hL

theorem shorten_tr (x : BoxedUint) {L : Nat} (hL : 1 ≤ L) :
    Tr (shorten x (64 * L)) [.bignum "shorten" [x.nlimbs, 64 * L]] (fun y => y.nlimbs = L) := by
  refine Tr.emit (Tr.ofRes ?_)
  intro a ha
  unfold BoxedUint.shorten at ha
  split at ha <;> cases ha
  exact limbsFor_mul hL

theorem montyNew_tr (x : BoxedUint) (p : MontyParams) :
    Tr (montyNew x p) [.bignum "BoxedMontyForm::new" [x.nlimbs, limbsOf p]] (fun y => y.params = p) := by
  refine Tr.emit (Tr.ofRes ?_)
  intro a ha
  unfold MontyForm.new at ha
  split at ha <;> cases ha
  rfl

theorem montyMul_tr (x y : MontyForm) :
    Tr (montyMul x y) [.bignum "BoxedMontyForm::mul" [limbsOf x.params, limbsOf y.params]] (fun z => z.params = x.params) := by
  refine Tr.emit (Tr.ofRes ?_)
  intro a ha
  unfold MontyForm.mul at ha
  split at ha <;> cases ha
  rfl

theorem debugAssert_tr (b : Bool) : Tr (debugAssert b) [.branch true] (fun _ => b = true) := by
  intro a ha
  cases b with
  | true => exact ⟨rfl, rfl⟩
  | false => cases ha

theorem prec_params {p : MontyParams} {L : Nat} (h : limbsOf p = L) : p.prec = 64 * L := by
  unfold MontyParams.prec BoxedUint.prec
  unfold limbsOf at h
  rw [h]

theorem reduceVartime_tr (x : BoxedUint) (p : MontyParams) {L : Nat} (hL : 1 ≤ L) (hp : limbsOf p = L) :
    Tr (reduceVartime x p)
      ((if x.nlimbs < L then [.branch true, .bignum "widen" [x.nlimbs, 64 * L]]
        else if x.nlimbs = L then [.branch false, .branch true]
        else [.branch false, .branch false, .bignum "shorten" [x.nlimbs, 64 * L]]) ++
        [.bignum "rem_vartime" [L, L], .bignum "widen" [L, 64 * L], .bignum "BoxedMontyForm::new" [L, L]])
      (fun y => y.params = p) := by
  have hp' : p.modulus.toBoxedUint.nlimbs = L := hp
  have hpr : p.modulus.toBoxedUint.prec = 64 * L := by unfold BoxedUint.prec; rw [hp']
  have hxp : x.prec = 64 * x.nlimbs := rfl
  unfold reduceVartime
  simp only [hpr, hp', prec_params hp, hxp]
  refine Tr.bind (P := fun y => y.nlimbs = L) ?_ ?_
  · by_cases h1 : x.nlimbs < L
    · rw [if_pos h1]; exact Tr.branch_pos (by omega) (widen_tr x hL)
    · rw [if_neg h1]
      by_cases h2 : x.nlimbs = L
      · rw [if_pos h2]; exact Tr.branch_neg (by omega) (Tr.branch_pos (by omega) (Tr.ok h2))
      · rw [if_neg h2]; exact Tr.branch_neg (by omega) (Tr.branch_neg (by omega) (shorten_tr x hL))
  · intro y hy
    rw [hy]
    refine Tr.emit ?_
    have hr : (y.rem p.modulus.toBoxedUint).nlimbs = L := hp'
    refine Tr.bind (Tr.cast (widen_tr _ hL) (by rw [hr])) fun z hz => ?_
    exact Tr.cast (montyNew_tr z p) (by rw [hz, hp])

theorem powModParams_tr (x e : BoxedUint) (p : MontyParams) {L : Nat} (hL : 1 ≤ L) (hp : limbsOf p = L) :
    Tr (powModParams x e p) (Spec.powTrace x.nlimbs e.nlimbs L) (fun y => y.nlimbs = L) := by
  unfold powModParams
  refine Tr.cast (Tr.bind (E' := [.bignum "pow" [L, e.nlimbs]]) (reduceVartime_tr x p hL hp) ?_) ?_
  · intro y hy
    rw [hy, hp]
    refine Tr.emit (Tr.ok ?_)
    show limbsOf y.params = L
    rw [hy, hp]
  · unfold Spec.powTrace
    rw [List.append_assoc]; rfl

theorem mulModParams_tr (x y : BoxedUint) (p : MontyParams) {L : Nat} (hp : limbsOf p = L) (hx : x.nlimbs = L)
    (hy : y.nlimbs = L) : Tr (mulModParams x y p) (Spec.mulTrace L) (fun z => z.nlimbs = L) := by
  unfold mulModParams
  refine Tr.cast (E := [.bignum "BoxedMontyForm::new" [L, L]] ++ ([.bignum "BoxedMontyForm::new" [L, L]] ++
    ([.bignum "BoxedMontyForm::mul" [L, L]] ++ []))) ?_ rfl
  refine Tr.bind (Tr.cast (montyNew_tr x p) (by rw [hx, hp])) fun a ha => ?_
  refine Tr.bind (Tr.cast (montyNew_tr y p) (by rw [hy, hp])) fun b hb => ?_
  refine Tr.bind (Tr.cast (montyMul_tr a b) (by rw [ha, hb, hp])) fun c hc => ?_
  refine Tr.ok ?_
  show limbsOf c.params = L
  rw [hc, ha, hp]

theorem blindLoop_tr {σ : Type} (R : RngImpl σ) {n : BoxedUint} (hn : 1 < n.val) : ∀ (fuel : Nat) (s : σ),
    Tr (blindLoop R n fuel s) (Spec.drawsTrace R n.val n.nlimbs fuel s)
      (fun p => p.1.1.nlimbs = n.nlimbs ∧ p.1.2.nlimbs = n.nlimbs)
  | 0, _ => by intro a ha; cases ha
  | fuel + 1, s => by
    intro a ha
    have hl := nlimbs_pos_of_val_pos n (by omega)
    have hev : ∀ (fuel : Nat) (s : σ) (a : (BoxedUint × BoxedUint) × σ), (blindLoop R n fuel s).res = .ok a →
        (blindLoop R n fuel s).ev = Spec.drawsTrace R n.val n.nlimbs fuel s := by
      intro fuel
      induction fuel with
      | zero => intro s a ha; cases ha
      | succ fuel ih =>
        intro s a ha
        rw [blindLoop_ev R hn]
        unfold Spec.drawsTrace
        congr 1
        have hlt := R.randMod_lt s n.val
        unfold blindLoop at ha
        simp only [bn, res_bind, res_emit, Res.ok_bind] at ha
        rcases hr : R.randMod s n.val with ⟨_ | r, t⟩
        · rfl
        · simp only
          congr 3
          split
          · rfl
          · next hnc =>
            congr 1
            rw [hr] at ha
            have hlt := hlt r (by rw [hr]) (by omega)
            have hva : (wrap n.nlimbs r).val = r := wrap_lt_val hlt
            have hz : (wrap n.nlimbs r).isZero = false := by unfold isZero; rw [hva]; simp; tauto
            have hnone : (wrap n.nlimbs r).invMod n = none := by
              unfold invMod
              rw [hva, (natInvMod_none (by omega)).mpr (by tauto)]; rfl
            simp only [branch_ok_bind, hz, res_bind, res_emit, Res.ok_bind, Bool.false_eq_true, if_false, hnone] at ha
            exact ih t a ha
    refine ⟨hev _ _ _ ha, ?_⟩
    rw [blindLoop_res] at ha
    have : ∀ (fuel : Nat) (s : σ) (a : (BoxedUint × BoxedUint) × σ), RSA.blindLoop R n fuel s = .ok a →
        a.1.1.nlimbs = n.nlimbs ∧ a.1.2.nlimbs = n.nlimbs := by
      intro fuel
      induction fuel with
      | zero => intro s a ha; cases ha
      | succ fuel ih =>
        intro s a ha
        unfold RSA.blindLoop at ha
        rcases hrm : R.randMod s n.val with ⟨_ | r, t⟩ <;> rw [hrm] at ha
        · cases ha
        · simp only at ha
          generalize hx : (if (wrap n.nlimbs r).isZero = true then oneWithPrecision n.prec else wrap n.nlimbs r) = x at ha
          have hxl : x.nlimbs = n.nlimbs := by
            rw [← hx]; split
            · exact limbsFor_prec n hl
            · rfl
          cases hi : x.invMod n with
          | none => rw [hi] at ha; exact ih t a ha
          | some y =>
            rw [hi] at ha
            cases ha
            refine ⟨hxl, ?_⟩
            unfold invMod at hi
            cases hv : natInvMod x.val n.val <;> rw [hv] at hi <;> cases hi
            rfl
    exact this _ _ _ ha

theorem blind_tr {σ : Type} (R : RngImpl σ) (fuel : Nat) (s : σ) {k : PublicKey} (hk : k.Coherent) (hn : 1 < k.n.val)
    (c : BoxedUint) (hc : c.nlimbs = k.n.nlimbs) :
    Tr (blind R fuel s k c k.nParams) (.branch true :: (Spec.drawsTrace R k.n.val k.n.nlimbs fuel s ++
      Spec.powTrace k.n.nlimbs k.e.nlimbs k.n.nlimbs ++ Spec.mulTrace k.n.nlimbs ++ [.branch true, .branch true]))
      (fun p => p.1.1.nlimbs = k.n.nlimbs ∧ p.1.2.nlimbs = k.n.nlimbs) := by
  have hL := nlimbs_pos_of_val_pos k.n (by omega)
  have hp : limbsOf k.nParams = k.n.nlimbs := by
    unfold limbsOf; unfold PublicKey.Coherent at hk; rw [hk]
  unfold blind
  refine Tr.cast (E := [.branch true] ++ (Spec.drawsTrace R k.n.val k.n.nlimbs fuel s ++
      (Spec.powTrace k.n.nlimbs k.e.nlimbs k.n.nlimbs ++ (Spec.mulTrace k.n.nlimbs ++ ([.branch true] ++ ([.branch true] ++ [])))))) ?_
    (by simp)
  refine Tr.bind (debugAssert_tr _) fun _ _ => ?_
  refine Tr.bind (blindLoop_tr R hn fuel s) ?_
  rintro ⟨⟨r, ir⟩, t⟩ ⟨h1, h2⟩
  dsimp only at h1 h2 ⊢
  refine Tr.bind (Tr.cast (powModParams_tr r k.e k.nParams hL hp) (by rw [h1])) fun x hx => ?_
  refine Tr.bind (mulModParams_tr c x k.nParams hp hc hx) fun y hy => ?_
  refine Tr.bind (debugAssert_tr _) fun _ _ => ?_
  refine Tr.bind (debugAssert_tr _) fun _ _ => ?_
  exact Tr.ok ⟨hy, h2⟩

theorem unblind_tr {m u : BoxedUint} {p : MontyParams} {L : Nat} (hp : limbsOf p = L) (hm : m.nlimbs = L)
    (hu : u.nlimbs = L) :
    Tr (unblind m u p) (.branch true :: .branch true :: Spec.mulTrace L) (fun z => z.nlimbs = L) := by
  unfold unblind
  refine Tr.cast (E := [.branch true] ++ ([.branch true] ++ Spec.mulTrace L)) ?_ rfl
  exact Tr.bind (debugAssert_tr _) fun _ _ => Tr.bind (debugAssert_tr _) fun _ _ => mulModParams_tr m u p hp hm hu

theorem primeAt_tr (l : List BoxedUint) (i : Nat) :
    Tr (primeAt l i) [.read l.length i] (fun q => l[i]? = some q) := by
  refine Tr.emit (Tr.ofRes ?_)
  intro a ha
  unfold RSA.primeAt at ha
  cases h : l[i]? <;> rw [h] at ha <;> cases ha
  rfl

/-- The exponentiation followed by the narrowing to the modulus. -/
theorem rsaPrivateExp_tr {k : PrivateKey} (hk : Spec.Sized k) (hn : 1 < k.pub.n.val) (c : BoxedUint)
    (hc : c.nlimbs = k.d.nlimbs) :
    Tr (rsaPrivateExp k c >>= fun m => shorten m k.pub.nParams.prec) (Spec.expTrace (Spec.sizes k))
      (fun m => m.nlimbs = k.pub.n.nlimbs) := by
  have hL := nlimbs_pos_of_val_pos k.pub.n (by omega)
  have hp : limbsOf k.pub.nParams = k.pub.n.nlimbs := by
    unfold limbsOf; rw [hk.coherent]
  have htwo := hk.two
  have hplain : Tr (powModParams c k.d k.pub.nParams >>= fun m => shorten m (64 * k.pub.n.nlimbs))
      (Spec.powTrace k.d.nlimbs k.d.nlimbs k.pub.n.nlimbs ++
        [.bignum "shorten" [k.pub.n.nlimbs, 64 * k.pub.n.nlimbs]]) (fun m => m.nlimbs = k.pub.n.nlimbs) := by
    refine Tr.bind (Tr.cast (powModParams_tr c k.d k.pub.nParams hL hp) (by rw [hc])) fun m hm => ?_
    exact Tr.cast (shorten_tr m hL) (by rw [hm])
  unfold rsaPrivateExp Spec.expTrace Spec.sizes
  rw [prec_params hp]
  simp only [List.length_map, Option.isSome_map]
  show Tr ((emit _ >>= fun _ => emit _ >>= fun _ => _) >>= _) _ _
  rw [Leak.bind_assoc]
  refine Tr.emit ?_
  rw [Leak.bind_assoc]
  refine Tr.emit ?_
  cases hpre : k.precomputed with
  | none => exact hplain
  | some pre =>
    obtain ⟨a1, a2, a3⟩ := hk.cache pre hpre
    have a2 : limbsOf pre.pParams = k.d.nlimbs := a2
    have a3 : limbsOf pre.qParams = k.d.nlimbs := a3
    rcases hprimes : k.primes with _ | ⟨p1, _ | ⟨q1, _ | ⟨r1, t⟩⟩⟩
    · rw [hprimes] at htwo; simp at htwo
    · rw [hprimes] at htwo; simp at htwo
    · have hd : decide ([p1, q1].length > 2) = false := rfl
      rw [hd]
      simp only [Option.map_some, List.map_cons, List.map_nil]
      generalize hD : k.d.nlimbs = D at *
      refine Tr.cast (E := ([.read 2 0] ++ ([.read 2 1] ++ ([.bignum "BoxedMontyForm::new" [D, D]] ++
        .bignum "pow" [D, pre.dp.nlimbs] :: ([.bignum "BoxedMontyForm::new" [D, D]] ++
        .bignum "pow" [D, pre.dq.nlimbs] :: ([.bignum "BoxedMontyForm::new" [D, D]] ++
        .bignum "BoxedMontyForm::sub" [D, D] :: ([] ++ ([.bignum "BoxedMontyForm::mul" [D, D]] ++
        .bignum "wrapping_mul" [D, q1.nlimbs] :: .bignum "wrapping_add" [D, D] :: []))))))) ++
        [.bignum "shorten" [D, 64 * k.pub.n.nlimbs]]) ?_ rfl
      refine Tr.bind (P := fun m => m.nlimbs = D) ?_ fun m hm => Tr.cast (shorten_tr m hL) (by rw [hm])
      refine Tr.bind (primeAt_tr _ 0) fun _ _ => Tr.bind (primeAt_tr _ 1) fun q hq => ?_
      have hq : q = q1 := by simpa using hq.symm
      subst hq
      refine Tr.bind (Tr.cast (montyNew_tr c pre.pParams) (by rw [hc, a2])) fun cp hcp => ?_
      rw [hcp, a2]
      refine Tr.emit (Tr.bind (Tr.cast (montyNew_tr c pre.qParams) (by rw [hc, a3])) fun cq hcq => ?_)
      rw [hcq, a3]
      have hm2 : (cq.pow pre.dq).retrieve.nlimbs = D := by
        show limbsOf cq.params = D
        rw [hcq, a3]
      refine Tr.emit (Tr.bind (Tr.cast (montyNew_tr _ pre.pParams) (by rw [hm2, a2])) fun m2r hm2r => ?_)
      have hcpp : (cp.pow pre.dp).params = pre.pParams := hcp
      rw [hcpp, hm2r, a2]
      refine Tr.emit (Tr.bind (P := fun x => x.params = pre.pParams) (Tr.ofRes ?_) fun x hx => ?_)
      · intro a ha
        unfold MontyForm.sub at ha
        split at ha <;> cases ha
        exact hcpp
      refine Tr.bind (Tr.cast (montyMul_tr pre.qinv x) (by rw [a1, hx, a2])) fun y hy => ?_
      have hyy : y.retrieve.nlimbs = D := by
        show limbsOf y.params = D
        rw [hy, a1, a2]
      have hyz : (y.retrieve.wrappingMul q).nlimbs = D := hyy
      rw [hyy, hyz, hm2]
      refine Tr.emit (Tr.emit (Tr.ok ?_))
      show max _ _ = D
      rw [hyz, hm2, max_self]
    · have hd : decide ((p1 :: q1 :: r1 :: t).length > 2) = true := by simp
      rw [hd]
      exact hplain

/-- The private operation with its check. -/
theorem rsaDecryptAndCheck_tr {σ : Type} (R : RngImpl σ) (fuel : Nat) {k : PrivateKey} (hk : Spec.Sized k)
    (hn : 1 < k.pub.n.val) (rng : Option σ) {c : BoxedUint} (hc : c.nlimbs = k.pub.n.nlimbs) (hlt : c.val < k.pub.n.val) :
    Tr (rsaDecryptAndCheck R fuel k rng c) (Spec.privateTrace R fuel k.pub.n.val (Spec.sizes k) rng)
      (fun p => p.1.nlimbs = k.pub.n.nlimbs) := by
  have hL := nlimbs_pos_of_val_pos k.pub.n (by omega)
  have hD : 1 ≤ k.d.nlimbs := le_trans hL hk.width
  have hp : limbsOf k.pub.nParams = k.pub.n.nlimbs := by
    unfold limbsOf; rw [hk.coherent]
  have hg : ¬ c.ge k.pub.n = true := by simp [ge, BoxedUint.lt, hlt]
  have hdp : k.d.prec = 64 * k.d.nlimbs := rfl
  have hexp : ∀ {β : Type} {c : BoxedUint} {f : BoxedUint → Leak β} {E : List Ev} {Q : β → Prop}, c.nlimbs = k.d.nlimbs →
      (∀ m, m.nlimbs = k.pub.n.nlimbs → Tr (f m) E Q) →
      Tr (rsaPrivateExp k c >>= fun m => shorten m k.pub.nParams.prec >>= f) (Spec.expTrace (Spec.sizes k) ++ E) Q := by
    intro β c f E Q hc hf
    rw [← Leak.bind_assoc]
    exact Tr.bind (rsaPrivateExp_tr hk hn c hc) hf
  have htail : ∀ (m : BoxedUint) (rng : Option σ), m.nlimbs = k.pub.n.nlimbs →
      Tr (rsaEncrypt k.pub m >>= fun check => (bn "eq" [k.pub.n.nlimbs, check.nlimbs] >>= fun _ =>
        branch (c.beq check = false) (ofRes (.err .internal)) (ofRes (.ok (m, rng)))))
        (Spec.powTrace k.pub.n.nlimbs k.pub.e.nlimbs k.pub.n.nlimbs ++
          [.bignum "eq" [k.pub.n.nlimbs, k.pub.n.nlimbs], .branch false]) (fun p => p.1.nlimbs = k.pub.n.nlimbs) := by
    intro m rng hm
    refine Tr.bind (Tr.cast (powModParams_tr m k.pub.e k.pub.nParams hL hp) (by rw [hm])) fun x hx => ?_
    rw [hx]
    refine Tr.emit ?_
    by_cases hb : c.beq x = false
    · rw [leak.branch_pos hb]; intro a ha; cases ha
    · exact Tr.branch_neg hb (Tr.ok hm)
  unfold rsaDecryptAndCheck rsaDecrypt Spec.privateTrace
  dsimp only
  rw [hdp, hc, leak.branch_neg hg]
  cases rng with
  | none =>
    refine Tr.cast (E := (.bignum "cmp" [k.pub.n.nlimbs, k.pub.n.nlimbs] :: .branch false :: .branch false ::
      ([.bignum "widen" [k.pub.n.nlimbs, 64 * k.d.nlimbs]] ++ (Spec.expTrace (Spec.sizes k) ++ []))) ++
      (Spec.powTrace k.pub.n.nlimbs k.pub.e.nlimbs k.pub.n.nlimbs ++
          [.bignum "eq" [k.pub.n.nlimbs, k.pub.n.nlimbs], .branch false])) ?_ ?_
    · refine Tr.bind (P := fun p => p.1.nlimbs = k.pub.n.nlimbs) ?_ fun p hp => htail p.1 p.2 hp
      refine Tr.emit (Tr.emit (Tr.emit ?_))
      refine Tr.bind (Tr.cast (widen_tr c hD) (by rw [hc])) fun x hx => ?_
      exact hexp hx fun m hm => Tr.ok hm
    · simp [Spec.sizes]
  | some s =>
    refine Tr.cast (E := (.bignum "cmp" [k.pub.n.nlimbs, k.pub.n.nlimbs] :: .branch false :: .branch true ::
      ((.branch true :: (Spec.drawsTrace R k.pub.n.val k.pub.n.nlimbs fuel s ++
      Spec.powTrace k.pub.n.nlimbs k.pub.e.nlimbs k.pub.n.nlimbs ++ Spec.mulTrace k.pub.n.nlimbs ++
      [.branch true, .branch true])) ++
      ([.bignum "widen" [k.pub.n.nlimbs, 64 * k.d.nlimbs]] ++ (Spec.expTrace (Spec.sizes k) ++
        ((.branch true :: .branch true :: Spec.mulTrace k.pub.n.nlimbs) ++ []))))) ++
      (Spec.powTrace k.pub.n.nlimbs k.pub.e.nlimbs k.pub.n.nlimbs ++
          [.bignum "eq" [k.pub.n.nlimbs, k.pub.n.nlimbs], .branch false])) ?_ ?_
    · refine Tr.bind (P := fun p => p.1.nlimbs = k.pub.n.nlimbs) ?_ fun p hp => htail p.1 p.2 hp
      refine Tr.emit (Tr.emit (Tr.emit ?_))
      refine Tr.bind (blind_tr R fuel s hk.coherent hn c hc) ?_
      rintro ⟨⟨x, u⟩, t⟩ ⟨hx, hu⟩
      dsimp only at hx hu ⊢
      refine Tr.bind (Tr.cast (widen_tr x hD) (by rw [hx])) fun y hy => ?_
      refine hexp hy fun m hm => Tr.bind (unblind_tr hp hm hu) fun z hz => Tr.ok hz
    · simp [Spec.sizes]

theorem rsaDecryptAndCheck_tr' {σ : Type} (R : RngImpl σ) (fuel : Nat) {k : PrivateKey} (hk : Spec.Sized k)
    (hn : 1 < k.pub.n.val) (rng : Option σ) {c : BoxedUint} (hc : c.nlimbs = k.pub.n.nlimbs) :
    Tr (rsaDecryptAndCheck R fuel k rng c) (Spec.privateTrace R fuel k.pub.n.val (Spec.sizes k) rng)
      (fun p => p.1.nlimbs = k.pub.n.nlimbs) := by
  intro a ha
  by_cases hlt : c.val < k.pub.n.val
  · exact rsaDecryptAndCheck_tr R fuel hk hn rng hc hlt a ha
  · have hg : c.ge k.pub.n = true := by simp [ge, BoxedUint.lt, hlt]
    unfold rsaDecryptAndCheck rsaDecrypt at ha
    dsimp only at ha
    rw [leak.branch_pos hg] at ha
    cases ha

end leak
end RSA
