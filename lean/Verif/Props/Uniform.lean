import Verif.Spec.Uniform
import Verif.Props.Hiding
import Verif.Props.Outcome
import Mathlib.Data.Set.Card
import Mathlib.Data.Set.Finite.List
import Mathlib.Data.Nat.Choose.Basic
import Mathlib.Data.Nat.Totient

/-
C88: how often each padding string, seed, salt and blinded value comes up, counted over all the tapes a generator could
have read.
-/
namespace RSA
open BoxedUint

def octetEquiv : UInt8 ≃ Fin 256 where
  toFun b := b.toFin
  invFun i := UInt8.ofFin i
  left_inv _ := rfl
  right_inv _ := rfl

instance : Finite UInt8 := Finite.of_equiv _ octetEquiv.symm

/-! ### PKCS#1 v1.5 padding -/

theorem tape_fill_one (b : UInt8) (t : Bytes) : Spec.octetTape.tryFill (b :: t) 1 = .ok ([b], t) := by
  simp [RngImpl.tryFill, Spec.octetTape]

theorem tape_fill_nil : Spec.octetTape.tryFill [] 1 = .err .rng := by
  simp [RngImpl.tryFill, Spec.octetTape]

theorem tape_reroll : ∀ (f : Nat) (s : Bytes) (b : UInt8) (s' : Bytes),
    rerollByte Spec.octetTape f s = .ok (b, s') ↔ b ≠ 0 ∧ ∃ m, m < f ∧ s = List.replicate m 0 ++ b :: s'
  | 0, s, b, s' => by simp [rerollByte]
  | f + 1, [], b, s' => by
    rw [rerollByte, tape_fill_nil]
    constructor
    · intro h; cases h
    · rintro ⟨-, m, -, h⟩; simp at h
  | f + 1, c :: s, b, s' => by
    rw [rerollByte, tape_fill_one, Res.ok_bind]
    simp only [idx, List.getElem?_cons_zero, Res.ok_bind]
    by_cases hc : c = 0
    · subst hc
      simp only [if_true]
      rw [tape_reroll f s b s']
      refine and_congr_right fun hb => ⟨?_, ?_⟩
      · rintro ⟨m, hm, rfl⟩; exact ⟨m + 1, by omega, by simp [List.replicate_succ]⟩
      · rintro ⟨_ | m, hm, h⟩
        · simp only [List.replicate_zero, List.nil_append, List.cons.injEq] at h
          exact absurd h.1.symm hb
        · simp only [List.replicate_succ, List.cons_append, List.cons.injEq, true_and] at h
          exact ⟨m, by omega, h⟩
    · simp only [hc, if_false]
      constructor
      · intro h
        obtain ⟨rfl, rfl⟩ := Prod.mk.inj (Res.ok.inj h)
        exact ⟨hc, 0, by omega, rfl⟩
      · rintro ⟨hb, _ | m, hm, h⟩
        · simp only [List.replicate_zero, List.nil_append, List.cons.injEq] at h
          obtain ⟨rfl, rfl⟩ := h; rfl
        · simp only [List.replicate_succ, List.cons_append, List.cons.injEq] at h
          exact absurd h.1 hc

theorem tape_fixZeros_cons (f : Nat) (b : UInt8) (raw s : Bytes) (x : UInt8) (xs rest : Bytes) :
    fixZeros Spec.octetTape f (b :: raw) s = .ok (x :: xs, rest) ↔
      (b ≠ 0 ∧ b = x ∧ fixZeros Spec.octetTape f raw s = .ok (xs, rest)) ∨
      (b = 0 ∧ x ≠ 0 ∧ ∃ m s', m < f ∧ s = List.replicate m 0 ++ x :: s' ∧
        fixZeros Spec.octetTape f raw s' = .ok (xs, rest)) := by
  rw [fixZeros]
  by_cases hb : b = 0
  · simp only [hb, if_true]
    rw [Res.bind_eq_ok]
    constructor
    · rintro ⟨⟨y, s1⟩, h1, h2⟩
      rw [Res.bind_eq_ok] at h2
      obtain ⟨⟨ys, s2⟩, h3, h4⟩ := h2
      obtain ⟨h5, rfl⟩ := Prod.mk.inj (Res.ok.inj h4)
      obtain ⟨rfl, rfl⟩ := List.cons.inj h5
      obtain ⟨h6, m, hm, rfl⟩ := (tape_reroll _ _ _ _).mp h1
      exact Or.inr ⟨by trivial, h6, m, s1, hm, rfl, h3⟩
    · rintro (⟨h, -⟩ | ⟨-, hx, m, s', hm, rfl, h⟩)
      · exact absurd rfl h
      · exact ⟨(x, s'), (tape_reroll _ _ _ _).mpr ⟨hx, m, hm, rfl⟩, by simp only [h, Res.ok_bind]⟩
  · simp only [hb, if_false, Res.ok_bind, false_and, or_false, ne_eq, not_false_eq_true, true_and]
    rw [Res.bind_eq_ok]
    constructor
    · rintro ⟨⟨ys, s2⟩, h3, h4⟩
      obtain ⟨h5, rfl⟩ := Prod.mk.inj (Res.ok.inj h4)
      obtain ⟨rfl, rfl⟩ := List.cons.inj h5
      exact ⟨by trivial, h3⟩
    · rintro ⟨rfl, h⟩
      exact ⟨(xs, rest), h, rfl⟩

theorem tape_fixZeros_nil (f : Nat) (s x rest : Bytes) :
    fixZeros Spec.octetTape f [] s = .ok (x, rest) ↔ x = [] ∧ s = rest := by
  rw [fixZeros]
  constructor
  · intro h; obtain ⟨rfl, rfl⟩ := Prod.mk.inj (Res.ok.inj h); exact ⟨rfl, rfl⟩
  · rintro ⟨rfl, rfl⟩; rfl

theorem fixZeros_cons_ne_nil {σ : Type} (R : RngImpl σ) (f : Nat) (b : UInt8) (raw : Bytes) (s rest : σ) :
    fixZeros R f (b :: raw) s ≠ .ok ([], rest) := by
  intro h
  have step : ∀ (y : UInt8) (s1 : σ), (fixZeros R f raw s1 >>= fun z => (Res.ok (y :: z.1, z.2) : Res (Bytes × σ))) ≠
      .ok ([], rest) := by
    intro y s1 h
    rw [Res.bind_eq_ok] at h
    obtain ⟨⟨ys, s2⟩, -, h4⟩ := h
    cases (Prod.mk.inj (Res.ok.inj h4)).1
  rw [fixZeros] at h
  by_cases hb : b = 0
  · simp only [hb, if_true] at h
    rw [Res.bind_eq_ok] at h
    obtain ⟨⟨y, s1⟩, -, h2⟩ := h
    exact step y s1 h2
  · simp only [hb, if_false] at h
    exact step b s h

theorem tape_fixZeros_length (f : Nat) : ∀ (x raw s rest : Bytes),
    fixZeros Spec.octetTape f raw s = .ok (x, rest) → raw.length = x.length ∧ rest.length ≤ s.length
  | [], [], s, rest, h => by obtain ⟨-, rfl⟩ := (tape_fixZeros_nil _ _ _ _).mp h; simp
  | [], b :: raw, s, rest, h => absurd h (fixZeros_cons_ne_nil _ _ _ _ _ _)
  | x :: xs, [], s, rest, h => by cases ((tape_fixZeros_nil _ _ _ _).mp h).1
  | x :: xs, b :: raw, s, rest, h => by
    rcases (tape_fixZeros_cons _ _ _ _ _ _ _).mp h with ⟨-, -, hr⟩ | ⟨-, -, m, s', -, rfl, hr⟩
    · have := tape_fixZeros_length f xs raw s rest hr
      simp; omega
    · have := tape_fixZeros_length f xs raw s' rest hr
      simp; omega

/-- First draws and the rest of the tape from which `fixZeros` makes `x`, having read `i` octets of the rest. -/
def padRuns (f : Nat) (x rest : Bytes) (i : Nat) : Set (Bytes × Bytes) :=
  {p | p.2.length = i + rest.length ∧ fixZeros Spec.octetTape f p.1 p.2 = .ok (x, rest)}

theorem padRuns_finite (f : Nat) (x rest : Bytes) (i : Nat) : (padRuns f x rest i).Finite := by
  refine ((List.finite_length_eq UInt8 x.length).prod (List.finite_length_eq UInt8 (i + rest.length))).subset ?_
  rintro ⟨a, b⟩ ⟨h1, h2⟩
  exact ⟨(tape_fixZeros_length _ _ _ _ _ h2).1, h1⟩

theorem padRuns_ncard (f : Nat) (rest : Bytes) : ∀ (x : Bytes), (∀ b ∈ x, b ≠ 0) → ∀ i, i ≤ f →
    (padRuns f x rest i).ncard = Nat.multichoose x.length i
  | [], _, 0, _ => by
    rw [List.length_nil, Nat.multichoose_zero_right, Set.ncard_eq_one]
    refine ⟨([], rest), ?_⟩
    ext ⟨raw, s⟩
    simp only [padRuns, Set.mem_ofPred_eq, Set.mem_singleton_iff, Prod.mk.injEq]
    constructor
    · rintro ⟨-, h⟩
      rcases raw with _ | ⟨b, raw⟩
      · exact ⟨rfl, ((tape_fixZeros_nil _ _ _ _).mp h).2⟩
      · exact absurd h (fixZeros_cons_ne_nil _ _ _ _ _ _)
    · rintro ⟨rfl, rfl⟩
      exact ⟨by simp, (tape_fixZeros_nil _ _ _ _).mpr ⟨rfl, rfl⟩⟩
  | [], _, i + 1, _ => by
    rw [List.length_nil, Nat.multichoose_zero_succ]
    have : padRuns f [] rest (i + 1) = ∅ := by
      ext ⟨raw, s⟩
      simp only [padRuns, Set.mem_ofPred_eq, Set.mem_empty_iff_false, iff_false]
      rintro ⟨h1, h⟩
      rcases raw with _ | ⟨b, raw⟩
      · obtain ⟨-, rfl⟩ := (tape_fixZeros_nil _ _ _ _).mp h; omega
      · exact absurd h (fixZeros_cons_ne_nil _ _ _ _ _ _)
    rw [this, Set.ncard_empty]
  | x :: xs, hx, 0, hf => by
    have hx0 : x ≠ 0 := hx x (by simp)
    have hinj : Function.Injective (fun p : Bytes × Bytes => (x :: p.1, p.2)) := by
      rintro ⟨a, b⟩ ⟨c, d⟩ h; simpa using h
    have : padRuns f (x :: xs) rest 0 = (fun p : Bytes × Bytes => (x :: p.1, p.2)) '' padRuns f xs rest 0 := by
      ext ⟨raw, s⟩
      simp only [padRuns, Set.mem_image, Set.mem_ofPred_eq, Prod.exists, Prod.mk.injEq]
      constructor
      · rintro ⟨h1, h⟩
        rcases raw with _ | ⟨b, raw⟩
        · cases ((tape_fixZeros_nil _ _ _ _).mp h).1
        · rcases (tape_fixZeros_cons _ _ _ _ _ _ _).mp h with ⟨-, rfl, hr⟩ | ⟨-, -, m, s', -, rfl, hr⟩
          · exact ⟨raw, s, ⟨h1, hr⟩, rfl, rfl⟩
          · have := (tape_fixZeros_length _ _ _ _ _ hr).2
            simp at h1; omega
      · rintro ⟨raw, s, ⟨h1, h⟩, rfl, rfl⟩
        exact ⟨h1, (tape_fixZeros_cons _ _ _ _ _ _ _).mpr (Or.inl ⟨hx0, rfl, h⟩)⟩
    rw [this, Set.ncard_image_of_injective _ hinj, padRuns_ncard f rest xs (fun b hb => hx b (by simp [hb])) 0 hf]
    simp
  | x :: xs, hx, i + 1, hf => by
    have hx0 : x ≠ 0 := hx x (by simp)
    have hinj : Function.Injective (fun p : Bytes × Bytes => (x :: p.1, p.2)) := by
      rintro ⟨a, b⟩ ⟨c, d⟩ h; simpa using h
    let g : Bytes × Bytes → Bytes × Bytes := fun p => (0 :: p.1.tail, p.1.headD 0 :: p.2)
    have hginj : Set.InjOn g (padRuns f (x :: xs) rest i) := by
      rintro ⟨a, b⟩ ⟨-, h1⟩ ⟨c, d⟩ ⟨-, h2⟩ h
      rcases a with _ | ⟨a0, a⟩
      · cases ((tape_fixZeros_nil _ _ _ _).mp h1).1
      rcases c with _ | ⟨c0, c⟩
      · cases ((tape_fixZeros_nil _ _ _ _).mp h2).1
      simp only [g, List.tail_cons, List.headD_cons, Prod.mk.injEq, List.cons.injEq, true_and] at h
      obtain ⟨rfl, rfl, rfl⟩ := h
      rfl
    have : padRuns f (x :: xs) rest (i + 1) =
        ((fun p : Bytes × Bytes => (x :: p.1, p.2)) '' padRuns f xs rest (i + 1)) ∪
          g '' padRuns f (x :: xs) rest i := by
      ext ⟨raw, s⟩
      simp only [padRuns, Set.mem_union, Set.mem_image, Set.mem_ofPred_eq, Prod.exists, Prod.mk.injEq, g]
      constructor
      · rintro ⟨h1, h⟩
        rcases raw with _ | ⟨b, raw⟩
        · cases ((tape_fixZeros_nil _ _ _ _).mp h).1
        · rcases (tape_fixZeros_cons _ _ _ _ _ _ _).mp h with ⟨-, rfl, hr⟩ | ⟨rfl, -, m, s', hm, rfl, hr⟩
          · exact Or.inl ⟨raw, s, ⟨h1, hr⟩, rfl, rfl⟩
          · right
            rcases m with _ | m
            · refine ⟨x :: raw, s', ⟨by simp at h1; omega, ?_⟩, rfl, rfl⟩
              exact (tape_fixZeros_cons _ _ _ _ _ _ _).mpr (Or.inl ⟨hx0, rfl, hr⟩)
            · refine ⟨0 :: raw, List.replicate m 0 ++ x :: s', ⟨by simp at h1 ⊢; omega, ?_⟩, rfl, rfl⟩
              exact (tape_fixZeros_cons _ _ _ _ _ _ _).mpr (Or.inr ⟨rfl, hx0, m, s', by omega, rfl, hr⟩)
      · rintro (⟨raw, s, ⟨h1, h⟩, rfl, rfl⟩ | ⟨raw, s, ⟨h1, h⟩, rfl, rfl⟩)
        · exact ⟨h1, (tape_fixZeros_cons _ _ _ _ _ _ _).mpr (Or.inl ⟨hx0, rfl, h⟩)⟩
        · rcases raw with _ | ⟨b, raw⟩
          · cases ((tape_fixZeros_nil _ _ _ _).mp h).1
          · refine ⟨by simp; omega, (tape_fixZeros_cons _ _ _ _ _ _ _).mpr (Or.inr ⟨rfl, hx0, ?_⟩)⟩
            rcases (tape_fixZeros_cons _ _ _ _ _ _ _).mp h with ⟨-, rfl, hr⟩ | ⟨rfl, -, m, s', hm, rfl, hr⟩
            · exact ⟨0, s, by omega, rfl, hr⟩
            · have := (tape_fixZeros_length _ _ _ _ _ hr).2
              refine ⟨m + 1, s', ?_, rfl, hr⟩
              simp at h1; omega
    rw [this, Set.ncard_union_eq ?_ ((padRuns_finite _ _ _ _).image _) ((padRuns_finite _ _ _ _).image _),
      Set.ncard_image_of_injective _ hinj, hginj.ncard_image,
      padRuns_ncard f rest xs (fun b hb => hx b (by simp [hb])) (i + 1) hf, padRuns_ncard f rest (x :: xs) hx i (by omega)]
    · simp only [List.length_cons, Nat.multichoose_succ_succ]
    · rw [Set.disjoint_left]
      rintro _ ⟨⟨a, b⟩, -, rfl⟩ ⟨⟨c, d⟩, -, h⟩
      simp only [g, Prod.mk.injEq, List.cons.injEq] at h
      exact hx0 h.1.1.symm

theorem tape_nonZero (fuel : Nat) (t : Bytes) (len : Nat) (x rest : Bytes) :
    nonZeroRandomBytes Spec.octetTape fuel t len = .ok (x, rest) ↔
      len ≤ t.length ∧ fixZeros Spec.octetTape fuel (t.take len) (t.drop len) = .ok (x, rest) := by
  unfold nonZeroRandomBytes RngImpl.tryFill
  by_cases h : len ≤ t.length
  · simp [Spec.octetTape, h]
  · simp [Spec.octetTape, h]

/-- C88, the padding string: of the tapes that leave `rest` unread after `i` octets had to be drawn again, exactly
`multichoose len i` make the padding string `x`. The number depends neither on `x` nor on what is left: every string of
non-zero octets is equally likely. -/
theorem C88_padding (fuel len i : Nat) (hi : i ≤ fuel) (x rest : Bytes) (hx : x.length = len) (hnz : ∀ b ∈ x, b ≠ 0) :
    {t : Bytes | t.length = len + i + rest.length ∧
      nonZeroRandomBytes Spec.octetTape fuel t len = .ok (x, rest)}.Finite ∧
    {t : Bytes | t.length = len + i + rest.length ∧
      nonZeroRandomBytes Spec.octetTape fuel t len = .ok (x, rest)}.ncard = Nat.multichoose len i := by
  refine ⟨(List.finite_length_eq UInt8 _).subset fun t ht => ht.1, ?_⟩
  have hinj : Set.InjOn (fun p : Bytes × Bytes => p.1 ++ p.2) (padRuns fuel x rest i) := by
    rintro ⟨a, b⟩ ⟨-, h1⟩ ⟨c, d⟩ ⟨-, h2⟩ h
    have l1 := (tape_fixZeros_length _ _ _ _ _ h1).1
    have l2 := (tape_fixZeros_length _ _ _ _ _ h2).1
    obtain ⟨rfl, rfl⟩ := List.append_inj h (l1.trans l2.symm)
    rfl
  rw [← hx, ← padRuns_ncard fuel rest x hnz i hi, ← hinj.ncard_image]
  congr 1
  ext t
  simp only [padRuns, Set.mem_image, Set.mem_ofPred_eq, Prod.exists, tape_nonZero]
  constructor
  · rintro ⟨h1, h2, h3⟩
    exact ⟨t.take x.length, t.drop x.length, ⟨by simp; omega, h3⟩, by simp⟩
  · rintro ⟨a, b, ⟨h1, h⟩, rfl⟩
    have l1 := (tape_fixZeros_length _ _ _ _ _ h).1
    refine ⟨by simp; omega, by simp; omega, ?_⟩
    rw [← l1]
    simpa using h

/-- C88, PKCS#1 v1.5 encryption: the same number of tapes lead to the ciphertext of each padding string. -/
theorem C88_pkcs1v15 {k : PrivateKey} (hk : Spec.WellFormed k) (hc : checkPublic k.pub = .ok ()) (fuel i : Nat)
    (hi : i ≤ fuel) (msg x rest : Bytes) (hx : x.length + msg.length + 3 = Spec.octetLen k.pub.n.val) (h8 : 8 ≤ x.length)
    (hnz : ∀ b ∈ x, b ≠ 0) :
    ∃ ct, Spec.i2osp (Spec.os2ip ([0x00, 0x02] ++ x ++ [0x00] ++ msg) ^ k.pub.e.val % k.pub.n.val)
        (Spec.octetLen k.pub.n.val) = some ct ∧
      {t : Bytes | t.length = x.length + i + rest.length ∧
        pkcs1v15.encrypt Spec.octetTape fuel t k.pub msg = .ok (ct, rest)}.ncard = Nat.multichoose x.length i := by
  have hn := coherent_pos hk.coherent
  rw [← size_eq_octetLen] at hx ⊢
  rw [← beVal_eq_os2ip]
  refine ⟨_, i2osp_eq _ _ (mod_lt_pow_size _ hn _), ?_⟩
  rw [← (C88_padding fuel x.length i hi x rest rfl hnz).2]
  congr 1
  ext t
  simp only [Set.mem_ofPred_eq]
  refine and_congr_right fun _ => ?_
  rw [pkcs1v15.encrypt_eq _ fuel t k.pub hk.coherent hc msg, if_neg (by omega), Res.bind_eq_ok]
  have hl : k.pub.size - msg.length - 3 = x.length := by omega
  rw [hl]
  constructor
  · rintro ⟨⟨p, s1⟩, h1, h2⟩
    obtain ⟨h3, rfl⟩ := Prod.mk.inj (Res.ok.inj h2)
    obtain ⟨hp, hpz⟩ : p.length = x.length ∧ ∀ b ∈ p, b ≠ 0 := by
      rcases nonZeroRandomBytes_cases Spec.octetTape fuel t x.length with ⟨p', s2, h3, a, b⟩ | h3 | h3
      · rw [h1] at h3
        obtain ⟨rfl, -⟩ := Prod.mk.inj (Res.ok.inj h3)
        exact ⟨a, b⟩
      · rw [h1] at h3; cases h3
      · rw [h1] at h3; cases h3
    have hem := block_inj hk (by simp; omega) (by simp; omega) rfl rfl h3
    simp only [List.append_assoc, List.cons_append, List.nil_append, List.cons.injEq, true_and] at hem
    obtain ⟨rfl, -⟩ := nonzero_prefix_inj hpz hnz hem
    exact h1
  · intro h
    exact ⟨(x, rest), h, rfl⟩

/-! ### OAEP seeds -/

theorem tape_fill (t seed rest : Bytes) (n : Nat) :
    Spec.octetTape.tryFill t n = .ok (seed, rest) ↔ seed.length = n ∧ t = seed ++ rest := by
  unfold RngImpl.tryFill Spec.octetTape
  by_cases h : n ≤ t.length
  · simp only [h, if_true]
    constructor
    · intro hr
      obtain ⟨rfl, rfl⟩ := Prod.mk.inj (Res.ok.inj hr)
      exact ⟨by rw [List.length_take]; omega, (List.take_append_drop _ _).symm⟩
    · rintro ⟨rfl, rfl⟩
      simp
  · simp only [h, if_false]
    constructor
    · intro hr; cases hr
    · rintro ⟨rfl, rfl⟩; simp at h

/-- C88, OAEP encryption: exactly one tape leads to each ciphertext and rest, the one made of the seed and the rest. -/
theorem C88_oaep {k : PrivateKey} (hk : Spec.WellFormed k) (hc : checkPublic k.pub = .ok ()) (D MGD : HashFn)
    (hpos : 0 < MGD.outLen) (label : Option Bytes) (hl : (label.getD []).length < maxLabelLen) (msg seed rest : Bytes)
    (hs : seed.length = D.outLen) (hm : msg.length + 2 * D.outLen + 2 ≤ Spec.octetLen k.pub.n.val) :
    ∃ ct, Spec.i2osp (Spec.os2ip (Spec.emeOaep (D.hash (label.getD [])) (Spec.mgf1 MGD.hash MGD.outLen) D.outLen
        (Spec.octetLen k.pub.n.val) seed msg) ^ k.pub.e.val % k.pub.n.val) (Spec.octetLen k.pub.n.val) = some ct ∧
      ∀ t : Bytes, oaep.encrypt Spec.octetTape t k.pub msg (DigestState.new D) (DigestState.new MGD) label =
        .ok (ct, rest) ↔ t = seed ++ rest := by
  have hn := coherent_pos hk.coherent
  rw [← size_eq_octetLen] at hm ⊢
  rw [← beVal_eq_os2ip]
  refine ⟨_, i2osp_eq _ _ (mod_lt_pow_size _ hn _), fun t => ?_⟩
  rw [oaep.encrypt_eq _ t k.pub hk.coherent hc msg D MGD hpos label hl, if_neg (by omega), Res.bind_eq_ok]
  constructor
  · rintro ⟨⟨p, s1⟩, h1, h2⟩
    obtain ⟨h3, rfl⟩ := Prod.mk.inj (Res.ok.inj h2)
    obtain ⟨hp, rfl⟩ := (tape_fill _ _ _ _).mp h1
    have hg := MGD.mgf_length hpos
    have hem := block_inj hk (emeOaep_length _ _ _ _ _ _ (D.hash_len _) hp hg hm)
      (emeOaep_length _ _ _ _ _ _ (D.hash_len _) hs hg hm) rfl rfl h3
    rw [(emeOaep_inj_msg hg (D.hash_len _) (D.hash_len _) hp hs hm hm hem).2.1]
  · rintro rfl
    exact ⟨(seed, rest), (tape_fill _ _ _ _).mpr ⟨hs, rfl⟩, rfl⟩

/-! ### PSS salts -/

theorem octets_ncard (N : Nat) : {t : Bytes | t.length = N}.ncard = 256 ^ N := by
  induction N with
  | zero =>
    rw [pow_zero, Set.ncard_eq_one]
    exact ⟨[], by ext t; simp⟩
  | succ N ih =>
    have : {t : Bytes | t.length = N + 1} = (fun p : UInt8 × Bytes => p.1 :: p.2) '' (Set.univ ×ˢ {t : Bytes | t.length = N}) := by
      ext t
      rcases t with _ | ⟨b, t⟩
      · simp
      · simp
    have hinj : Function.Injective (fun p : UInt8 × Bytes => p.1 :: p.2) := by
      rintro ⟨a, b⟩ ⟨c, d⟩ h; simpa using h
    rw [this, Set.ncard_image_of_injective _ hinj, Set.ncard_prod, ih, Set.ncard_univ, Nat.card_congr octetEquiv,
      Nat.card_eq_fintype_card, Fintype.card_fin, pow_succ, mul_comm]

/-- C88, PSS signing without blinding: each signature made with a salt is made from exactly the tapes that start with that
salt. -/
theorem C88_pss {k : PrivateKey} (hk : Spec.WellFormed k) (hp : k.pub.n.prec < 2 ^ 32) (D : HashFn) (hpos : 0 < D.outLen)
    (fuel : Nat) (hashed salt em : Bytes) (hadd : D.outLen + salt.length + 2 < 2 ^ 64) (hh : hashed.length = D.outLen)
    (hem : Spec.emsaPss D.hash (Spec.mgf1 D.hash D.outLen) D.outLen hashed salt (k.pub.n.val.size - 1) = some em) :
    ∃ sig, Spec.i2osp (Spec.os2ip em ^ k.d.val % k.pub.n.val) (Spec.octetLen k.pub.n.val) = some sig ∧
      (∀ t : Bytes, pss.Pss.sign ⟨false, DigestState.new D, salt.length⟩ Spec.octetTape fuel (some t) k hashed = .ok sig ↔
        ∃ u, t = salt ++ u) ∧
      ∀ N, {t : Bytes | t.length = salt.length + N ∧
        pss.Pss.sign ⟨false, DigestState.new D, salt.length⟩ Spec.octetTape fuel (some t) k hashed = .ok sig}.ncard =
          256 ^ N := by
  have hn := coherent_pos hk.coherent
  have hi : ∀ v, Spec.i2osp (v % k.pub.n.val) (Spec.octetLen k.pub.n.val) =
      some (beBytes k.pub.size (v % k.pub.n.val)) := by
    intro v
    rw [← size_eq_octetLen]; exact i2osp_eq _ _ (mod_lt_pow_size _ hn _)
  have hiff : ∀ t : Bytes, pss.Pss.sign ⟨false, DigestState.new D, salt.length⟩ Spec.octetTape fuel (some t) k hashed =
      .ok (beBytes k.pub.size (Spec.os2ip em ^ k.d.val % k.pub.n.val)) ↔ ∃ u, t = salt ++ u := by
    intro t
    rw [C80_pss _ _ _ hk hp _ _ hpos _ hadd]
    constructor
    · intro h
      cases h with
      | done s hs salt' hf hh em' sig hem' hsig r hr =>
        obtain rfl := Option.some.inj hs
        have hsg := privately_ok hr
        rw [hi, hsg] at hsig
        have h3 := congrArg beVal (Option.some.inj hsig)
        rw [beVal_beBytes, beVal_beBytes, Nat.mod_eq_of_lt (mod_lt_pow_size _ hn _),
          Nat.mod_eq_of_lt (mod_lt_pow_size _ hn _), ← beVal_eq_os2ip, ← beVal_eq_os2ip] at h3
        have h3' : beVal em' ^ k.d.val ≡ beVal em ^ k.d.val [MOD k.pub.n.val] := h3
        have h4 := h3'.pow k.pub.e.val
        rw [← pow_mul, ← pow_mul] at h4
        have h5 := (wf_rsa hk _).symm.trans (h4.trans (wf_rsa hk _))
        rw [← bits_eq_size] at hem hem'
        have h6 := Nat.ModEq.eq_of_lt_of_lt h5 (lt_of_lt_of_le (emsaPss_lt hpos hem') (pow_bits_le hn))
          (lt_of_lt_of_le (emsaPss_lt hpos hem) (pow_bits_le hn))
        have h7 := beVal_inj ((emsaPss_length hpos hem').1.trans (emsaPss_length hpos hem).1.symm) h6
        subst h7
        obtain ⟨rfl, -⟩ := emsaPss_inj hpos hem' hem
        have hf' := tryFill_some hf
        obtain ⟨-, h8⟩ := (tape_fill _ _ _ _).mp hf'
        exact ⟨_, h8⟩
    · rintro ⟨u, rfl⟩
      refine .done _ rfl salt (by simp [Spec.octetTape]) hh em _ hem (hi _) _ ?_
      exact .done trivial
  refine ⟨_, hi _, hiff, fun N => ?_⟩
  have : {t : Bytes | t.length = salt.length + N ∧
      pss.Pss.sign ⟨false, DigestState.new D, salt.length⟩ Spec.octetTape fuel (some t) k hashed =
        .ok (beBytes k.pub.size (Spec.os2ip em ^ k.d.val % k.pub.n.val))} =
      (fun u => salt ++ u) '' {u : Bytes | u.length = N} := by
    ext t
    simp only [Set.mem_ofPred_eq, hiff, Set.mem_image]
    constructor
    · rintro ⟨h1, u, rfl⟩; exact ⟨u, by simpa using h1, rfl⟩
    · rintro ⟨u, rfl, rfl⟩; exact ⟨by simp, u, rfl⟩
  rw [this, Set.ncard_image_of_injective _ (List.append_right_injective _), octets_ncard]

/-! ### Blinding -/

theorem blind_zero {σ : Type} (R : RngImpl σ) (s : σ) (k : PublicKey) (hk : k.Coherent) (c : BoxedUint)
    (hc : c.nlimbs = k.n.nlimbs) : blind R 0 s k c k.nParams = .loop := by
  have hprec : c.prec = k.n.prec := by unfold prec; rw [hc]
  rw [blind_eq R _ s k hk c hprec]; rfl

/-- Tapes of numbers below `n` from which `blind` makes the value `v`. -/
def blindRuns (k : PublicKey) (c : BoxedUint) (fuel : Nat) (v : Nat) (rest : List Nat) (i : Nat) : Set (List Nat) :=
  {t | t.length = i + 1 + rest.length ∧ (∀ r ∈ t, r < k.n.val) ∧
    ∃ x ir, blind Spec.numberTape fuel t k c k.nParams = .ok ((x, ir), rest) ∧ x.val = v}

theorem numberTape_cons {r n : Nat} (t : List Nat) (h : r < n) : Spec.numberTape.randMod (r :: t) n = (some r, t) := by
  simp [Spec.numberTape, h]

theorem blindRuns_cons (k : PublicKey) (hk : k.Coherent) (c : BoxedUint) (hc : c.nlimbs = k.n.nlimbs) (fuel v : Nat)
    (rest : List Nat) (i r : Nat) (t : List Nat) :
    r :: t ∈ blindRuns k c (fuel + 1) v rest (i + 1) ↔
      (r < k.n.val ∧ r ≠ 0 ∧ ¬ r.Coprime k.n.val) ∧ t ∈ blindRuns k c fuel v rest i := by
  simp only [blindRuns, Set.mem_ofPred_eq, List.mem_cons, forall_eq_or_imp, List.length_cons]
  by_cases hr : r < k.n.val
  · obtain ⟨hd1, hd2⟩ := C69_draw Spec.numberTape fuel (r :: t) k hk c hc r (by rw [numberTape_cons t hr])
    rw [numberTape_cons t hr] at hd1 hd2
    by_cases hu : r = 0 ∨ r.Coprime k.n.val
    · obtain ⟨x, ir, h1, -⟩ := hd1 hu
      constructor
      · rintro ⟨hl, -, x', ir', h2, -⟩
        rw [h1] at h2
        obtain ⟨-, h3⟩ := Prod.mk.inj (Res.ok.inj h2)
        simp only at h3
        subst h3
        omega
      · rintro ⟨⟨-, h0, h1⟩, -⟩; exact absurd hu (by tauto)
    · rw [hd2 hu]
      constructor
      · rintro ⟨hl, ⟨-, ht⟩, h⟩; exact ⟨⟨hr, by tauto, by tauto⟩, by omega, ht, h⟩
      · rintro ⟨-, hl, ht, h⟩; exact ⟨by omega, ⟨hr, ht⟩, h⟩
  · constructor
    · rintro ⟨-, ⟨h, -⟩, -⟩; exact absurd h hr
    · rintro ⟨⟨h, -⟩, -⟩; exact absurd h hr

theorem blind_reads (k : PublicKey) (hk : k.Coherent) (c : BoxedUint) (hc : c.nlimbs = k.n.nlimbs) :
    ∀ (fuel : Nat) (t rest : List Nat) (p : BoxedUint × BoxedUint),
      blind Spec.numberTape fuel t k c k.nParams = .ok (p, rest) → rest.length < t.length
  | 0, t, rest, p, h => by rw [blind_zero _ _ _ hk _ hc] at h; cases h
  | fuel + 1, [], rest, p, h => by
    have hprec : c.prec = k.n.prec := by unfold prec; rw [hc]
    rw [blind_eq _ _ _ k hk c hprec] at h
    simp [blindLoop, Spec.numberTape] at h
  | fuel + 1, r :: t, rest, p, h => by
    by_cases hr : r < k.n.val
    · obtain ⟨hd1, hd2⟩ := C69_draw Spec.numberTape fuel (r :: t) k hk c hc r (by rw [numberTape_cons _ hr])
      rw [numberTape_cons _ hr] at hd1 hd2
      by_cases hu : r = 0 ∨ r.Coprime k.n.val
      · obtain ⟨x', ir', h1, -⟩ := hd1 hu
        rw [h1] at h
        rw [← (Prod.mk.inj (Res.ok.inj h)).2]
        simp
      · rw [hd2 hu] at h
        have := blind_reads k hk c hc fuel t rest p h
        simp; omega
    · have hprec : c.prec = k.n.prec := by unfold prec; rw [hc]
      rw [blind_eq _ _ _ k hk c hprec] at h
      simp [blindLoop, Spec.numberTape, hr] at h

theorem wasted_ncard {n : Nat} (hn : 1 < n) : {r : Nat | r < n ∧ r ≠ 0 ∧ ¬ r.Coprime n}.ncard = n - 1 - n.totient := by
  have h1 : {r : Nat | r < n ∧ r ≠ 0 ∧ ¬ r.Coprime n} =
      (((Finset.range n).filter (fun r => ¬ n.Coprime r)).erase 0 : Finset Nat) := by
    ext r
    simp only [Set.mem_ofPred_eq, Finset.coe_erase, Finset.coe_filter, Finset.mem_range, Set.mem_sdiff,
      Set.mem_singleton_iff, Nat.coprime_comm]
    tauto
  rw [h1, Set.ncard_coe_finset, Finset.card_erase_of_mem, Nat.totient]
  · have := Finset.card_filter_add_card_filter_not (s := Finset.range n) (fun r => n.Coprime r)
    rw [Finset.card_range] at this
    omega
  · simp; omega

/-- C88, blinding: of the tapes that leave `rest` after `i` unusable draws, exactly `(n - 1 - φ(n))^i` make each blinded
value `v`, except that the unblinded value itself is made from twice as many (the draw 0 is replaced by 1). -/
theorem C88_blinding {k : PrivateKey} (hk : Spec.WellFormed k) (c : BoxedUint) (hc : c.nlimbs = k.pub.n.nlimbs)
    (hcu : c.val.Coprime k.pub.n.val) (hcn : c.val < k.pub.n.val) (v : Nat) (hv : v.Coprime k.pub.n.val)
    (hvn : v < k.pub.n.val) (rest : List Nat) (hrest : ∀ r ∈ rest, r < k.pub.n.val) : ∀ (i fuel : Nat), i < fuel →
    {t : List Nat | t.length = i + 1 + rest.length ∧ (∀ r ∈ t, r < k.pub.n.val) ∧
      ∃ x ir, blind Spec.numberTape fuel t k.pub c k.pub.nParams = .ok ((x, ir), rest) ∧ x.val = v}.ncard =
        (k.pub.n.val - 1 - k.pub.n.val.totient) ^ i * (if v = c.val then 2 else 1) := by
  have hn1 := wf_one_lt hk
  intro i
  induction i with
  | zero =>
    intro fuel hf
    obtain ⟨f, rfl⟩ : ∃ f, fuel = f + 1 := ⟨fuel - 1, by omega⟩
    have hmem : ∀ r, r :: rest ∈ blindRuns k.pub c (f + 1) v rest 0 ↔
        r < k.pub.n.val ∧ (r = 0 ∨ r.Coprime k.pub.n.val) ∧
          c.val * (if r = 0 then 1 else r) ^ k.pub.e.val % k.pub.n.val = v := by
      intro r
      simp only [blindRuns, Set.mem_ofPred_eq, List.mem_cons, forall_eq_or_imp]
      by_cases hr : r < k.pub.n.val
      · obtain ⟨hd1, hd2⟩ := C69_draw Spec.numberTape f (r :: rest) k.pub hk.coherent c hc r (by rw [numberTape_cons _ hr])
        rw [numberTape_cons _ hr] at hd1 hd2
        by_cases hu : r = 0 ∨ r.Coprime k.pub.n.val
        · obtain ⟨x, ir, h1, h2, -⟩ := hd1 hu
          constructor
          · rintro ⟨-, -, x', ir', h3, rfl⟩
            rw [h1] at h3
            obtain ⟨h4, -⟩ := Prod.mk.inj (Res.ok.inj h3)
            obtain ⟨rfl, -⟩ := Prod.mk.inj h4
            exact ⟨hr, hu, h2.symm⟩
          · rintro ⟨-, -, h3⟩
            exact ⟨by simp; omega, ⟨hr, hrest⟩, x, ir, h1, h2.trans h3⟩
        · rw [hd2 hu]
          constructor
          · rintro ⟨-, -, x', ir', h3, -⟩
            have := blind_reads k.pub hk.coherent c hc f rest _ _ h3
            exact absurd this (lt_irrefl _)
          · rintro ⟨-, h, -⟩; exact absurd h hu
      · constructor
        · rintro ⟨-, ⟨h, -⟩, -⟩; exact absurd h hr
        · rintro ⟨h, -⟩; exact absurd h hr
    have htail : ∀ t ∈ blindRuns k.pub c (f + 1) v rest 0, ∃ r, t = r :: rest := by
      rintro t ⟨hl, hlt, x, ir, h, -⟩
      rcases t with _ | ⟨r, t⟩
      · simp at hl; omega
      · have hr := hlt r (by simp)
        obtain ⟨hd1, hd2⟩ := C69_draw Spec.numberTape f (r :: t) k.pub hk.coherent c hc r (by rw [numberTape_cons _ hr])
        rw [numberTape_cons _ hr] at hd1 hd2
        by_cases hu : r = 0 ∨ r.Coprime k.pub.n.val
        · obtain ⟨x', ir', h1, -⟩ := hd1 hu
          rw [h1] at h
          exact ⟨r, by rw [← (Prod.mk.inj (Res.ok.inj h)).2]⟩
        · rw [hd2 hu] at h
          have := blind_reads k.pub hk.coherent c hc f t _ _ h
          simp at hl; omega
    obtain ⟨r0, ⟨hr0, hr0n, hr0c, hr0v⟩, huniq⟩ := C69_uniform hk c.val v hcu hv hvn
    change (blindRuns k.pub c (f + 1) v rest 0).ncard = _
    rw [pow_zero, one_mul]
    by_cases hvc : v = c.val
    · have h01 : r0 = 1 := by
        refine (huniq 1 ⟨by omega, hn1, Nat.coprime_one_left _, ?_⟩).symm
        rw [one_pow, mul_one, Nat.mod_eq_of_lt hcn, hvc]
      rw [if_pos hvc]
      have : blindRuns k.pub c (f + 1) v rest 0 = {0 :: rest, 1 :: rest} := by
        ext t
        simp only [Set.mem_insert_iff, Set.mem_singleton_iff]
        constructor
        · intro ht
          obtain ⟨r, rfl⟩ := htail t ht
          obtain ⟨h1, h2, h3⟩ := (hmem r).mp ht
          by_cases h0 : r = 0
          · left; rw [h0]
          · right
            rw [if_neg h0] at h3
            rw [huniq r ⟨Nat.pos_of_ne_zero h0, h1, h2.resolve_left h0, h3⟩, h01]
        · rintro (rfl | rfl)
          · exact (hmem 0).mpr ⟨by omega, Or.inl rfl, by simp [Nat.mod_eq_of_lt hcn, hvc]⟩
          · exact (hmem 1).mpr ⟨hn1, Or.inr (Nat.coprime_one_left _), by simp [Nat.mod_eq_of_lt hcn, hvc]⟩
      rw [this, Set.ncard_pair (by simp)]
    · rw [if_neg hvc, Set.ncard_eq_one]
      refine ⟨r0 :: rest, ?_⟩
      ext t
      simp only [Set.mem_singleton_iff]
      constructor
      · intro ht
        obtain ⟨r, rfl⟩ := htail t ht
        obtain ⟨h1, h2, h3⟩ := (hmem r).mp ht
        by_cases h0 : r = 0
        · rw [if_pos h0, one_pow, mul_one, Nat.mod_eq_of_lt hcn] at h3
          exact absurd h3.symm hvc
        · rw [if_neg h0] at h3
          rw [huniq r ⟨Nat.pos_of_ne_zero h0, h1, h2.resolve_left h0, h3⟩]
      · rintro rfl
        exact (hmem r0).mpr ⟨hr0n, Or.inr hr0c, by rw [if_neg (by omega)]; exact hr0v⟩
  | succ i ih =>
    intro fuel hf
    obtain ⟨f, rfl⟩ : ∃ f, fuel = f + 1 := ⟨fuel - 1, by omega⟩
    have heq : blindRuns k.pub c (f + 1) v rest (i + 1) = (fun p : Nat × List Nat => p.1 :: p.2) ''
        ({r : Nat | r < k.pub.n.val ∧ r ≠ 0 ∧ ¬ r.Coprime k.pub.n.val} ×ˢ blindRuns k.pub c f v rest i) := by
      ext t
      rcases t with _ | ⟨r, t⟩
      · simp [blindRuns]
        omega
      · rw [blindRuns_cons k.pub hk.coherent c hc]
        simp
    have hinj : Function.Injective (fun p : Nat × List Nat => p.1 :: p.2) := by
      rintro ⟨a, b⟩ ⟨c, d⟩ h; simpa using h
    have ih' : (blindRuns k.pub c f v rest i).ncard = _ := ih f (by omega)
    change (blindRuns k.pub c (f + 1) v rest (i + 1)).ncard = _
    rw [heq, Set.ncard_image_of_injective _ hinj, Set.ncard_prod, ih', wasted_ncard hn1, pow_succ]
    ring

/-! ### Examples -/

/-- Two tapes make the padding `[5, 6]` with one octet drawn again; the theorem counts them. -/
example : nonZeroRandomBytes Spec.octetTape 3 [0, 6, 5, 9] 2 = .ok ([5, 6], [9]) ∧
    nonZeroRandomBytes Spec.octetTape 3 [5, 0, 6, 9] 2 = .ok ([5, 6], [9]) ∧
    {t : Bytes | t.length = 4 ∧ nonZeroRandomBytes Spec.octetTape 3 t 2 = .ok ([5, 6], [9])}.ncard = 2 :=
  ⟨by decide, by decide, (C88_padding 3 2 1 (by decide) [5, 6] [9] rfl (by decide)).2.trans (by simp)⟩

/-- A three-octet message under a 27-octet key: 21 tapes with one redrawn octet for each padding string. -/
example (x rest : Bytes) (hx : x.length = 21) (hnz : ∀ b ∈ x, b ≠ 0) :
    ∃ ct, {t : Bytes | t.length = 22 + rest.length ∧
      pkcs1v15.encrypt Spec.octetTape 5 t Ex.key.pub [1, 2, 3] = .ok (ct, rest)}.ncard = 21 := by
  obtain ⟨ct, -, h⟩ := C88_pkcs1v15 Ex.key_wf (by decide +kernel) 5 1 (by decide) [1, 2, 3] x rest
    (by rw [hx]; decide +kernel) (by omega) hnz
  refine ⟨ct, ?_⟩
  rw [hx] at h
  rw [h]; simp [Nat.multichoose_one_right]

/-- A seed of four octets. -/
example : ∃ ct, ∀ t : Bytes, oaep.encrypt Spec.octetTape t Ex.key.pub [7] (DigestState.new Ex.hash4)
    (DigestState.new Ex.hash4) none = .ok (ct, [8]) ↔ t = [1, 2, 3, 4, 8] := by
  obtain ⟨ct, -, h⟩ := C88_oaep Ex.key_wf (by decide +kernel) Ex.hash4 Ex.hash4 (by decide) none (by decide) [7]
    [1, 2, 3, 4] [8] rfl (by decide +kernel)
  exact ⟨ct, h⟩

/-- A salt of three octets: 256 of the tapes of four octets give its signature. -/
example : ∃ sig, {t : Bytes | t.length = 4 ∧ pss.Pss.sign ⟨false, DigestState.new Ex.hash4, 3⟩ Spec.octetTape 1 (some t)
    Ex.key (Ex.hash4.hash [1]) = .ok sig}.ncard = 256 := by
  obtain ⟨em, hem⟩ : ∃ em, Spec.emsaPss Ex.hash4.hash (Spec.mgf1 Ex.hash4.hash Ex.hash4.outLen) Ex.hash4.outLen
      (Ex.hash4.hash [1]) [1, 2, 3] (Ex.key.pub.n.val.size - 1) = some em :=
    Option.isSome_iff_exists.mp (by decide +kernel)
  obtain ⟨sig, -, -, h⟩ := C88_pss Ex.key_wf (by decide) Ex.hash4 (by decide) 1 _ [1, 2, 3] em (by decide) (by decide) hem
  exact ⟨sig, by simpa using h 1⟩

/-- The ciphertext 2 stays itself under two tapes of one number, and becomes 4 under one. -/
example : {t : List Nat | t.length = 0 + 1 + 0 ∧ (∀ r ∈ t, r < Ex.key.pub.n.val) ∧
      ∃ x ir, blind Spec.numberTape 1 t Ex.key.pub (wrap Ex.key.pub.n.nlimbs 2) Ex.key.pub.nParams = .ok ((x, ir), []) ∧
        x.val = 2}.ncard = 2 ∧
    {t : List Nat | t.length = 0 + 1 + 0 ∧ (∀ r ∈ t, r < Ex.key.pub.n.val) ∧
      ∃ x ir, blind Spec.numberTape 1 t Ex.key.pub (wrap Ex.key.pub.n.nlimbs 2) Ex.key.pub.nParams = .ok ((x, ir), []) ∧
        x.val = 4}.ncard = 1 := by
  have h := fun v hv hvn => C88_blinding Ex.key_wf (wrap Ex.key.pub.n.nlimbs 2) rfl (by decide +kernel) (by decide +kernel)
    v hv hvn [] (by simp) 0 1 (by decide)
  have h2 := h 2 (by decide +kernel) (by decide +kernel)
  have h4 := h 4 (by decide +kernel) (by decide +kernel)
  have e2 : (wrap Ex.key.pub.n.nlimbs 2).val = 2 := by decide +kernel
  rw [e2] at h2 h4
  simp only [pow_zero, one_mul] at h2 h4
  exact ⟨h2, h4⟩

end RSA
