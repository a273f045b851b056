import Verif.Spec.Outcome
import Verif.Props.Hiding
import Verif.Props.KeyErrors
import Verif.Props.Wrappers

/-
C78, C79, C80, C81: the exact outcome of encryption, decryption, signing and verification on every input.
-/
namespace RSA
open BoxedUint

/-- A relation that has an outcome for every input and contains only the outcome of `x` is the graph of `x`. -/
theorem graph_iff {α : Type} {x : Res α} {P : Res α → Prop} (htot : ∃ r, P r) (hsound : ∀ r, P r → x = r) (r : Res α) :
    x = r ↔ P r := by
  obtain ⟨r', hr'⟩ := htot
  constructor
  · intro h; rw [← h, hsound r' hr']; exact hr'
  · exact hsound r

/-! ### Draws -/

/-- The outcome of draws that gave `o`. -/
def orRng {α : Type} : Option α → Res α
  | some x => .ok x
  | none => .err .rng

@[simp] theorem orRng_some {α : Type} (x : α) : orRng (some x) = .ok x := rfl
@[simp] theorem orRng_none {α : Type} : orRng (none : Option α) = .err .rng := rfl

theorem rerollByte_outcome {σ : Type} (R : RngImpl σ) {s : σ} {o : Option (UInt8 × σ)} {j : Nat}
    (h : Spec.NonzeroOctet R s o j) : ∀ fuel, j ≤ fuel →
      rerollByte R fuel s = orRng o := by
  induction h with
  | fail s h =>
    intro fuel hj
    obtain ⟨f, rfl⟩ : ∃ f, fuel = f + 1 := ⟨fuel - 1, by omega⟩
    rw [rerollByte]
    rcases hR : R.fill s 1 with ⟨o, s1⟩
    rw [hR] at h
    simp only at h
    subst h
    simp [RngImpl.tryFill, hR]
  | good s b h hb =>
    intro fuel hj
    obtain ⟨f, rfl⟩ : ∃ f, fuel = f + 1 := ⟨fuel - 1, by omega⟩
    rw [rerollByte]
    rcases hR : R.fill s 1 with ⟨o, s1⟩
    rw [hR] at h
    simp only at h
    subst h
    simp [RngImpl.tryFill, hR, idx, hb]
  | again s o j h _ ih =>
    intro fuel hj
    obtain ⟨f, rfl⟩ : ∃ f, fuel = f + 1 := ⟨fuel - 1, by omega⟩
    have := ih f (by omega)
    rw [rerollByte]
    rcases hR : R.fill s 1 with ⟨o', s1⟩
    rw [hR] at h this
    simp only at h this
    subst h
    simpa [RngImpl.tryFill, hR, idx] using this

theorem rerollByte_settled {σ : Type} (R : RngImpl σ) : ∀ (fuel : Nat) (s : σ), rerollByte R fuel s ≠ .loop →
    ∃ o j, j ≤ fuel ∧ Spec.NonzeroOctet R s o j := by
  intro fuel
  induction fuel with
  | zero => intro s h; exact absurd rfl h
  | succ f ih =>
    intro s h
    rcases hR : R.fill s 1 with ⟨_ | b, s1⟩
    · exact ⟨none, 1, by omega, .fail s (by rw [hR])⟩
    · have hl := R.fill_len s 1 b (by rw [hR])
      obtain ⟨x, rfl⟩ := List.length_eq_one_iff.mp hl
      by_cases hx : x = 0
      · subst hx
        have h1 : rerollByte R f s1 ≠ .loop := by
          intro hl
          apply h
          rw [rerollByte]
          simpa [RngImpl.tryFill, hR, idx] using hl
        obtain ⟨o, j, hj, ho⟩ := ih s1 h1
        refine ⟨o, j + 1, by omega, .again s o j (by rw [hR]) ?_⟩
        rw [hR]; exact ho
      · exact ⟨_, 1, by omega, .good s x (by rw [hR]) hx⟩

theorem fixZeros_outcome {σ : Type} (R : RngImpl σ) (fuel : Nat) {raw : Bytes} {s : σ} {o : Option (Bytes × σ)}
    (h : Spec.ZerosReplaced R fuel raw s o) :
    fixZeros R fuel raw s = orRng o := by
  induction h with
  | nil s => rfl
  | keep b raw s o hb _ ih =>
    rw [fixZeros]
    simp only [hb, if_false]
    rw [Res.ok_bind]
    simp only [ih]
    cases o <;> rfl
  | drawn raw s b s' j o hj h _ ih =>
    rw [fixZeros]
    simp only [if_true]
    rw [rerollByte_outcome R h fuel hj, orRng_some, Res.ok_bind]
    simp only [ih]
    cases o <;> rfl
  | fail raw s j hj h =>
    rw [fixZeros]
    simp only [if_true]
    rw [rerollByte_outcome R h fuel hj]; rfl

theorem fixZeros_settled {σ : Type} (R : RngImpl σ) (fuel : Nat) : ∀ (raw : Bytes) (s : σ),
    fixZeros R fuel raw s ≠ .loop → ∃ o, Spec.ZerosReplaced R fuel raw s o := by
  intro raw
  induction raw with
  | nil => intro s _; exact ⟨_, .nil s⟩
  | cons b raw ih =>
    intro s h
    rw [fixZeros] at h
    by_cases hb : b = 0
    · subst hb
      simp only [if_true] at h
      obtain ⟨o, j, hj, ho⟩ := rerollByte_settled R fuel s (fun hl => h (by rw [hl]; rfl))
      cases o with
      | none => exact ⟨none, .fail raw s j hj ho⟩
      | some x =>
        obtain ⟨y, s1⟩ := x
        rw [rerollByte_outcome R ho fuel hj, orRng_some, Res.ok_bind] at h
        obtain ⟨o, ho'⟩ := ih s1 (fun hl => h (by simp only [hl]; rfl))
        exact ⟨_, .drawn raw s y s1 j o hj ho ho'⟩
    · simp only [hb, if_false] at h
      rw [Res.ok_bind] at h
      obtain ⟨o, ho⟩ := ih s (fun hl => h (by simp only [hl]; rfl))
      exact ⟨_, .keep b raw s o hb ho⟩

theorem fixZeros_drawing {σ : Type} (R : RngImpl σ) (fuel : Nat) (raw : Bytes) (s : σ)
    (h : ∀ o, ¬ Spec.ZerosReplaced R fuel raw s o) : fixZeros R fuel raw s = .loop := by
  by_contra hne
  obtain ⟨o, ho⟩ := fixZeros_settled R fuel raw s hne
  exact h o ho

theorem blindLoop_settled {σ : Type} (R : RngImpl σ) (n : BoxedUint) (hn : 0 < n.val) : ∀ (fuel : Nat) (s : σ),
    blindLoop R n fuel s ≠ .loop → ∃ o j, Spec.Draws R n.val s o j ∧ j ≤ fuel := by
  intro fuel
  induction fuel with
  | zero => intro s h; exact absurd rfl h
  | succ f ih =>
    intro s h
    rcases hR : R.randMod s n.val with ⟨_ | r, s1⟩
    · exact ⟨none, 1, .fail s (by rw [hR]), by omega⟩
    · by_cases hr : r = 0 ∨ Nat.Coprime r n.val
      · exact ⟨_, 1, .good s r (by rw [hR]) hr, by omega⟩
      · push Not at hr
        have hlt := R.randMod_lt s n.val r (by rw [hR]) hn
        have hval := wrap_ite_val n hlt
        have hnone : invMod (if (wrap n.nlimbs r).isZero = true then oneWithPrecision n.prec else wrap n.nlimbs r) n
            = none := by
          unfold invMod
          rw [hval, if_neg hr.1, (natInvMod_none hn).mpr hr.2]; rfl
        have h1 : blindLoop R n f s1 ≠ .loop := by
          intro hl
          apply h
          simp only [blindLoop, hR]
          rw [hnone]
          exact hl
        obtain ⟨o, j, ho, hj⟩ := ih s1 h1
        refine ⟨o, j + 1, .again s r o j (by rw [hR]) hr.1 hr.2 ?_, by omega⟩
        rw [hR]; exact ho

/-- The checked private operation of a well-formed key followed by anything: exactly as the draws say. -/
theorem rsaDecryptAndCheck_privately {σ α : Type} (R : RngImpl σ) (fuel : Nat) (rng : Option σ) {k : PrivateKey}
    (hk : Spec.WellFormed k) (c : BoxedUint) (hw : c.nlimbs = k.pub.n.nlimbs) (hc : c.val < k.pub.n.val)
    (f : BoxedUint → Res α) :
    (∃ r, Spec.Privately R k.pub.n.val fuel rng (f (wrap k.pub.n.nlimbs (c.val ^ k.d.val % k.pub.n.val))) r) ∧
    ∀ r, Spec.Privately R k.pub.n.val fuel rng (f (wrap k.pub.n.nlimbs (c.val ^ k.d.val % k.pub.n.val))) r →
      (rsaDecryptAndCheck R fuel k rng c >>= fun x => f x.1) = r := by
  have hco : k.pub.Coherent := hk.coherent
  have hn := coherent_pos hco
  constructor
  · by_cases hs : Spec.Settles R k.pub.n.val fuel rng
    · cases rng with
      | none => exact ⟨_, .done trivial⟩
      | some s =>
        obtain ⟨o, j, hd, hj⟩ := hs
        cases o with
        | none => exact ⟨_, .fail s j rfl hd hj⟩
        | some s' => exact ⟨_, .done ⟨s', j, hd, hj⟩⟩
    · exact ⟨_, .drawing hs⟩
  · intro r hr
    cases hr with
    | done h =>
      obtain ⟨r', hr'⟩ := rsaDecryptAndCheck_ok R fuel rng hk c hw hc h
      rw [hr']; rfl
    | fail s j hs hd hj =>
      subst hs
      have := (blindLoop_draws R k.pub.n hn hd fuel hj).2 rfl
      unfold rsaDecryptAndCheck
      rw [rsaDecrypt_some R fuel s hk c hw hc, this]; rfl
    | drawing h =>
      cases rng with
      | none => exact absurd trivial h
      | some s =>
        have hl : blindLoop R k.pub.n fuel s = .loop := by
          by_contra hne
          obtain ⟨o, j, hd, hj⟩ := blindLoop_settled R k.pub.n hn fuel s hne
          exact h ⟨o, j, hd, hj⟩
        unfold rsaDecryptAndCheck
        rw [rsaDecrypt_some R fuel s hk c hw hc, hl]; rfl

theorem public_total (k : PublicKey) : Spec.PublicOk k.n.prec k.n.val k.e.val ∨
    ∃ er, Spec.PublicError k.n.prec k.n.val k.e.val er := by
  rcases checkPublic_cases k with h | ⟨er, h⟩
  · exact Or.inl ((checkPublic_ok k).mp h)
  · exact Or.inr ⟨er, (checkPublicWithMaxSize_err _ _ er).mp h⟩

theorem checkPublic_err {k : PublicKey} {er : Error} (h : Spec.PublicError k.n.prec k.n.val k.e.val er) :
    checkPublic k = .err er := (checkPublicWithMaxSize_err _ _ er).mpr h

theorem tryFill_none {σ : Type} {R : RngImpl σ} {s : σ} {n : Nat} (h : (R.fill s n).1 = none) :
    R.tryFill s n = .err .rng := by
  unfold RngImpl.tryFill
  rcases hf : R.fill s n with ⟨o, s1⟩
  rw [hf] at h
  simp only at h
  subst h; rfl

theorem tryFill_some {σ : Type} {R : RngImpl σ} {s : σ} {n : Nat} {b : Bytes} (h : (R.fill s n).1 = some b) :
    R.tryFill s n = .ok (b, (R.fill s n).2) := by
  unfold RngImpl.tryFill
  rcases hf : R.fill s n with ⟨o, s1⟩
  rw [hf] at h
  simp only at h
  subst h; rfl

/-! ### C78 -/

/-- C78, PKCS#1 v1.5: encryption gives exactly the outcome described by `Spec.EncryptsPkcs1v15`, for every key object,
message, generator and state: which error in which order, and otherwise the ciphertext of the padding made from the
generator's draws together with the generator's state after exactly those draws. -/
theorem C78_pkcs1v15 {σ : Type} (R : RngImpl σ) (fuel : Nat) (s : σ) (k : PublicKey) (hk : k.Coherent) (msg : Bytes)
    (r : Res (Bytes × σ)) :
    pkcs1v15.encrypt R fuel s k msg = r ↔
      Spec.EncryptsPkcs1v15 R fuel s k.n.prec k.n.val k.e.val msg r := by
  have hn := coherent_pos hk
  have henc := pkcs1v15.encrypt_eq R fuel s k hk
  rw [size_eq_octetLen] at henc
  have hi : ∀ v, Spec.i2osp (v % k.n.val) (Spec.octetLen k.n.val) =
      some (beBytes (Spec.octetLen k.n.val) (v % k.n.val)) := by
    intro v
    have := mod_lt_pow_size k hn v
    rw [size_eq_octetLen] at this
    exact i2osp_eq _ _ this
  refine graph_iff ?_ ?_ r
  · rcases public_total k with hok | ⟨er, he⟩
    · by_cases hl : msg.length + 11 ≤ Spec.octetLen k.n.val
      · rcases hf : (R.fill s (Spec.octetLen k.n.val - msg.length - 3)).1 with _ | raw
        · exact ⟨_, .noPadding hok hl hf⟩
        · by_cases hz : ∃ o, Spec.ZerosReplaced R fuel raw (R.fill s (Spec.octetLen k.n.val - msg.length - 3)).2 o
          · obtain ⟨_ | ⟨ps, s'⟩, ho⟩ := hz
            · exact ⟨_, .noRedraw hok hl raw hf ho⟩
            · exact ⟨_, .done hok hl raw ps _ s' hf ho (hi _)⟩
          · push Not at hz
            exact ⟨_, .drawing hok hl raw hf hz⟩
      · exact ⟨_, .tooLong hok (by omega)⟩
    · exact ⟨_, .badKey er he⟩
  · intro r h
    cases h with
    | badKey er h =>
      unfold pkcs1v15.encrypt
      rw [checkPublic_err h]; rfl
    | tooLong hok h => rw [henc ((checkPublic_ok k).mpr hok), if_pos (by omega)]
    | noPadding hok hl h =>
      rw [henc ((checkPublic_ok k).mpr hok), if_neg (by omega)]
      unfold nonZeroRandomBytes
      rw [tryFill_none h]; rfl
    | noRedraw hok hl raw hr h =>
      rw [henc ((checkPublic_ok k).mpr hok), if_neg (by omega)]
      unfold nonZeroRandomBytes
      rw [tryFill_some hr]
      simp only [Res.ok_bind, fixZeros_outcome R fuel h]
      rfl
    | drawing hok hl raw hr h =>
      rw [henc ((checkPublic_ok k).mpr hok), if_neg (by omega)]
      unfold nonZeroRandomBytes
      rw [tryFill_some hr]
      simp only [Res.ok_bind, fixZeros_drawing R fuel _ _ h]
      rfl
    | done hok hl raw ps ct s' hr hp hc =>
      rw [henc ((checkPublic_ok k).mpr hok), if_neg (by omega)]
      unfold nonZeroRandomBytes
      rw [tryFill_some hr]
      simp only [Res.ok_bind, fixZeros_outcome R fuel hp]
      rw [hi, Option.some.injEq] at hc
      rw [← hc, ← beVal_eq_os2ip]
      rfl

/-- C78, OAEP: as for PKCS#1 v1.5; the generator is asked for the seed, once, and for nothing else. -/
theorem C78_oaep {σ : Type} (R : RngImpl σ) (s : σ) (k : PublicKey) (hk : k.Coherent) (D MGD : HashFn)
    (hpos : 0 < MGD.outLen) (label : Option Bytes) (msg : Bytes) (r : Res (Bytes × σ)) :
    (oaep.encrypt R s k msg (DigestState.new D) (DigestState.new MGD) label = r ↔
      Spec.EncryptsOaep R s k.n.prec k.n.val k.e.val D MGD (label.getD []) msg r) ∧
    (oaep.encryptDigest R D MGD s k msg label = r ↔
      Spec.EncryptsOaep R s k.n.prec k.n.val k.e.val D MGD (label.getD []) msg r) := by
  rw [oaep.encryptDigest_agree, and_self]
  have hn := coherent_pos hk
  have henc := fun hc hl => oaep.encrypt_eq R s k hk hc msg D MGD hpos label hl
  rw [size_eq_octetLen] at henc
  have hi : ∀ v, Spec.i2osp (v % k.n.val) (Spec.octetLen k.n.val) =
      some (beBytes (Spec.octetLen k.n.val) (v % k.n.val)) := by
    intro v
    have := mod_lt_pow_size k hn v
    rw [size_eq_octetLen] at this
    exact i2osp_eq _ _ this
  refine graph_iff ?_ ?_ r
  · rcases public_total k with hok | ⟨er, he⟩
    · by_cases hlab : (label.getD []).length < 2 ^ 61
      · by_cases hl : msg.length + 2 * D.outLen + 2 ≤ Spec.octetLen k.n.val
        · rcases hf : (R.fill s D.outLen).1 with _ | seed
          · exact ⟨_, .noSeed hok hlab hl hf⟩
          · exact ⟨_, .done hok hlab hl seed _ hf (hi _)⟩
        · exact ⟨_, .tooLong hok hlab (by omega)⟩
      · exact ⟨_, .badLabel hok (by omega)⟩
    · exact ⟨_, .badKey er he⟩
  · intro r h
    cases h with
    | badKey er h =>
      unfold oaep.encrypt
      rw [checkPublic_err h]; rfl
    | badLabel hok h => exact C17_oaep_label_limit R s k ((checkPublic_ok k).mpr hok) D MGD label h msg
    | tooLong hok hlab h => rw [henc ((checkPublic_ok k).mpr hok) hlab, if_pos (by omega)]
    | noSeed hok hlab hm h =>
      rw [henc ((checkPublic_ok k).mpr hok) hlab, if_neg (by omega), tryFill_none h]; rfl
    | done hok hlab hm seed ct hs hc =>
      rw [henc ((checkPublic_ok k).mpr hok) hlab, if_neg (by omega), tryFill_some hs]
      rw [hi, Option.some.injEq] at hc
      rw [← hc, ← beVal_eq_os2ip]
      rfl

/-- A generator that gives zeros and ones in turn: every octet of the first draw is replaced, within two draws each; the
encryption and the state it leaves. With a bound of no draws it would still be drawing. -/
example : Ex.pub.Coherent ∧
    Spec.EncryptsPkcs1v15 Ex.alternatingRng 2 false 256 Ex.pub.n.val 65537 [1, 2, 3] (.ok ([51, 65, 167, 138, 105, 139, 61, 234, 216, 6, 121, 142, 189, 152, 230, 163, 150, 152, 159, 179, 84,
      188, 207, 32, 211, 67, 152], false)) ∧
    Spec.EncryptsPkcs1v15 Ex.alternatingRng 0 false 256 Ex.pub.n.val 65537 [1, 2, 3] .loop ∧
    Spec.EncryptsPkcs1v15 Ex.failingRng 2 () 256 Ex.pub.n.val 65537 [1, 2, 3] (.err .rng) :=
  ⟨rfl, (C78_pkcs1v15 _ _ _ Ex.pub rfl _ _).mp (by decide +kernel),
    (C78_pkcs1v15 _ _ _ Ex.pub rfl _ _).mp (by decide +kernel),
    (C78_pkcs1v15 _ _ _ Ex.pub rfl _ _).mp (by decide +kernel)⟩

example : 0 < Ex.hash4.outLen ∧
    Spec.EncryptsOaep Ex.countingRng 7 256 Ex.pub.n.val 65537 Ex.hash4 Ex.hash4 [9] [1, 2, 3] (.ok ([52, 110, 107, 171, 30, 253, 94, 90, 13, 157, 165, 238, 116, 149, 156, 51, 207, 110, 26, 14, 106,
      235, 19, 10, 69, 18, 238], 8)) :=
  ⟨by decide, (C78_oaep Ex.countingRng 7 Ex.pub rfl Ex.hash4 Ex.hash4 (by decide) (some [9]) _ _).1.mp
    (by decide +kernel)⟩

/-! ### C79 -/

/-- C79, PKCS#1 v1.5: decryption by a well-formed key gives exactly the outcome described by `Spec.DecryptsPkcs1v15`. -/
theorem C79_pkcs1v15 {σ : Type} (R : RngImpl σ) (fuel : Nat) (rng : Option σ) {k : PrivateKey} (hk : Spec.WellFormed k)
    (ct : Bytes) (r : Res Bytes) :
    pkcs1v15.decrypt R fuel rng k ct = r ↔
      Spec.DecryptsPkcs1v15 R fuel rng k.pub.n.prec k.pub.n.val k.pub.e.val k.d.val ct r := by
  have hco : k.pub.Coherent := hk.coherent
  have hn := coherent_pos hco
  have hem : Spec.i2osp (beVal ct ^ k.d.val % k.pub.n.val) (Spec.octetLen k.pub.n.val) =
      some (beBytes k.pub.size (beVal ct ^ k.d.val % k.pub.n.val)) := by
    rw [← size_eq_octetLen]; exact i2osp_eq _ _ (mod_lt_pow_size _ hn _)
  have hstep : ∀ hok : Spec.PublicOk k.pub.n.prec k.pub.n.val k.pub.e.val, 8 * ct.length ≤ k.pub.n.prec →
      beVal ct < k.pub.n.val →
      (∃ r, Spec.Privately R k.pub.n.val fuel rng (pkcs1v15EncryptUnpad
        (beBytes k.pub.size (beVal ct ^ k.d.val % k.pub.n.val)) k.pub.size) r) ∧
      ∀ r, Spec.Privately R k.pub.n.val fuel rng (pkcs1v15EncryptUnpad
        (beBytes k.pub.size (beVal ct ^ k.d.val % k.pub.n.val)) k.pub.size) r → pkcs1v15.decrypt R fuel rng k ct = r := by
    intro hok hl hv
    have hwv : (wrap k.pub.n.nlimbs (beVal ct)).val = beVal ct := wrap_lt_val hv
    have := rsaDecryptAndCheck_privately R fuel rng hk (wrap k.pub.n.nlimbs (beVal ct)) rfl (by rw [hwv]; exact hv)
      (fun x => uintToZeroizingBePad x k.pub.size >>= fun em => pkcs1v15EncryptUnpad em k.pub.size)
    rw [hwv, uintToZeroizingBePad_eq, wrap_mod_val _ hn, if_pos (mod_lt_pow_size _ hn _), Res.ok_bind] at this
    refine ⟨this.1, fun r hr => ?_⟩
    rw [← this.2 r hr]
    unfold pkcs1v15.decrypt
    rw [(checkPublic_ok k.pub).mpr hok, Res.ok_bind, fromBeSlice_nprec _ hco,
      if_pos (by unfold prec at hl; omega), Res.ok_bind]
  have hsize : Spec.PublicOk k.pub.n.prec k.pub.n.val k.pub.e.val → k.pub.size < 2 ^ 31 := by
    intro h
    have h1 := h.1
    have h2 := size_le_bytes k.pub
    unfold prec at h1
    omega
  have hunpad := fun hok => pkcs1v15EncryptUnpad_spec (beBytes k.pub.size (beVal ct ^ k.d.val % k.pub.n.val)) k.pub.size
    (beBytes_length _ _) (hsize hok)
  refine graph_iff ?_ ?_ r
  · rcases public_total k.pub with hok | ⟨er, he⟩
    · by_cases hl : 8 * ct.length ≤ k.pub.n.prec
      · by_cases hv : beVal ct < k.pub.n.val
        · obtain ⟨⟨r, hr⟩, -⟩ := hstep hok hl hv
          by_cases hm : ∃ m, Spec.IsEmePkcs1v15 k.pub.size m (beBytes k.pub.size (beVal ct ^ k.d.val % k.pub.n.val))
          · obtain ⟨m, hm⟩ := hm
            rw [(hunpad hok).1 m hm] at hr
            exact ⟨r, .message hok hl (by rw [← beVal_eq_os2ip]; exact hv) _ m (by rw [← beVal_eq_os2ip]; exact hem)
              (by rw [← size_eq_octetLen]; exact hm) r hr⟩
          · rw [(hunpad hok).2 hm] at hr
            push Not at hm
            exact ⟨r, .invalid hok hl (by rw [← beVal_eq_os2ip]; exact hv) _ (by rw [← beVal_eq_os2ip]; exact hem)
              (by rw [← size_eq_octetLen]; exact hm) r hr⟩
        · exact ⟨_, .tooLarge hok hl (by rw [← beVal_eq_os2ip]; omega)⟩
      · exact ⟨_, .tooLong hok (by omega)⟩
    · exact ⟨_, .badKey er he⟩
  · intro r h
    cases h with
    | badKey er h =>
      unfold pkcs1v15.decrypt
      rw [checkPublic_err h]; rfl
    | tooLong hok h =>
      unfold pkcs1v15.decrypt
      rw [(checkPublic_ok k.pub).mpr hok, Res.ok_bind, fromBeSlice_nprec _ hco,
        if_neg (by unfold prec at h; omega)]
      rfl
    | tooLarge hok hl h =>
      rw [← beVal_eq_os2ip] at h
      have hl' : ct.length ≤ 8 * k.pub.n.nlimbs := by unfold prec at hl; omega
      unfold pkcs1v15.decrypt
      rw [(checkPublic_ok k.pub).mpr hok, Res.ok_bind, fromBeSlice_nprec _ hco, if_pos hl', Res.ok_bind,
        rsaDecryptAndCheck_ge R fuel rng k _ (by rw [wrap_val_of_lt (beVal_lt_limbs hl')]; exact h)]
      rfl
    | invalid hok hl hv em he h r hr =>
      rw [← beVal_eq_os2ip] at hv he
      rw [hem, Option.some.injEq] at he
      rw [← size_eq_octetLen, ← he] at h
      apply (hstep hok hl hv).2
      rw [(hunpad hok).2 (by rintro ⟨m, hm⟩; exact h m hm)]
      exact hr
    | message hok hl hv em m he h r hr =>
      rw [← beVal_eq_os2ip] at hv he
      rw [hem, Option.some.injEq] at he
      rw [← size_eq_octetLen, ← he] at h
      apply (hstep hok hl hv).2
      rw [(hunpad hok).1 m h]
      exact hr

/-- Blinded decryption of the ciphertext above; a generator that fails; a string that is no ciphertext. -/
example : Spec.DecryptsPkcs1v15 Ex.countingRng 1 (some 5) 256 Ex.pub.n.val 65537 Ex.dVal [51, 65, 167, 138, 105, 139, 61, 234, 216, 6, 121, 142, 189, 152, 230, 163, 150, 152, 159, 179, 84,
      188, 207, 32, 211, 67, 152]
      (.ok [1, 2, 3]) ∧
    Spec.DecryptsPkcs1v15 Ex.failingRng 1 (some ()) 256 Ex.pub.n.val 65537 Ex.dVal [51, 65, 167, 138, 105, 139, 61, 234, 216, 6, 121, 142, 189, 152, 230, 163, 150, 152, 159, 179, 84,
      188, 207, 32, 211, 67, 152]
      (.err .rng) ∧
    Spec.DecryptsPkcs1v15 Ex.countingRng 1 none 256 Ex.pub.n.val 65537 Ex.dVal [1, 2, 3] (.err .decryption) ∧
    Spec.DecryptsPkcs1v15 Ex.countingRng 1 none 256 Ex.pub.n.val 65537 Ex.dVal (List.replicate 33 0)
      (.err (.decode .inputSize)) :=
  ⟨(C79_pkcs1v15 _ _ _ Ex.key_wf _ _).mp (by decide +kernel), (C79_pkcs1v15 _ _ _ Ex.key_wf _ _).mp (by decide +kernel),
    (C79_pkcs1v15 _ _ _ Ex.key_wf _ _).mp (by decide +kernel), (C79_pkcs1v15 _ _ _ Ex.key_wf _ _).mp (by decide +kernel)⟩

/-- C79, OAEP: decryption by a well-formed key gives exactly the outcome described by `Spec.DecryptsOaep`. -/
theorem C79_oaep {σ : Type} (R : RngImpl σ) (fuel : Nat) (rng : Option σ) {k : PrivateKey} (hk : Spec.WellFormed k)
    (hp : k.pub.n.prec < 2 ^ 32) (D MGD : HashFn) (hpos : 0 < MGD.outLen) (label : Option Bytes) (ct : Bytes)
    (r : Res Bytes) :
    oaep.decrypt R fuel rng k ct (DigestState.new D) (DigestState.new MGD) label = r ↔
      Spec.DecryptsOaep R fuel rng k.pub.n.val k.d.val D MGD (label.getD []) ct r := by
  have hco : k.pub.Coherent := hk.coherent
  have hn := coherent_pos hco
  have hem : Spec.i2osp (beVal ct ^ k.d.val % k.pub.n.val) (Spec.octetLen k.pub.n.val) =
      some (beBytes k.pub.size (beVal ct ^ k.d.val % k.pub.n.val)) := by
    rw [← size_eq_octetLen]; exact i2osp_eq _ _ (mod_lt_pow_size _ hn _)
  set em := beBytes k.pub.size (beVal ct ^ k.d.val % k.pub.n.val) with hemd
  have hlen : em.length = k.pub.size := beBytes_length _ _
  have h32 : k.pub.size < 2 ^ 32 := by
    have hsz := size_le_bytes k.pub
    unfold prec at hp; omega
  have hstep : ct.length = k.pub.size → beVal ct < k.pub.n.val →
      (∃ r, Spec.Privately R k.pub.n.val fuel rng
        (oaepDecrypt em (DigestState.new D) (DigestState.new MGD) label k.pub.size) r) ∧
      ∀ r, Spec.Privately R k.pub.n.val fuel rng
        (oaepDecrypt em (DigestState.new D) (DigestState.new MGD) label k.pub.size) r →
        oaep.decrypt R fuel rng k ct (DigestState.new D) (DigestState.new MGD) label = r := by
    intro hl hv
    have hwv : (wrap k.pub.n.nlimbs (beVal ct)).val = beVal ct := wrap_lt_val hv
    have := rsaDecryptAndCheck_privately R fuel rng hk (wrap k.pub.n.nlimbs (beVal ct)) rfl (by rw [hwv]; exact hv)
      (fun x => uintToZeroizingBePad x k.pub.size >>= fun em =>
        oaepDecrypt em (DigestState.new D) (DigestState.new MGD) label k.pub.size)
    rw [hwv, uintToZeroizingBePad_eq, wrap_mod_val _ hn, if_pos (mod_lt_pow_size _ hn _), Res.ok_bind] at this
    refine ⟨this.1, fun r hr => ?_⟩
    rw [← this.2 r hr]
    unfold oaep.decrypt
    rw [if_neg (by simp [hl]), fromBeSlice_nprec _ hco, if_pos (by rw [hl]; exact size_le_bytes _), Res.ok_bind]
  have hspec := fun hlab => oaepDecrypt_spec em D MGD hpos label hlab (by rw [hlen]; exact h32)
  rw [hlen] at hspec
  have hbig : 2 ^ 61 ≤ (label.getD []).length →
      oaepDecrypt em (DigestState.new D) (DigestState.new MGD) label k.pub.size = .err .decryption := by
    intro h
    cases label with
    | none => simp at h
    | some l => exact (C24_oaep_label_error em D MGD l k.pub.size h).1
  refine graph_iff ?_ ?_ r
  · by_cases hl : ct.length = k.pub.size
    · by_cases hv : beVal ct < k.pub.n.val
      · obtain ⟨⟨r, hr⟩, -⟩ := hstep hl hv
        have hl' := hl
        rw [size_eq_octetLen] at hl'
        by_cases hlab : (label.getD []).length < 2 ^ 61
        · by_cases hm : ∃ m, Spec.IsEmeOaep D MGD (label.getD []) k.pub.size m em
          · obtain ⟨m, hm⟩ := hm
            rw [((hspec hlab).1 m).mpr hm] at hr
            exact ⟨r, .message hl' (by rw [← beVal_eq_os2ip]; exact hv) hlab em m
              (by rw [← beVal_eq_os2ip]; exact hem) (by rw [← size_eq_octetLen]; exact hm) r hr⟩
          · rw [(hspec hlab).2 (by rintro ⟨h11, seed, m, h⟩; exact hm ⟨m, h11, seed, h⟩)] at hr
            push Not at hm
            exact ⟨r, .invalid hl' (by rw [← beVal_eq_os2ip]; exact hv) em (by rw [← beVal_eq_os2ip]; exact hem)
              (Or.inr (by rw [← size_eq_octetLen]; exact hm)) r hr⟩
        · rw [hbig (by omega)] at hr
          exact ⟨r, .invalid hl' (by rw [← beVal_eq_os2ip]; exact hv) em (by rw [← beVal_eq_os2ip]; exact hem)
            (Or.inl (by omega)) r hr⟩
      · exact ⟨_, .tooLarge (by rw [← size_eq_octetLen]; exact hl) (by rw [← beVal_eq_os2ip]; omega)⟩
    · exact ⟨_, .length (by rw [← size_eq_octetLen]; exact hl)⟩
  · intro r h
    cases h with
    | length h =>
      rw [← size_eq_octetLen] at h
      unfold oaep.decrypt
      rw [if_pos h]
    | tooLarge hl h =>
      rw [← size_eq_octetLen] at hl
      rw [← beVal_eq_os2ip] at h
      exact oaep.decrypt_ge R fuel rng hco ct hl h _ _ _
    | invalid hl hv em' he h r hr =>
      rw [← beVal_eq_os2ip] at hv he
      rw [hem, Option.some.injEq] at he
      rw [← size_eq_octetLen] at hl h
      rw [← he] at h
      apply (hstep hl hv).2
      by_cases hlab : (label.getD []).length < 2 ^ 61
      · rw [(hspec hlab).2]
        · exact hr
        · rintro ⟨h11, seed, m, h'⟩
          rcases h with h | h
          · omega
          · exact h m ⟨h11, seed, h'⟩
      · rw [hbig (by omega)]; exact hr
    | message hl hv hlab em' m he h r hr =>
      rw [← beVal_eq_os2ip] at hv he
      rw [hem, Option.some.injEq] at he
      rw [← size_eq_octetLen] at hl h
      rw [← he] at h
      apply (hstep hl hv).2
      rw [((hspec hlab).1 m).mpr h]
      exact hr

/-- C79, OAEP with typed keys: exactly the outcome described by `Spec.DecryptsOaepTyped`. -/
theorem C79_oaep_typed {σ : Type} (R : RngImpl σ) (fuel : Nat) (rng : Option σ) {k : PrivateKey} (hk : Spec.WellFormed k)
    (D MGD : HashFn) (hpos : 0 < MGD.outLen) (label : Option Bytes) (ct : Bytes) (r : Res Bytes) :
    oaep.decryptDigest R fuel D MGD rng k ct label = r ↔
      Spec.DecryptsOaepTyped R fuel rng k.pub.n.prec k.pub.n.val k.pub.e.val k.d.val D MGD (label.getD []) ct r := by
  have hco : k.pub.Coherent := hk.coherent
  have hn := coherent_pos hco
  have hp : Spec.PublicOk k.pub.n.prec k.pub.n.val k.pub.e.val → k.pub.n.prec < 2 ^ 32 := by
    intro h
    have h1 := h.1
    unfold prec at h1 ⊢
    omega
  have hshort := fun hok hlab => oaep.decryptDigest_agree R fuel D MGD rng k ((checkPublic_ok k.pub).mpr hok) ct label hlab
  have hstep : ∀ hok : Spec.PublicOk k.pub.n.prec k.pub.n.val k.pub.e.val, 2 ^ 61 ≤ (label.getD []).length →
      ct.length = k.pub.size → beVal ct < k.pub.n.val →
      (∃ r : Res Bytes, Spec.Privately R k.pub.n.val fuel rng (.err .labelTooLong) r) ∧
      ∀ r, Spec.Privately R k.pub.n.val fuel rng (.err .labelTooLong) r →
        oaep.decryptDigest R fuel D MGD rng k ct label = r := by
    intro hok hlab hl hv
    have hwv : (wrap k.pub.n.nlimbs (beVal ct)).val = beVal ct := wrap_lt_val hv
    have := rsaDecryptAndCheck_privately R fuel rng hk (wrap k.pub.n.nlimbs (beVal ct)) rfl (by rw [hwv]; exact hv)
      (fun x => uintToZeroizingBePad x k.pub.size >>= fun em => oaepDecryptDigest em D MGD label k.pub.size)
    rw [hwv, uintToZeroizingBePad_eq, wrap_mod_val _ hn, if_pos (mod_lt_pow_size _ hn _), Res.ok_bind] at this
    have hbad : ∀ em, oaepDecryptDigest em D MGD label k.pub.size = .err .labelTooLong := by
      intro em
      cases label with
      | none => simp at hlab
      | some l => exact (C24_oaep_label_error em D MGD l k.pub.size hlab).2
    rw [hbad] at this
    refine ⟨this.1, fun r hr => ?_⟩
    rw [← this.2 r hr]
    unfold oaep.decryptDigest
    rw [(checkPublic_ok k.pub).mpr hok, Res.ok_bind, if_neg (by simp [hl]), fromBeSlice_nprec _ hco,
      if_pos (by rw [hl]; exact size_le_bytes _), Res.ok_bind]
  refine graph_iff ?_ ?_ r
  · rcases public_total k.pub with hok | ⟨er, he⟩
    · by_cases hlab : (label.getD []).length < 2 ^ 61
      · exact ⟨_, .short hok hlab _ ((C79_oaep R fuel rng hk (hp hok) D MGD hpos label ct _).mp rfl)⟩
      · by_cases hl : ct.length = k.pub.size ∧ beVal ct < k.pub.n.val
        · obtain ⟨⟨r, hr⟩, -⟩ := hstep hok (by omega) hl.1 hl.2
          exact ⟨r, .badLabel hok (by omega) (by rw [← size_eq_octetLen]; exact hl.1)
            (by rw [← beVal_eq_os2ip]; exact hl.2) r hr⟩
        · refine ⟨_, .badInput hok (by omega) ?_⟩
          rw [← size_eq_octetLen, ← beVal_eq_os2ip]
          by_contra hno
          push Not at hno
          exact hl hno
    · exact ⟨_, .badKey er he⟩
  · intro r h
    cases h with
    | badKey er h =>
      unfold oaep.decryptDigest
      rw [checkPublic_err h]; rfl
    | short hok hlab r h =>
      rw [hshort hok hlab]
      exact (C79_oaep R fuel rng hk (hp hok) D MGD hpos label ct r).mpr h
    | badInput hok hlab h =>
      rw [← size_eq_octetLen, ← beVal_eq_os2ip] at h
      unfold oaep.decryptDigest
      rw [(checkPublic_ok k.pub).mpr hok, Res.ok_bind]
      by_cases hl : ct.length = k.pub.size
      · have hge : k.pub.n.val ≤ beVal ct := h.resolve_left (fun hne => hne hl)
        have hle : ct.length ≤ 8 * k.pub.n.nlimbs := by rw [hl]; exact size_le_bytes _
        rw [if_neg (by simp [hl]), fromBeSlice_nprec _ hco, if_pos hle, Res.ok_bind,
          rsaDecryptAndCheck_ge R fuel rng k _ (by rw [wrap_val_of_lt (beVal_lt_limbs hle)]; exact hge)]
        rfl
      · rw [if_pos hl]
    | badLabel hok hlab hl hv r hr =>
      rw [← size_eq_octetLen] at hl
      rw [← beVal_eq_os2ip] at hv
      exact (hstep hok hlab hl hv).2 r hr

/-- Decryption of the OAEP ciphertext above, blinded, with the right label and with another. -/
example : Spec.DecryptsOaep Ex.countingRng 1 (some 5) Ex.pub.n.val Ex.dVal Ex.hash4 Ex.hash4 [9] [52, 110, 107, 171, 30, 253, 94, 90, 13, 157, 165, 238, 116, 149, 156, 51, 207, 110, 26, 14, 106,
      235, 19, 10, 69, 18, 238]
      (.ok [1, 2, 3]) ∧
    Spec.DecryptsOaep Ex.countingRng 1 (some 5) Ex.pub.n.val Ex.dVal Ex.hash4 Ex.hash4 [8] [52, 110, 107, 171, 30, 253, 94, 90, 13, 157, 165, 238, 116, 149, 156, 51, 207, 110, 26, 14, 106,
      235, 19, 10, 69, 18, 238]
      (.err .decryption) ∧
    Spec.DecryptsOaepTyped Ex.countingRng 1 (some 5) 256 Ex.pub.n.val 65537 Ex.dVal Ex.hash4 Ex.hash4 [9] [52, 110, 107, 171, 30, 253, 94, 90, 13, 157, 165, 238, 116, 149, 156, 51, 207, 110, 26, 14, 106,
      235, 19, 10, 69, 18, 238]
      (.ok [1, 2, 3]) :=
  ⟨(C79_oaep _ _ _ Ex.key_wf (by decide) _ _ (by decide) (some [9]) _ _).mp (by decide +kernel),
    (C79_oaep _ _ _ Ex.key_wf (by decide) _ _ (by decide) (some [8]) _ _).mp (by decide +kernel),
    (C79_oaep_typed _ _ _ Ex.key_wf _ _ (by decide) (some [9]) _ _).mp (by decide +kernel)⟩

/-! ### C80 -/

theorem checkHashLen_ok {S : pkcs1v15.Pkcs1v15Sign} {hashed : Bytes}
    (h : ∀ l, S.hashLen = some l → hashed.length = l) : S.checkHashLen hashed = .ok () := by
  unfold pkcs1v15.Pkcs1v15Sign.checkHashLen
  cases hl : S.hashLen with
  | none => rfl
  | some l => simp [h l hl]

theorem checkHashLen_err {S : pkcs1v15.Pkcs1v15Sign} {hashed : Bytes} {l : Nat} (hl : S.hashLen = some l)
    (h : hashed.length ≠ l) : S.checkHashLen hashed = .err .inputNotHashed := by
  unfold pkcs1v15.Pkcs1v15Sign.checkHashLen
  rw [hl]
  simp [h]

/-- C80, PKCS#1 v1.5: signing by a well-formed key gives exactly the outcome described by `Spec.SignsPkcs1v15`. -/
theorem C80_pkcs1v15 {σ : Type} (R : RngImpl σ) (fuel : Nat) (rng : Option σ) {k : PrivateKey} (hk : Spec.WellFormed k)
    (S : pkcs1v15.Pkcs1v15Sign) (hashed : Bytes) (r : Res Bytes) :
    S.sign R fuel rng k hashed = r ↔
      Spec.SignsPkcs1v15 R fuel rng k.pub.n.val k.d.val S.hashLen S.pfx hashed r := by
  have hco : k.pub.Coherent := hk.coherent
  have hn := coherent_pos hco
  have hi : ∀ v, Spec.i2osp (v % k.pub.n.val) (Spec.octetLen k.pub.n.val) =
      some (beBytes k.pub.size (v % k.pub.n.val)) := by
    intro v
    rw [← size_eq_octetLen]; exact i2osp_eq _ _ (mod_lt_pow_size _ hn _)
  have hstep : ∀ em, Spec.emsaPkcs1v15 (S.pfx ++ hashed) k.pub.size = some em →
      (∃ r, Spec.Privately R k.pub.n.val fuel rng (.ok (beBytes k.pub.size (beVal em ^ k.d.val % k.pub.n.val))) r) ∧
      ∀ r, Spec.Privately R k.pub.n.val fuel rng (.ok (beBytes k.pub.size (beVal em ^ k.d.val % k.pub.n.val))) r →
        pkcs1v15.sign R fuel rng k S.pfx hashed = r := by
    intro em hem
    have hshape : em.length = k.pub.size ∧ em.head? = some 0 := by
      unfold Spec.emsaPkcs1v15 at hem
      split at hem
      · obtain rfl := Option.some.inj hem
        refine ⟨?_, rfl⟩
        simp at *; omega
      · cases hem
    have hlt := block_lt k.pub hn hshape.1 hshape.2
    have hle : em.length ≤ 8 * k.pub.n.nlimbs := by rw [hshape.1]; exact size_le_bytes _
    have hwv : (wrap k.pub.n.nlimbs (beVal em)).val = beVal em := wrap_lt_val hlt
    have := rsaDecryptAndCheck_privately R fuel rng hk (wrap k.pub.n.nlimbs (beVal em)) rfl (by rw [hwv]; exact hlt)
      (fun x => uintToZeroizingBePad x k.pub.size)
    rw [hwv, uintToZeroizingBePad_eq, wrap_mod_val _ hn, if_pos (mod_lt_pow_size _ hn _)] at this
    refine ⟨this.1, fun r hr => ?_⟩
    rw [← this.2 r hr]
    unfold pkcs1v15.sign
    rw [pkcs1v15SignPad_eq, hem]
    simp only [Res.ok_bind]
    rw [fromBeSlice_nprec _ hco, if_pos hle, Res.ok_bind]
  refine graph_iff ?_ ?_ r
  · by_cases hh : ∀ l, S.hashLen = some l → hashed.length = l
    · rcases hem : Spec.emsaPkcs1v15 (S.pfx ++ hashed) (Spec.octetLen k.pub.n.val) with _ | em
      · exact ⟨_, .tooLong hh hem⟩
      · obtain ⟨⟨r, hr⟩, -⟩ := hstep em (by rw [size_eq_octetLen]; exact hem)
        exact ⟨r, .done hh em _ hem (by rw [← beVal_eq_os2ip]; exact hi _) r hr⟩
    · push Not at hh
      obtain ⟨l, hl, hne⟩ := hh
      exact ⟨_, .notHashed l hl hne⟩
  · intro r h
    unfold pkcs1v15.Pkcs1v15Sign.sign
    cases h with
    | notHashed l hl h => rw [checkHashLen_err hl h]; rfl
    | tooLong hh h =>
      rw [checkHashLen_ok hh, Res.ok_bind]
      unfold pkcs1v15.sign
      rw [pkcs1v15SignPad_eq, size_eq_octetLen, h]; rfl
    | done hh em sig hem hs r hr =>
      rw [checkHashLen_ok hh, Res.ok_bind]
      rw [← size_eq_octetLen] at hem
      rw [← beVal_eq_os2ip, hi, Option.some.injEq] at hs
      subst hs
      exact (hstep em hem).2 r hr

example : Spec.SignsPkcs1v15 Ex.countingRng 1 (some 5) Ex.pub.n.val Ex.dVal none [] [1, 2, 3] (.ok [209, 168, 54, 190, 224, 67, 39, 138, 167, 205, 225, 75, 195, 246, 62, 183, 107, 240, 150, 31, 31,
      92, 73, 125, 246, 61, 244]) ∧
    Spec.SignsPkcs1v15 Ex.countingRng 1 (some 5) Ex.pub.n.val Ex.dVal (some 4) [] [1, 2, 3] (.err .inputNotHashed) ∧
    Spec.SignsPkcs1v15 Ex.failingRng 1 (some ()) Ex.pub.n.val Ex.dVal (some 3) [] [1, 2, 3] (.err .rng) :=
  ⟨(C80_pkcs1v15 _ _ _ Ex.key_wf ⟨none, []⟩ _ _).mp (by decide +kernel),
    (C80_pkcs1v15 _ _ _ Ex.key_wf ⟨some 4, []⟩ _ _).mp (by decide +kernel),
    (C80_pkcs1v15 _ _ _ Ex.key_wf ⟨some 3, []⟩ _ _).mp (by decide +kernel)⟩

/-- C80, PSS: signing by a well-formed key gives exactly the outcome described by `Spec.SignsPss`. -/
theorem C80_pss {σ : Type} (R : RngImpl σ) (fuel : Nat) (rng : Option σ) {k : PrivateKey} (hk : Spec.WellFormed k)
    (hp : k.pub.n.prec < 2 ^ 32) (blinded : Bool) (D : HashFn) (hpos : 0 < D.outLen) (saltLen : Nat)
    (hadd : D.outLen + saltLen + 2 < 2 ^ 64) (hashed : Bytes) (r : Res Bytes) :
    pss.Pss.sign ⟨blinded, DigestState.new D, saltLen⟩ R fuel rng k hashed = r ↔
      Spec.SignsPss R fuel rng k.pub.n.val k.d.val D blinded saltLen hashed r := by
  have hco : k.pub.Coherent := hk.coherent
  have hn := coherent_pos hco
  have hbp := bits_pos hn
  have hbl := bits_le_prec k.pub.n
  have hi : ∀ v, Spec.i2osp (v % k.pub.n.val) (Spec.octetLen k.pub.n.val) =
      some (beBytes k.pub.size (v % k.pub.n.val)) := by
    intro v
    rw [← size_eq_octetLen]; exact i2osp_eq _ _ (mod_lt_pow_size _ hn _)
  have hstep : ∀ (brng : Option σ) (salt em : Bytes), hashed.length = D.outLen → salt.length = saltLen →
      Spec.emsaPss D.hash (Spec.mgf1 D.hash D.outLen) D.outLen hashed salt (k.pub.n.val.size - 1) = some em →
      (∃ r, Spec.Privately R k.pub.n.val fuel brng (.ok (beBytes k.pub.size (beVal em ^ k.d.val % k.pub.n.val))) r) ∧
      ∀ r, Spec.Privately R k.pub.n.val fuel brng (.ok (beBytes k.pub.size (beVal em ^ k.d.val % k.pub.n.val))) r →
        pss.signPssWithSalt R fuel brng k hashed salt (DigestState.new D) = r := by
    intro brng salt em hh hsl hem
    rw [← bits_eq_size] at hem
    have hlt : beVal em < k.pub.n.val := lt_of_lt_of_le (emsaPss_lt hpos hem) (pow_bits_le hn)
    have hle : em.length ≤ 8 * k.pub.n.nlimbs := by
      rw [(emsaPss_length hpos hem).1]; unfold prec at hbl; omega
    have hwv : (wrap k.pub.n.nlimbs (beVal em)).val = beVal em := wrap_lt_val hlt
    have := rsaDecryptAndCheck_privately R fuel brng hk (wrap k.pub.n.nlimbs (beVal em)) rfl (by rw [hwv]; exact hlt)
      (fun x => uintToZeroizingBePad x k.pub.size)
    rw [hwv, uintToZeroizingBePad_eq, wrap_mod_val _ hn, if_pos (mod_lt_pow_size _ hn _)] at this
    refine ⟨this.1, fun r hr => ?_⟩
    rw [← this.2 r hr]
    unfold pss.signPssWithSalt
    rw [subU_of_le (by omega), Res.ok_bind, emsaPssEncode_eq hashed _ salt D hpos hh (by omega) (by omega)]
    unfold HashFn.mgf
    rw [hem]
    simp only [Res.ok_bind]
    rw [fromBeSlice_nprec _ hco, if_pos hle, Res.ok_bind]
  refine graph_iff ?_ ?_ r
  · cases rng with
    | none => exact ⟨_, .noRng rfl⟩
    | some s =>
      rcases hf : (R.fill s saltLen).1 with _ | salt
      · exact ⟨_, .noSalt s rfl hf⟩
      · by_cases hh : hashed.length = D.outLen
        · rcases hem : Spec.emsaPss D.hash (Spec.mgf1 D.hash D.outLen) D.outLen hashed salt (k.pub.n.val.size - 1)
            with _ | em
          · exact ⟨_, .tooLong s rfl salt hf hh hem⟩
          · obtain ⟨⟨r, hr⟩, -⟩ := hstep (if blinded then some (R.fill s saltLen).2 else none) salt em hh
              (R.fill_len _ _ _ hf) hem
            exact ⟨r, .done s rfl salt hf hh em _ hem (by rw [← beVal_eq_os2ip]; exact hi _) r hr⟩
        · exact ⟨_, .notHashed s rfl salt hf hh⟩
  · intro r h
    unfold pss.Pss.sign
    cases h with
    | noRng h => subst h; rfl
    | noSalt s hs h =>
      subst hs
      simp only [pss.sign]
      rw [tryFill_none h]; rfl
    | notHashed s hs salt hf h =>
      subst hs
      simp only [pss.sign]
      rw [tryFill_some hf, Res.ok_bind]
      unfold pss.signPssWithSalt
      rw [subU_of_le (by omega), Res.ok_bind]
      unfold emsaPssEncode
      dsimp only [DigestState.outputSize, DigestState.new]
      rw [if_pos h]; rfl
    | tooLong s hs salt hf hh h =>
      subst hs
      have hsl := R.fill_len _ _ _ hf
      rw [← bits_eq_size] at h
      simp only [pss.sign]
      rw [tryFill_some hf, Res.ok_bind]
      unfold pss.signPssWithSalt
      rw [subU_of_le (by omega), Res.ok_bind, emsaPssEncode_eq hashed _ salt D hpos hh (by omega) (by omega)]
      unfold HashFn.mgf
      rw [h]; rfl
    | done s hs salt hf hh em sig hem hsig r hr =>
      subst hs
      simp only [pss.sign]
      rw [tryFill_some hf, Res.ok_bind]
      rw [← beVal_eq_os2ip, hi, Option.some.injEq] at hsig
      subst hsig
      exact (hstep _ salt em hh (R.fill_len _ _ _ hf) hem).2 r hr

/-- A blinded signature with a ten-octet salt; without a generator; with a salt that does not fit. -/
example : Spec.SignsPss Ex.countingRng 1 (some 7) Ex.pub.n.val Ex.dVal Ex.hash4 true 10 (Ex.hash4.hash [1, 2, 3])
      (.ok [116, 80, 41, 43, 182, 214, 152, 238, 177, 32, 128, 75, 220, 220, 164, 248, 127, 209, 160, 230,
      109, 80, 255, 89, 123, 61, 76]) ∧
    Spec.SignsPss Ex.countingRng 1 none Ex.pub.n.val Ex.dVal Ex.hash4 true 10 (Ex.hash4.hash [1, 2, 3])
      (.err .invalidPaddingScheme) ∧
    Spec.SignsPss Ex.countingRng 1 (some 7) Ex.pub.n.val Ex.dVal Ex.hash4 true 22 (Ex.hash4.hash [1, 2, 3])
      (.err .internal) :=
  ⟨(C80_pss _ _ _ Ex.key_wf (by decide) _ _ (by decide) _ (by decide) _ _).mp (by decide +kernel),
    (C80_pss _ _ _ Ex.key_wf (by decide) _ _ (by decide) _ (by decide) _ _).mp (by decide +kernel),
    (C80_pss _ _ _ Ex.key_wf (by decide) _ _ (by decide) _ (by decide) _ _).mp (by decide +kernel)⟩

theorem privately_ok {σ α : Type} {R : RngImpl σ} {n fuel : Nat} {rng : Option σ} {a b : α}
    (h : Spec.Privately R n fuel rng (.ok a) (.ok b)) : a = b := by
  cases h; rfl

theorem i2osp_length {x len : Nat} {b : Bytes} (h : Spec.i2osp x len = some b) : b.length = len := by
  unfold Spec.i2osp at h
  split at h
  · obtain rfl := Option.some.inj h; simp
  · cases h

theorem signsPkcs1v15_length {σ : Type} {R : RngImpl σ} {fuel : Nat} {rng : Option σ} {n d : Nat} {hl : Option Nat}
    {pfx hashed sig : Bytes} (h : Spec.SignsPkcs1v15 R fuel rng n d hl pfx hashed (.ok sig)) :
    sig.length = Spec.octetLen n := by
  cases h with
  | done hh em s hem hs r hr => rw [← privately_ok hr]; exact i2osp_length hs

theorem signsPss_length {σ : Type} {R : RngImpl σ} {fuel : Nat} {rng : Option σ} {n d : Nat} {D : HashFn} {b : Bool}
    {saltLen : Nat} {hashed sig : Bytes} (h : Spec.SignsPss R fuel rng n d D b saltLen hashed (.ok sig)) :
    sig.length = Spec.octetLen n := by
  cases h with
  | done s hs salt hf hh em sig' hem hs' r hr => rw [← privately_ok hr]; exact i2osp_length hs'

theorem octetLen_lt29 {k : PublicKey} (hp : k.n.prec < 2 ^ 32) : Spec.octetLen k.n.val < 2 ^ 29 := by
  have := size_le_bytes k
  rw [size_eq_octetLen] at this
  unfold prec at hp; omega

theorem typed_iff {α : Type} {x : Res Bytes} {P : Res Bytes → Prop} (hx : ∀ r, x = r ↔ P r)
    (hlen : ∀ sig, P (.ok sig) → sig.length < 2 ^ 29) (num : α → BoxedUint) (mk : BoxedUint → α)
    (hmk : ∀ u, num (mk u) = u) (hnum : ∀ a, mk (num a) = a) (tf : Bytes → Res α)
    (htf : ∀ sig, sig.length < 2 ^ 29 → tf sig = .ok (mk (wrap (limbsFor (8 * sig.length)) (beVal sig)))) (r : Res α) :
    (x >>= tf) = r ↔ ∃ r', P r' ∧ Spec.TypedSignature num r' r := by
  have hlimb : ∀ l, limbsFor (8 * l) = max 1 ((l + 7) / 8) := by intro l; unfold limbsFor; omega
  have hval : ∀ sig : Bytes, (wrap (limbsFor (8 * sig.length)) (beVal sig)).val = Spec.os2ip sig := by
    intro sig; rw [pkcs1v15.parse_val, beVal_eq_os2ip]
  constructor
  · rintro rfl
    refine ⟨x, (hx x).mp rfl, ?_⟩
    cases hxe : x with
    | ok sig =>
      have : P (.ok sig) := hxe ▸ (hx x).mp rfl
      rw [Res.ok_bind, htf sig (hlen sig this)]
      exact .ok sig _ (by rw [hmk, hval]) (by rw [hmk, wrap_nlimbs, hlimb])
    | err e => exact .err e
    | panic p => exact .panic p
    | loop => exact .loop
  · rintro ⟨r', hr', ht⟩
    have hxr := (hx r').mpr hr'
    cases ht with
    | ok sig sg hv hl =>
      rw [hxr, Res.ok_bind, htf sig (hlen sig hr'), ← hnum sg]
      congr 2
      exact ext_val (by rw [wrap_nlimbs, hlimb, hl]) (by rw [hval, hv])
    | err e => rw [hxr]; rfl
    | panic p => rw [hxr]; rfl
    | loop => rw [hxr]; rfl

/-- C80 for the typed PKCS#1 v1.5 signing key: all five signing calls give exactly the outcome of the scheme on the
digest, with no expectation on its length, the signature string being read as a number. -/
theorem C80_pkcs1v15_typed {σ : Type} (R : RngImpl σ) (fuel : Nat) (s : σ) {D : HashFn} (sk : pkcs1v15.SigningKey D)
    (hk : Spec.WellFormed sk.inner) (hp : sk.inner.pub.n.prec < 2 ^ 32) (msg : Bytes) (r : Res pkcs1v15.Signature) :
    (sk.signPrehash msg = r ↔ ∃ r', Spec.SignsPkcs1v15 R fuel none sk.inner.pub.n.val sk.inner.d.val none
      sk.pfx msg r' ∧ Spec.TypedSignature pkcs1v15.Signature.inner r' r) ∧
    (sk.trySign msg = r ↔ ∃ r', Spec.SignsPkcs1v15 R fuel none sk.inner.pub.n.val sk.inner.d.val none
      sk.pfx (D.hash msg) r' ∧ Spec.TypedSignature pkcs1v15.Signature.inner r' r) ∧
    (sk.trySignDigest msg = r ↔ ∃ r', Spec.SignsPkcs1v15 R fuel none sk.inner.pub.n.val sk.inner.d.val none
      sk.pfx (D.hash msg) r' ∧ Spec.TypedSignature pkcs1v15.Signature.inner r' r) ∧
    (sk.trySignWithRng R fuel s msg = r ↔ ∃ r', Spec.SignsPkcs1v15 R fuel (some s) sk.inner.pub.n.val sk.inner.d.val none
      sk.pfx (D.hash msg) r' ∧ Spec.TypedSignature pkcs1v15.Signature.inner r' r) ∧
    (sk.trySignDigestWithRng R fuel s msg = r ↔ ∃ r', Spec.SignsPkcs1v15 R fuel (some s) sk.inner.pub.n.val
      sk.inner.d.val none sk.pfx (D.hash msg) r' ∧ Spec.TypedSignature pkcs1v15.Signature.inner r' r) := by
  have key : ∀ {τ : Type} (R : RngImpl τ) (fuel : Nat) (rng : Option τ) (h : Bytes),
      (pkcs1v15.sign R fuel rng sk.inner sk.pfx h >>= pkcs1v15.Signature.tryFrom) = r ↔
      ∃ r', Spec.SignsPkcs1v15 R fuel rng sk.inner.pub.n.val sk.inner.d.val none sk.pfx h r' ∧
        Spec.TypedSignature pkcs1v15.Signature.inner r' r := by
    intro τ R fuel rng h
    refine typed_iff (fun r => ?_) (fun sig hs => ?_) _ pkcs1v15.Signature.mk (fun _ => rfl) (fun _ => rfl) _
      (fun sig hs => pkcs1v15.Signature.tryFrom_eq sig hs) r
    · have := C80_pkcs1v15 R fuel rng hk ⟨none, sk.pfx⟩ h r
      rw [← this]
      rfl
    · rw [signsPkcs1v15_length hs]; exact octetLen_lt29 hp
  have none_eq : ∀ h, pkcs1v15.sign dummyRng 0 none sk.inner sk.pfx h = pkcs1v15.sign R fuel none sk.inner sk.pfx h := by
    intro h
    unfold pkcs1v15.sign
    congr 1; funext em
    congr 1; funext em
    exact rsaDecryptAndCheck_no_rng dummyRng R 0 fuel sk.inner em (fun m => uintToZeroizingBePad m sk.inner.pub.size)
  have keyNone := fun h => none_eq h ▸ key R fuel none h
  exact ⟨keyNone _, keyNone _, keyNone _, key _ _ _ _, key _ _ _ _⟩

/-- C80 for the typed PSS signing keys: all six signing calls give exactly the outcome of the scheme, the signature string
being read as a number. -/
theorem C80_pss_typed {σ : Type} (R : RngImpl σ) (fuel : Nat) (s : σ) {D : HashFn} {k : PrivateKey} (saltLen : Nat)
    (hk : Spec.WellFormed k) (hp : k.pub.n.prec < 2 ^ 32) (hpos : 0 < D.outLen)
    (hadd : D.outLen + saltLen + 2 < 2 ^ 64) (msg : Bytes) (r : Res pss.Signature) :
    (pss.SigningKey.signPrehashWithRng (D := D) R fuel s ⟨k, saltLen⟩ msg = r ↔
      ∃ r', Spec.SignsPss R fuel (some s) k.pub.n.val k.d.val D false saltLen msg r' ∧
        Spec.TypedSignature pss.Signature.inner r' r) ∧
    (pss.SigningKey.trySignWithRng (D := D) R fuel s ⟨k, saltLen⟩ msg = r ↔
      ∃ r', Spec.SignsPss R fuel (some s) k.pub.n.val k.d.val D false saltLen (D.hash msg) r' ∧
        Spec.TypedSignature pss.Signature.inner r' r) ∧
    (pss.SigningKey.trySignDigestWithRng (D := D) R fuel s ⟨k, saltLen⟩ msg = r ↔
      ∃ r', Spec.SignsPss R fuel (some s) k.pub.n.val k.d.val D false saltLen (D.hash msg) r' ∧
        Spec.TypedSignature pss.Signature.inner r' r) ∧
    (pss.BlindedSigningKey.signPrehashWithRng (D := D) R fuel s ⟨k, saltLen⟩ msg = r ↔
      ∃ r', Spec.SignsPss R fuel (some s) k.pub.n.val k.d.val D true saltLen msg r' ∧
        Spec.TypedSignature pss.Signature.inner r' r) ∧
    (pss.BlindedSigningKey.trySignWithRng (D := D) R fuel s ⟨k, saltLen⟩ msg = r ↔
      ∃ r', Spec.SignsPss R fuel (some s) k.pub.n.val k.d.val D true saltLen (D.hash msg) r' ∧
        Spec.TypedSignature pss.Signature.inner r' r) ∧
    (pss.BlindedSigningKey.trySignDigestWithRng (D := D) R fuel s ⟨k, saltLen⟩ msg = r ↔
      ∃ r', Spec.SignsPss R fuel (some s) k.pub.n.val k.d.val D true saltLen (D.hash msg) r' ∧
        Spec.TypedSignature pss.Signature.inner r' r) := by
  have key : ∀ (b : Bool) (h : Bytes), (pss.signDigest R fuel D s b k h saltLen >>= pss.Signature.tryFrom) = r ↔
      ∃ r', Spec.SignsPss R fuel (some s) k.pub.n.val k.d.val D b saltLen h r' ∧
        Spec.TypedSignature pss.Signature.inner r' r := by
    intro b h
    refine typed_iff (fun r => ?_) (fun sig hs => ?_) _ pss.Signature.mk (fun _ => rfl) (fun _ => rfl) _
      (fun sig hs => pss.Signature.tryFrom_eq sig hs) r
    · rw [pss.signDigest_agree]
      exact C80_pss R fuel (some s) hk hp b D hpos saltLen hadd h r
    · rw [signsPss_length hs]; exact octetLen_lt29 hp
  exact ⟨key _ _, key _ _, key _ _, key _ _, key _ _, key _ _⟩

example : ∃ sg : pss.Signature, sg.inner.nlimbs = 4 ∧
    ∃ r', Spec.SignsPss Ex.countingRng 1 (some 7) Ex.pub.n.val Ex.dVal Ex.hash4 true 10 (Ex.hash4.hash [1, 2, 3]) r' ∧
      Spec.TypedSignature pss.Signature.inner r' (.ok sg) :=
  ⟨⟨wrap 4 (beVal [116, 80, 41, 43, 182, 214, 152, 238, 177, 32, 128, 75, 220, 220, 164, 248, 127, 209, 160, 230,
      109, 80, 255, 89, 123, 61, 76])⟩, rfl,
    (C80_pss_typed Ex.countingRng 1 7 (D := Ex.hash4) 10 Ex.key_wf (by decide) (by decide) (by decide) [1, 2, 3] _).2.2.2.2.1.mp
      (by decide +kernel)⟩

example : Spec.WellFormed (pkcs1v15.SigningKey.newUnprefixed (D := Ex.hash4) Ex.key).inner ∧
    Ex.key.pub.n.prec < 2 ^ 32 := ⟨Ex.key_wf, by decide⟩

/-! ### C81 -/

/-- Parsing of a signature string, for every length. -/
theorem sigString_total (sig : Bytes) {α : Type} (f : BoxedUint → Res α) :
    (2 ^ 29 ≤ sig.length % 2 ^ 32 →
      (lenBitsU32 sig.length >>= fun bits => fromBeSlice sig bits >>= f) = .panic .arith) ∧
    (sig.length % 2 ^ 32 < 2 ^ 29 → 2 ^ 32 ≤ sig.length →
      (lenBitsU32 sig.length >>= fun bits => fromBeSlice sig bits >>= f) = .err (.decode .inputSize)) ∧
    (sig.length < 2 ^ 29 →
      (lenBitsU32 sig.length >>= fun bits => fromBeSlice sig bits >>= f) =
        f (wrap (limbsFor (8 * sig.length)) (beVal sig))) ∧
    (2 ^ 29 ≤ sig.length % 2 ^ 32 ∨ sig.length % 2 ^ 32 < 2 ^ 29 ∧ 2 ^ 32 ≤ sig.length ∨ sig.length < 2 ^ 29) := by
  refine ⟨?_, ?_, ?_, ?_⟩
  · intro h
    unfold lenBitsU32
    rw [if_neg (by omega)]; rfl
  · intro h1 h2
    unfold lenBitsU32
    rw [if_pos (by omega), Res.ok_bind]
    unfold fromBeSlice divCeil
    rw [if_pos (by omega)]; rfl
  · intro h
    rw [pkcs1v15.lenBitsU32_eq h, Res.ok_bind, fromBeSlice_full, Res.ok_bind]
  · omega

/-- C81, PKCS#1 v1.5: verification gives exactly the outcome described by `Spec.VerifiesPkcs1v15`, for signature strings
of every length. -/
theorem C81_pkcs1v15 (k : PublicKey) (hk : k.Coherent) (S : pkcs1v15.Pkcs1v15Sign) (hashed sig : Bytes) (r : Res Unit) :
    S.verify k hashed sig = r ↔
      Spec.VerifiesPkcs1v15 k.n.prec k.n.val k.e.val S.hashLen S.pfx hashed sig r := by
  have hn := coherent_pos hk
  obtain ⟨h1, h2, h3, h4⟩ := sigString_total sig (fun s => pkcs1v15.verify k S.pfx hashed s)
  have hlimb : limbsFor (8 * sig.length) = max 1 ((sig.length + 7) / 8) := by unfold limbsFor; omega
  have hw : 64 * max 1 ((sig.length + 7) / 8) = k.n.prec ↔ max 1 ((sig.length + 7) / 8) = k.n.nlimbs := by
    unfold prec; omega
  have hi : Spec.i2osp (Spec.os2ip sig ^ k.e.val % k.n.val) (Spec.octetLen k.n.val) =
      some (beBytes k.size (beVal sig ^ k.e.val % k.n.val)) := by
    rw [← size_eq_octetLen, ← beVal_eq_os2ip]; exact i2osp_eq _ _ (mod_lt_pow_size _ hn _)
  rw [pkcs1v15.verify_eq _ hk, pkcs1v15.parse_val, wrap_nlimbs, hlimb] at h3
  refine graph_iff ?_ ?_ r
  · by_cases hh : ∀ l, S.hashLen = some l → hashed.length = l
    · rcases h4 with h | ⟨h, h'⟩ | h
      · exact ⟨_, .overflow hh h⟩
      · exact ⟨_, .huge hh h h'⟩
      · by_cases hv : Spec.os2ip sig < k.n.val ∧ 64 * max 1 ((sig.length + 7) / 8) = k.n.prec ∧
          ∃ em, Spec.emsaPkcs1v15 (S.pfx ++ hashed) (Spec.octetLen k.n.val) = some em ∧
            Spec.i2osp (Spec.os2ip sig ^ k.e.val % k.n.val) (Spec.octetLen k.n.val) = some em
        · obtain ⟨a, b, em, c, d⟩ := hv
          exact ⟨_, .valid hh h a b em c d⟩
        · refine ⟨_, .invalid hh h ?_⟩
          by_contra hno
          push Not at hno
          obtain ⟨a, b, c⟩ := hno
          exact hv ⟨a, b, c⟩
    · push Not at hh
      obtain ⟨l, hl, hne⟩ := hh
      exact ⟨_, .notHashed l hl hne⟩
  · intro r h
    unfold pkcs1v15.Pkcs1v15Sign.verify
    cases h with
    | notHashed l hl h => rw [checkHashLen_err hl h]; rfl
    | overflow hh h => rw [checkHashLen_ok hh, Res.ok_bind]; exact h1 h
    | huge hh h hs => rw [checkHashLen_ok hh, Res.ok_bind]; exact h2 h hs
    | valid hh hs hv hwd em hem h =>
      rw [checkHashLen_ok hh, Res.ok_bind, h3 hs, if_pos]
      rw [hi, Option.some.injEq] at h
      refine ⟨by rw [beVal_eq_os2ip]; exact hv, hw.mp hwd, ?_⟩
      rw [h, size_eq_octetLen]; exact hem
    | invalid hh hs h =>
      rw [checkHashLen_ok hh, Res.ok_bind, h3 hs, if_neg]
      rintro ⟨a, b, c⟩
      rcases h with h | h | h
      · rw [← beVal_eq_os2ip] at h; omega
      · exact h (hw.mpr b)
      · rw [size_eq_octetLen] at c
        rw [hi, size_eq_octetLen] at h
        exact h _ ⟨c, rfl⟩

example : Spec.VerifiesPkcs1v15 256 Ex.pub.n.val 65537 none [] [1, 2, 3] [209, 168, 54, 190, 224, 67, 39, 138, 167, 205, 225, 75, 195, 246, 62, 183, 107, 240, 150, 31, 31,
      92, 73, 125, 246, 61, 244] (.ok ()) ∧
    Spec.VerifiesPkcs1v15 256 Ex.pub.n.val 65537 none [] [1, 2, 4] [209, 168, 54, 190, 224, 67, 39, 138, 167, 205, 225, 75, 195, 246, 62, 183, 107, 240, 150, 31, 31,
      92, 73, 125, 246, 61, 244] (.err .verification) ∧
    ∀ sig : Bytes, sig.length = 2 ^ 29 → Spec.VerifiesPkcs1v15 256 Ex.pub.n.val 65537 none [] [1, 2, 4] sig (.panic .arith) :=
  ⟨(C81_pkcs1v15 Ex.pub rfl ⟨none, []⟩ _ _ _).mp (by decide +kernel),
    (C81_pkcs1v15 Ex.pub rfl ⟨none, []⟩ _ _ _).mp (by decide +kernel), fun sig h => .overflow (by simp) (by omega)⟩

/-- C81, PSS: verification gives exactly the outcome described by `Spec.VerifiesPss`, for signature strings of every
length. -/
theorem C81_pss (k : PublicKey) (hk : k.Coherent) (hp : k.n.prec < 2 ^ 32) (blinded : Bool) (D : HashFn)
    (hpos : 0 < D.outLen) (saltLen : Nat) (hadd : D.outLen + saltLen + 2 < 2 ^ 64) (hashed sig : Bytes) (r : Res Unit) :
    pss.Pss.verify ⟨blinded, DigestState.new D, saltLen⟩ k hashed sig = r ↔
      Spec.VerifiesPss k.n.val k.e.val D saltLen hashed sig r := by
  obtain ⟨h1, h2, -, h4⟩ := sigString_total sig
    (fun s => pss.verify k hashed s sig.length (DigestState.new D) saltLen)
  have hex := C19_pss_verify_exact k hk hp blinded D hpos saltLen hadd hashed sig
  refine graph_iff ?_ ?_ r
  · rcases h4 with h | ⟨h, h'⟩ | h
    · exact ⟨_, .overflow h⟩
    · exact ⟨_, .huge h h'⟩
    · by_cases hv : Spec.OpensPss k.n.val k.e.val D saltLen hashed sig
      · exact ⟨_, .valid h hv⟩
      · exact ⟨_, .invalid h hv⟩
  · intro r h
    cases h with
    | overflow h => exact h1 h
    | huge h hs => exact h2 h hs
    | valid hs h => exact (hex hs).1.mpr h
    | invalid hs h => exact (hex hs).2.resolve_left (fun hok => h ((hex hs).1.mp hok))

example : Spec.VerifiesPss Ex.pub.n.val 65537 Ex.hash4 10 (Ex.hash4.hash [1, 2, 3]) [116, 80, 41, 43, 182, 214, 152, 238, 177, 32, 128, 75, 220, 220, 164, 248, 127, 209, 160, 230,
      109, 80, 255, 89, 123, 61, 76] (.ok ()) ∧
    Spec.VerifiesPss Ex.pub.n.val 65537 Ex.hash4 9 (Ex.hash4.hash [1, 2, 3]) [116, 80, 41, 43, 182, 214, 152, 238, 177, 32, 128, 75, 220, 220, 164, 248, 127, 209, 160, 230,
      109, 80, 255, 89, 123, 61, 76] (.err .verification) :=
  ⟨(C81_pss Ex.pub rfl (by decide) false Ex.hash4 (by decide) 10 (by decide) _ _ _).mp (by decide +kernel),
    (C81_pss Ex.pub rfl (by decide) false Ex.hash4 (by decide) 9 (by decide) _ _ _).mp (by decide +kernel)⟩

example := C80_pkcs1v15_typed Ex.countingRng 3 5 (⟨Ex.key, []⟩ : pkcs1v15.SigningKey Ex.hash4) Ex.key_wf (by decide) [1, 2, 3]

end RSA
