import Verif.Spec.Session
import Verif.Props.Journey
import Verif.Props.Outcome

/-
C92: a key in service behaves, towards a peer that chooses its requests as it likes, like a party that knows nothing but
the public key and some exponent that undoes the public one.
-/
namespace RSA
open BoxedUint Spec

/-! ### The numbers -/

theorem inverts_wf {k : PrivateKey} (hk : WellFormed k) : Inverts k.pub.n.val k.pub.e.val k.d.val := by
  intro x hx
  have h1 : (x ^ k.d.val % k.pub.n.val) ^ k.pub.e.val ≡ x [MOD k.pub.n.val] := by
    refine ((Nat.mod_modEq _ _).pow _).trans ?_
    rw [← pow_mul]; exact wf_rsa hk _
  exact Eq.trans h1 (Nat.mod_eq_of_lt hx)

/-- There is but one way to undo the public exponent. -/
theorem inverts_unique {k : PrivateKey} (hk : WellFormed k) {d : Nat} (hd : Inverts k.pub.n.val k.pub.e.val d) (x : Nat) :
    x ^ d % k.pub.n.val = x ^ k.d.val % k.pub.n.val := by
  have hn : 0 < k.pub.n.val := coherent_pos (k := k.pub) hk.coherent
  rw [Nat.pow_mod, Nat.pow_mod (b := k.d.val)]
  have hx : x % k.pub.n.val < k.pub.n.val := Nat.mod_lt _ hn
  apply wf_inj hk (Nat.mod_lt _ hn) (Nat.mod_lt _ hn)
  exact (hd _ hx).trans (inverts_wf hk _ hx).symm

section
variable {σ : Type} {R : RngImpl σ} {fuel : Nat} {rng : Option σ} {w n e d d' : Nat}

theorem decryptsPkcs1v15_congr (h : ∀ x, x ^ d % n = x ^ d' % n) {ct : Bytes} {r : Res Bytes}
    (hr : DecryptsPkcs1v15 R fuel rng w n e d ct r) : DecryptsPkcs1v15 R fuel rng w n e d' ct r := by
  cases hr with
  | badKey er h => exact .badKey er h
  | tooLong hk h => exact .tooLong hk h
  | tooLarge hk hl h => exact .tooLarge hk hl h
  | invalid hk hl hv em hem hi r hr => exact .invalid hk hl hv em (by rw [← h]; exact hem) hi _ hr
  | message hk hl hv em m hem hi r hr => exact .message hk hl hv em m (by rw [← h]; exact hem) hi _ hr

theorem decryptsOaep_congr (h : ∀ x, x ^ d % n = x ^ d' % n) {D MGD : HashFn} {label ct : Bytes} {r : Res Bytes}
    (hr : DecryptsOaep R fuel rng n d D MGD label ct r) : DecryptsOaep R fuel rng n d' D MGD label ct r := by
  cases hr with
  | length h => exact .length h
  | tooLarge hl h => exact .tooLarge hl h
  | invalid hl hv em hem hi r hr => exact .invalid hl hv em (by rw [← h]; exact hem) hi _ hr
  | message hl hv hlab em m hem hi r hr => exact .message hl hv hlab em m (by rw [← h]; exact hem) hi _ hr

theorem decryptsOaepTyped_congr (h : ∀ x, x ^ d % n = x ^ d' % n) {D MGD : HashFn} {label ct : Bytes} {r : Res Bytes}
    (hr : DecryptsOaepTyped R fuel rng w n e d D MGD label ct r) :
    DecryptsOaepTyped R fuel rng w n e d' D MGD label ct r := by
  cases hr with
  | badKey er h => exact .badKey er h
  | short hk hlab r hr => exact .short hk hlab _ (decryptsOaep_congr h hr)
  | badInput hk hlab h => exact .badInput hk hlab h
  | badLabel hk hlab hl hv r hr => exact .badLabel hk hlab hl hv _ hr

theorem signsPkcs1v15_congr (h : ∀ x, x ^ d % n = x ^ d' % n) {hl : Option Nat} {pfx hashed : Bytes} {r : Res Bytes}
    (hr : SignsPkcs1v15 R fuel rng n d hl pfx hashed r) : SignsPkcs1v15 R fuel rng n d' hl pfx hashed r := by
  cases hr with
  | notHashed l hl h => exact .notHashed l hl h
  | tooLong hh h => exact .tooLong hh h
  | done hh em sig hem hs r hr => exact .done hh em sig hem (by rw [← h]; exact hs) _ hr

theorem signsPss_congr (h : ∀ x, x ^ d % n = x ^ d' % n) {D : HashFn} {blinded : Bool} {saltLen : Nat} {hashed : Bytes}
    {r : Res Bytes} (hr : SignsPss R fuel rng n d D blinded saltLen hashed r) :
    SignsPss R fuel rng n d' D blinded saltLen hashed r := by
  cases hr with
  | noRng h => exact .noRng h
  | noSalt s hs h => exact .noSalt s hs h
  | notHashed s hs salt hf h => exact .notHashed s hs salt hf h
  | tooLong s hs salt hf hh h => exact .tooLong s hs salt hf hh h
  | done s hs salt hf hh em sig hem hsig r hr => exact .done s hs salt hf hh em sig hem (by rw [← h]; exact hsig) _ hr

theorem ideal_congr (h : ∀ x, x ^ d % n = x ^ d' % n) {q : Ask} {r : Reply} (hr : IdealAnswer R fuel rng n e d q r) :
    IdealAnswer R fuel rng n e d' q r := by
  cases hr with
  | open1 ct r h1 => exact .open1 ct r (decryptsPkcs1v15_congr h h1)
  | openOaep D MGD label ct r h1 => exact .openOaep D MGD label ct r (decryptsOaep_congr h h1)
  | openOaepTyped D MGD label ct r h1 => exact .openOaepTyped D MGD label ct r (decryptsOaepTyped_congr h h1)
  | sign1 S hashed r h1 => exact .sign1 S hashed r (signsPkcs1v15_congr h h1)
  | signPss D b l hashed r h1 => exact .signPss D b l hashed r (signsPss_congr h h1)
  | seal1 s hs msg r h1 => exact .seal1 s hs msg r h1
  | sealOaep s hs D MGD label msg r h1 => exact .sealOaep s hs D MGD label msg r h1
  | check1 S hashed sig r h1 => exact .check1 S hashed sig r h1
  | checkPss D b l hashed sig r h1 => exact .checkPss D b l hashed sig r h1

end

/-! ### The copies -/

theorem inUse_copy {k : PrivateKey} (hk : Portable k) {x : KeyObj} (h : InUse k x) :
    CopyOf k x ∧ NoSpareLimbs (half x) := by
  rcases h with h | ⟨hw, h⟩
  · exact travelled_noSpare hk h
  · obtain ⟨h1, h2⟩ := journey_copy (copy_self hk) h
    exact ⟨h1, h2 hw⟩

theorem inUse_journey {k : PrivateKey} {x : KeyObj} (h : InUse k x) : Journey (.secret k) x := by
  rcases h with ⟨a, b, h1, t, h2⟩ | ⟨-, h⟩
  · exact (h1.tail (.transport t)).trans h2
  · exact h

theorem ownWidth_eq {k : PublicKey} (h : NoSpareLimbs k) : ownWidth k.n.val = k.n.prec := by
  unfold NoSpareLimbs at h
  unfold ownWidth BoxedUint.prec
  rw [h]

/-- A copy of either kind is always to be had. -/
theorem inUse_exists {k : PrivateKey} (hk : Portable k) :
    (∃ a, InUse k (.secret a)) ∧ ∃ v, InUse k (.open v) := by
  obtain ⟨h, -⟩ := C90_never_stuck k hk _ (.refl)
  obtain ⟨⟨b, a, hw, hr⟩, -⟩ := h k rfl
  have t : Transport (.secret k) (.secret a) := .pkcs8 hw hr
  exact ⟨⟨a, .inl ⟨_, _, .refl, t, .refl⟩⟩, ⟨_, .inl ⟨_, _, .refl, t, .single (.publish a)⟩⟩⟩

/-- What a copy answers is what the ideal party answers. -/
theorem serves_ideal {k : PrivateKey} (hk : Portable k) {x : KeyObj} (hx : InUse k x) {σ : Type} {R : RngImpl σ}
    {fuel : Nat} {rng : Option σ} {q : Ask} (hq : q.Sane) {r : Reply} (h : Serves R fuel rng x q r) :
    IdealAnswer R fuel rng k.pub.n.val k.pub.e.val k.d.val q r := by
  obtain ⟨hc, hw⟩ := inUse_copy hk hx
  cases h with
  | open1 a ct =>
    obtain ⟨hp, hd⟩ := priv_eq hc.1
    obtain ⟨hn, he⟩ := pub_eq hp
    have := (C79_pkcs1v15 R fuel rng hc.2.correct ct _).mp rfl
    rw [← ownWidth_eq (k := a.pub) hw] at this
    rw [hn, he, hd] at this
    exact .open1 ct _ this
  | openOaep a D MGD label ct =>
    obtain ⟨hp, hd⟩ := priv_eq hc.1
    obtain ⟨hn, he⟩ := pub_eq hp
    have hp := ((checkPublic_ok _).mp (checkPublic_of_validate hc.2.accepted)).1
    have := (C79_oaep R fuel rng hc.2.correct (by omega) D MGD hq label ct _).mp rfl
    rw [hn, hd] at this
    exact .openOaep D MGD label ct _ this
  | openOaepTyped a D MGD label ct =>
    obtain ⟨hp, hd⟩ := priv_eq hc.1
    obtain ⟨hn, he⟩ := pub_eq hp
    have := (C79_oaep_typed R fuel rng hc.2.correct D MGD hq label ct _).mp rfl
    rw [← ownWidth_eq (k := a.pub) hw] at this
    rw [hn, he, hd] at this
    exact .openOaepTyped D MGD label ct _ this
  | sign1 a S hashed =>
    obtain ⟨hp, hd⟩ := priv_eq hc.1
    obtain ⟨hn, he⟩ := pub_eq hp
    have := (C80_pkcs1v15 R fuel rng hc.2.correct S hashed _).mp rfl
    rw [hn, hd] at this
    exact .sign1 S hashed _ this
  | signPss a D b l hashed =>
    obtain ⟨hp, hd⟩ := priv_eq hc.1
    obtain ⟨hn, he⟩ := pub_eq hp
    have hp := ((checkPublic_ok _).mp (checkPublic_of_validate hc.2.accepted)).1
    have := (C80_pss R fuel rng hc.2.correct (by omega) b D hq.1 l hq.2 hashed _).mp rfl
    rw [hn, hd] at this
    exact .signPss D b l hashed _ this
  | seal1 v s hs msg =>
    obtain ⟨hn, he⟩ := pub_eq hc.1
    have := (C78_pkcs1v15 R fuel s v hc.2.1 msg _).mp rfl
    rw [← ownWidth_eq (k := v) hw] at this
    rw [hn, he] at this
    exact .seal1 s hs msg _ this
  | sealOaep v s hs D MGD label msg =>
    obtain ⟨hn, he⟩ := pub_eq hc.1
    have := (C78_oaep R s v hc.2.1 D MGD hq label msg _).1.mp rfl
    rw [← ownWidth_eq (k := v) hw] at this
    rw [hn, he] at this
    exact .sealOaep s hs D MGD label msg _ this
  | check1 v S hashed sig =>
    obtain ⟨hn, he⟩ := pub_eq hc.1
    have := (C81_pkcs1v15 v hc.2.1 S hashed sig _).mp rfl
    rw [← ownWidth_eq (k := v) hw] at this
    rw [hn, he] at this
    exact .check1 S hashed sig _ this
  | checkPss v D b l hashed sig =>
    obtain ⟨hn, he⟩ := pub_eq hc.1
    have hp := ((checkPublic_ok _).mp hc.2.2).1
    have := (C81_pss v hc.2.1 (by omega) b D hq.1 l hq.2 hashed sig _).mp rfl
    rw [hn, he] at this
    exact .checkPss D b l hashed sig _ this

/-- Whatever the ideal party answers, every copy of the kind asked for answers. -/
theorem ideal_serves {k : PrivateKey} (hk : Portable k) {a : PrivateKey} (ha : InUse k (.secret a)) {v : PublicKey}
    (hv : InUse k (.open v)) {σ : Type} {R : RngImpl σ} {fuel : Nat} {rng : Option σ} {q : Ask} (hq : q.Sane) {r : Reply}
    (h : IdealAnswer R fuel rng k.pub.n.val k.pub.e.val k.d.val q r) :
    Serves R fuel rng (.secret a) q r ∨ Serves R fuel rng (.open v) q r := by
  obtain ⟨ca, wa⟩ := inUse_copy hk ha
  obtain ⟨cv, wv⟩ := inUse_copy hk hv
  obtain ⟨hp, hd⟩ := priv_eq ca.1
  obtain ⟨hn, he⟩ := pub_eq hp
  obtain ⟨hn', he'⟩ := pub_eq cv.1
  have hpa := ((checkPublic_ok _).mp (checkPublic_of_validate ca.2.accepted)).1
  have hpv := ((checkPublic_ok _).mp cv.2.2).1
  have oa := ownWidth_eq wa
  have ov := ownWidth_eq wv
  simp only [half] at oa ov
  cases h with
  | open1 ct r h =>
    rw [← hn, ← he, ← hd, oa] at h
    rw [← (C79_pkcs1v15 R fuel rng ca.2.correct ct _).mpr h]
    exact .inl (.open1 a ct)
  | openOaep D MGD label ct r h =>
    rw [← hn, ← hd] at h
    rw [← (C79_oaep R fuel rng ca.2.correct (by omega) D MGD hq label ct _).mpr h]
    exact .inl (.openOaep a D MGD label ct)
  | openOaepTyped D MGD label ct r h =>
    rw [← hn, ← he, ← hd, oa] at h
    rw [← (C79_oaep_typed R fuel rng ca.2.correct D MGD hq label ct _).mpr h]
    exact .inl (.openOaepTyped a D MGD label ct)
  | sign1 S hashed r h =>
    rw [← hn, ← hd] at h
    rw [← (C80_pkcs1v15 R fuel rng ca.2.correct S hashed _).mpr h]
    exact .inl (.sign1 a S hashed)
  | signPss D b l hashed r h =>
    rw [← hn, ← hd] at h
    rw [← (C80_pss R fuel rng ca.2.correct (by omega) b D hq.1 l hq.2 hashed _).mpr h]
    exact .inl (.signPss a D b l hashed)
  | seal1 s hs msg r h =>
    rw [← hn', ← he', ov] at h
    rw [← (C78_pkcs1v15 R fuel s v cv.2.1 msg _).mpr h]
    exact .inr (.seal1 v s hs msg)
  | sealOaep s hs D MGD label msg r h =>
    rw [← hn', ← he', ov] at h
    rw [← (C78_oaep R s v cv.2.1 D MGD hq label msg _).1.mpr h]
    exact .inr (.sealOaep v s hs D MGD label msg)
  | check1 S hashed sig r h =>
    rw [← hn', ← he', ov] at h
    rw [← (C81_pkcs1v15 v cv.2.1 S hashed sig _).mpr h]
    exact .inr (.check1 v S hashed sig)
  | checkPss D b l hashed sig r h =>
    rw [← hn', ← he'] at h
    rw [← (C81_pss v cv.2.1 (by omega) b D hq.1 l hq.2 hashed sig _).mpr h]
    exact .inr (.checkPss v D b l hashed sig)

/-- A copy gives one answer. -/
theorem serves_unique {σ : Type} {R : RngImpl σ} {fuel : Nat} {rng : Option σ} {x : KeyObj} {q : Ask} {r r' : Reply}
    (h : Serves R fuel rng x q r) (h' : Serves R fuel rng x q r') : r = r' := by
  cases h <;> cases h' <;> simp_all

/-- The private and the public half are asked different things. -/
theorem serves_kind {σ : Type} {R : RngImpl σ} {fuel : Nat} {rng rng' : Option σ} {a : PrivateKey} {v : PublicKey} {q : Ask}
    {r r' : Reply} (h : Serves R fuel rng (.secret a) q r) (h' : Serves R fuel rng' (.open v) q r') : False := by
  cases h <;> cases h'

/-! ### C92 -/

theorem session_mono {Q A : Type} {step step' : Nat → Q → A → Prop} {peer : List (Q × A) → Q} {h : List (Q × A)}
    (hs : ∀ i h r, step i (peer h) r → step' i (peer h) r) (hh : Session step peer h) : Session step' peer h := by
  induction hh with
  | start => exact .start
  | turn h r _ ha ih => exact .turn h r ih (hs _ _ _ ha)

/-- C92: turn by turn, the copies in service answer exactly as the ideal party does, whichever exponent `d` undoing the
public one that party was given. -/
theorem C92_turn (k : PrivateKey) (hk : Portable k) (d : Nat) (hd : Inverts k.pub.n.val k.pub.e.val d) {σ : Type}
    (R : RngImpl σ) (fuel : Nat) (rng : Option σ) (q : Ask) (hq : q.Sane) (r : Reply) :
    (∃ x, InUse k x ∧ Serves R fuel rng x q r) ↔ IdealAnswer R fuel rng k.pub.n.val k.pub.e.val d q r := by
  have hx := inverts_unique hk.correct hd
  constructor
  · rintro ⟨x, hx', h⟩
    exact ideal_congr (fun y => (hx y).symm) (serves_ideal hk hx' hq h)
  · intro h
    obtain ⟨⟨a, ha⟩, v, hv⟩ := inUse_exists hk
    rcases ideal_serves hk ha hv hq (ideal_congr hx h) with h | h
    · exact ⟨_, ha, h⟩
    · exact ⟨_, hv, h⟩

/-- C92: what a peer can see of a service, whatever it asks in the light of what it saw, is what it can see of the ideal
party: neither the factors, nor the CRT values, nor the form and the past of the key objects come into it. -/
theorem C92_simulated (k : PrivateKey) (hk : Portable k) (d : Nat) (hd : Inverts k.pub.n.val k.pub.e.val d) {σ : Type}
    (R : RngImpl σ) (fuel : Nat) (gens : Nat → Option σ) (peer : History → Ask) (hq : ∀ h, (peer h).Sane) (h : History) :
    Session (Service R fuel gens k) peer h ↔
      Session (fun i => IdealAnswer R fuel (gens i) k.pub.n.val k.pub.e.val d) peer h :=
  ⟨session_mono fun i h r => (C92_turn k hk d hd R fuel (gens i) _ (hq h) r).mp,
    session_mono fun i h r => (C92_turn k hk d hd R fuel (gens i) _ (hq h) r).mpr⟩

/-- C92: two keys for the same modulus and public exponent cannot be told apart, even if their private exponents or the
order of their factors differ. -/
theorem C92_same_public_same_service (k k' : PrivateKey) (hk : Portable k) (hk' : Portable k')
    (hn : k.pub.n.val = k'.pub.n.val) (he : k.pub.e.val = k'.pub.e.val) {σ : Type} (R : RngImpl σ) (fuel : Nat)
    (gens : Nat → Option σ) (peer : History → Ask) (hq : ∀ h, (peer h).Sane) (h : History) :
    Session (Service R fuel gens k) peer h ↔ Session (Service R fuel gens k') peer h := by
  have hd := inverts_wf hk'.correct
  rw [C92_simulated k' hk' _ hd R fuel gens peer hq h]
  rw [← hn, ← he] at hd ⊢
  exact C92_simulated k hk _ hd R fuel gens peer hq h

/-- Two copies in service give one answer. -/
theorem service_unique {k : PrivateKey} (hk : Portable k) {σ : Type} {R : RngImpl σ} {fuel : Nat} {gens : Nat → Option σ}
    {i : Nat} {q : Ask} (hq : q.Sane) {r r' : Reply} (h : Service R fuel gens k i q r) (h' : Service R fuel gens k i q r') :
    r = r' := by
  have tr : ∀ {r}, Service R fuel gens k i q r → ∀ a v, InUse k (.secret a) → InUse k (.open v) →
      Serves R fuel (gens i) (.secret a) q r ∨ Serves R fuel (gens i) (.open v) q r := by
    rintro r ⟨x, hx, h⟩ a v ha hv
    exact ideal_serves hk ha hv hq (serves_ideal hk hx hq h)
  obtain ⟨⟨a, ha⟩, v, hv⟩ := inUse_exists hk
  rcases tr h a v ha hv with h | h <;> rcases tr h' a v ha hv with h' | h'
  · exact serves_unique h h'
  · exact (serves_kind h h').elim
  · exact (serves_kind h' h).elim
  · exact serves_unique h h'

/-- C92: with the generators given, the whole history is determined by its length: it does not matter which copies
answered. -/
theorem C92_history_determined (k : PrivateKey) (hk : Portable k) {σ : Type} (R : RngImpl σ) (fuel : Nat)
    (gens : Nat → Option σ) (peer : History → Ask) (hq : ∀ h, (peer h).Sane) (h h' : History)
    (hs : Session (Service R fuel gens k) peer h) (hs' : Session (Service R fuel gens k) peer h')
    (hl : h.length = h'.length) : h = h' := by
  induction hs generalizing h' with
  | start =>
    cases hs' with
    | start => rfl
    | turn => simp at hl
  | turn h r _ ha ih =>
    cases hs' with
    | start => simp at hl
    | turn h' r' hb ha' =>
      have hl' : h.length = h'.length := by simpa using hl
      obtain rfl := ih h' hb hl'
      rw [service_unique hk (hq _) ha ha']

theorem draws_det {σ : Type} {R : RngImpl σ} {n : Nat} {s : σ} {o o' : Option σ} {j j' : Nat} (h : Draws R n s o j)
    (h' : Draws R n s o' j') : o = o' := by
  induction h generalizing j' with
  | fail s h =>
    cases h' with
    | fail => rfl
    | good _ r h1 => rw [h] at h1; cases h1
    | again _ r _ _ h1 => rw [h] at h1; cases h1
  | good s r h hr =>
    cases h' with
    | fail _ h1 => rw [h] at h1; cases h1
    | good => rfl
    | again _ r' _ _ h1 h0 hr' =>
      rw [h] at h1
      obtain rfl := Option.some.inj h1
      exact absurd hr (by tauto)
  | again s r o j h h0 hr _ ih =>
    cases h' with
    | fail _ h1 => rw [h] at h1; cases h1
    | good _ r' h1 hr' =>
      rw [h] at h1
      obtain rfl := Option.some.inj h1
      exact absurd hr' (by tauto)
    | again _ r' _ _ h1 _ _ next => exact ih next

/-- If blinding succeeds it cannot be seen. -/
theorem privately_blind {σ α : Type} {R : RngImpl σ} {n fuel : Nat} {rng : Option σ} {x r : Res α}
    (hb : BlindingOk R n fuel rng) (h : Privately R n fuel rng x r) : r = x := by
  cases h with
  | done => rfl
  | fail s j hs hd hj =>
    subst hs
    obtain ⟨s', j', hd', -⟩ := hb
    cases draws_det hd hd'
  | drawing hn =>
    exfalso
    apply hn
    cases rng with
    | none => trivial
    | some s =>
      obtain ⟨s', j', hd', hj⟩ := hb
      exact ⟨_, j', hd', hj⟩

theorem privately_any {σ τ α : Type} {R : RngImpl σ} {R' : RngImpl τ} {n fuel fuel' : Nat} {rng : Option σ}
    {rng' : Option τ} {x r : Res α} (hb : BlindingOk R n fuel rng) (hb' : BlindingOk R' n fuel' rng')
    (h : Privately R n fuel rng x r) : Privately R' n fuel' rng' x r := by
  rw [privately_blind hb h]
  exact .done hb'

theorem ideal_any {σ τ : Type} {R : RngImpl σ} {R' : RngImpl τ} {n e d fuel fuel' : Nat} {rng : Option σ}
    {rng' : Option τ} (hb : BlindingOk R n fuel rng) (hb' : BlindingOk R' n fuel' rng') {q : Ask} (hq : ¬ q.Randomised)
    {r : Reply} (h : IdealAnswer R fuel rng n e d q r) : IdealAnswer R' fuel' rng' n e d q r := by
  have oa : ∀ {D MGD : HashFn} {label ct : Bytes} {r : Res Bytes}, DecryptsOaep R fuel rng n d D MGD label ct r →
      DecryptsOaep R' fuel' rng' n d D MGD label ct r := by
    intro D MGD label ct r h
    cases h with
    | length h => exact .length h
    | tooLarge hl h => exact .tooLarge hl h
    | invalid hl hv em hem hi r hr => exact .invalid hl hv em hem hi _ (privately_any hb hb' hr)
    | message hl hv hlab em m hem hi r hr => exact .message hl hv hlab em m hem hi _ (privately_any hb hb' hr)
  cases h with
  | open1 ct r h =>
    refine .open1 ct r ?_
    cases h with
    | badKey er h => exact .badKey er h
    | tooLong hk h => exact .tooLong hk h
    | tooLarge hk hl h => exact .tooLarge hk hl h
    | invalid hk hl hv em hem hi r hr => exact .invalid hk hl hv em hem hi _ (privately_any hb hb' hr)
    | message hk hl hv em m hem hi r hr => exact .message hk hl hv em m hem hi _ (privately_any hb hb' hr)
  | openOaep D MGD label ct r h => exact .openOaep D MGD label ct r (oa h)
  | openOaepTyped D MGD label ct r h =>
    refine .openOaepTyped D MGD label ct r ?_
    cases h with
    | badKey er h => exact .badKey er h
    | short hk hlab r hr => exact .short hk hlab _ (oa hr)
    | badInput hk hlab h => exact .badInput hk hlab h
    | badLabel hk hlab hl hv r hr => exact .badLabel hk hlab hl hv _ (privately_any hb hb' hr)
  | sign1 S hashed r h =>
    refine .sign1 S hashed r ?_
    cases h with
    | notHashed l hl h => exact .notHashed l hl h
    | tooLong hh h => exact .tooLong hh h
    | done hh em sig hem hs r hr => exact .done hh em sig hem hs _ (privately_any hb hb' hr)
  | signPss => exact absurd trivial hq
  | seal1 => exact absurd trivial hq
  | sealOaep => exact absurd trivial hq
  | check1 S hashed sig r h => exact .check1 S hashed sig r h
  | checkPss D b l hashed sig r h => exact .checkPss D b l hashed sig r h

/-- C92: a peer that asks for decryptions, PKCS#1 v1.5 signatures and verifications only sees nothing of the blinding:
the same histories arise whatever generators are used, or none. -/
theorem C92_blinding_unseen (k : PrivateKey) (hk : Portable k) {σ τ : Type} (R : RngImpl σ) (fuel : Nat)
    (gens : Nat → Option σ) (R' : RngImpl τ) (fuel' : Nat) (gens' : Nat → Option τ)
    (hb : ∀ i, BlindingOk R k.pub.n.val fuel (gens i)) (hb' : ∀ i, BlindingOk R' k.pub.n.val fuel' (gens' i))
    (peer : History → Ask) (hq : ∀ h, (peer h).Sane ∧ ¬ (peer h).Randomised) (h : History) :
    Session (Service R fuel gens k) peer h ↔ Session (Service R' fuel' gens' k) peer h := by
  rw [C92_simulated k hk _ (inverts_wf hk.correct) R fuel gens peer (fun h => (hq h).1),
    C92_simulated k hk _ (inverts_wf hk.correct) R' fuel' gens' peer (fun h => (hq h).1)]
  exact ⟨session_mono fun i h r => ideal_any (hb i) (hb' i) (hq h).2,
    session_mono fun i h r => ideal_any (hb' i) (hb i) (hq h).2⟩

/-- C92: what is asked of the public half needs no private exponent: the ideal party answers the same whatever it
believes `d` to be. -/
theorem C92_public_asks (k : PrivateKey) (hk : Portable k) {σ : Type} (R : RngImpl σ) (fuel : Nat)
    (gens : Nat → Option σ) (peer : History → Ask) (hq : ∀ h, (peer h).Sane ∧ (peer h).Public) (h : History) (d : Nat) :
    Session (Service R fuel gens k) peer h ↔
      Session (fun i => IdealAnswer R fuel (gens i) k.pub.n.val k.pub.e.val d) peer h := by
  rw [C92_simulated k hk _ (inverts_wf hk.correct) R fuel gens peer (fun h => (hq h).1)]
  have tr : ∀ d d' i (h : History) r, IdealAnswer R fuel (gens i) k.pub.n.val k.pub.e.val d (peer h) r →
      IdealAnswer R fuel (gens i) k.pub.n.val k.pub.e.val d' (peer h) r := by
    intro d d' i h r hr
    have hp := (hq h).2
    generalize peer h = q at *
    cases hr with
    | seal1 s hs msg r h1 => exact .seal1 s hs msg r h1
    | sealOaep s hs D MGD label msg r h1 => exact .sealOaep s hs D MGD label msg r h1
    | check1 S hashed sig r h1 => exact .check1 S hashed sig r h1
    | checkPss D b l hashed sig r h1 => exact .checkPss D b l hashed sig r h1
    | _ => exact hp.elim
  exact ⟨session_mono (tr _ _), session_mono (tr _ _)⟩

theorem session_mem {step : Nat → Ask → Reply → Prop} {peer : History → Ask} {h : History} (hs : Session step peer h)
    {q : Ask} {r : Reply} (hm : (q, r) ∈ h) : ∃ i, step i q r := by
  induction hs with
  | start => simp at hm
  | turn h r' _ ha ih =>
    rcases List.mem_append.mp hm with hm | hm
    · exact ih hm
    · obtain ⟨rfl, rfl⟩ := Prod.mk.inj (List.mem_singleton.mp hm)
      exact ⟨_, ha⟩

theorem ciphertext_ok {σ : Type} {x : Res (Bytes × σ)} {ct : Bytes} (h : ciphertext x = .ok ct) :
    ∃ s', x = .ok (ct, s') := by
  cases x with
  | ok y => obtain ⟨a, b⟩ := y; simp only [ciphertext, Res.ok.injEq] at h; subst h; exact ⟨b, rfl⟩
  | err => cases h
  | panic => cases h
  | loop => cases h

/-- C92: within one history, whatever was encrypted to the key and is ever given back for decryption comes out as it went
in, in whichever order and through whichever copies. -/
theorem C92_opened_as_sealed (k : PrivateKey) (hk : Portable k) {σ : Type} (R : RngImpl σ) (fuel : Nat)
    (gens : Nat → Option σ) (hb : ∀ i, BlindingOk R k.pub.n.val fuel (gens i)) (peer : History → Ask) (h : History)
    (hs : Session (Service R fuel gens k) peer h) :
    (∀ msg ct r, (Ask.seal1 msg, Reply.octets (.ok ct)) ∈ h → (Ask.open1 ct, r) ∈ h → r = .octets (.ok msg)) ∧
    (∀ D MGD label msg ct r, 0 < MGD.outLen → 11 ≤ octetLen k.pub.n.val ∨ 5 ≤ D.outLen →
      (Ask.sealOaep D MGD label msg, Reply.octets (.ok ct)) ∈ h → (Ask.openOaep D MGD label ct, r) ∈ h →
      r = .octets (.ok msg)) := by
  constructor
  · intro msg ct r h1 h2
    obtain ⟨i, x, hx, h1⟩ := session_mem hs h1
    obtain ⟨j, y, hy, h2⟩ := session_mem hs h2
    generalize hr : Reply.octets (.ok ct) = r1 at h1
    cases h1 with
    | seal1 v s he =>
      obtain ⟨s', he⟩ := ciphertext_ok (Reply.octets.inj hr).symm
      cases h2 with
      | open1 a =>
        rw [(C90_ciphertexts k hk v a (inUse_journey hx) (inUse_journey hy) R fuel s s' R fuel (gens j) (hb j) msg
          ct).1 he]
  · intro D MGD label msg ct r hM h5 h1 h2
    obtain ⟨i, x, hx, h1⟩ := session_mem hs h1
    obtain ⟨j, y, hy, h2⟩ := session_mem hs h2
    generalize hr : Reply.octets (.ok ct) = r1 at h1
    cases h1 with
    | sealOaep v s he =>
      obtain ⟨s', he⟩ := ciphertext_ok (Reply.octets.inj hr).symm
      cases h2 with
      | openOaep a =>
        rw [(C90_ciphertexts k hk v a (inUse_journey hx) (inUse_journey hy) R fuel s s' R fuel (gens j) (hb j) msg
          ct).2 D MGD label hM h5 he]

theorem emsaPss_room {H mgf : _} {hLen : Nat} {mHash salt em : Bytes} {emBits : Nat}
    (h : emsaPss H mgf hLen mHash salt emBits = some em) : hLen + salt.length + 2 ≤ (emBits + 7) / 8 := by
  unfold emsaPss at h
  by_contra hn
  simp [show (emBits + 7) / 8 < hLen + salt.length + 2 by omega] at h

/-- C92: within one history, whatever the key has signed is found valid whenever it is presented with that signature, by
whichever copies. -/
theorem C92_checked_as_signed (k : PrivateKey) (hk : Portable k) {σ : Type} (R : RngImpl σ) (fuel : Nat)
    (gens : Nat → Option σ) (hb : ∀ i, BlindingOk R k.pub.n.val fuel (gens i)) (peer : History → Ask) (h : History)
    (hs : Session (Service R fuel gens k) peer h) :
    (∀ S hashed sig r, (Ask.sign1 S hashed, Reply.octets (.ok sig)) ∈ h → (Ask.check1 S hashed sig, r) ∈ h →
      r = .verdict (.ok ())) ∧
    (∀ D blinded blinded' saltLen hashed sig r, 0 < D.outLen → D.outLen + saltLen + 2 < 2 ^ 64 →
      (Ask.signPss D blinded saltLen hashed, Reply.octets (.ok sig)) ∈ h →
      (Ask.checkPss D blinded' saltLen hashed sig, r) ∈ h → r = .verdict (.ok ())) := by
  obtain ⟨hst, -⟩ := C90_never_stuck k hk _ (.refl)
  obtain ⟨⟨b, a0, hw, hr⟩, -⟩ := hst k rfl
  have t : Travelled (.secret k) (.open a0.toPublicKey) := ⟨_, _, .refl, .pkcs8 hw hr, .single (.publish a0)⟩
  constructor
  · intro S hashed sig r h1 h2
    obtain ⟨i, x, hx, h1⟩ := session_mem hs h1
    obtain ⟨j, h2⟩ := session_mem hs h2
    generalize hr : Reply.octets (.ok sig) = r1 at h1
    cases h1 with
    | sign1 a =>
      have hv := (C90_signatures k hk _ a t (inUse_journey hx) R fuel).1 S (gens i) hashed sig (hb i)
        (Reply.octets.inj hr).symm
      have hsv : Service R fuel gens k j (.check1 S hashed sig) (.verdict (S.verify a0.toPublicKey hashed sig)) :=
        ⟨_, .inl t, .check1 _ S hashed sig⟩
      rw [service_unique hk (q := .check1 S hashed sig) trivial h2 hsv, hv]
  · intro D blinded blinded' saltLen hashed sig r hD hadd h1 h2
    obtain ⟨i, x, hx, h1⟩ := session_mem hs h1
    obtain ⟨j, h2⟩ := session_mem hs h2
    generalize hr : Reply.octets (.ok sig) = r1 at h1
    cases h1 with
    | signPss a =>
      have he := (Reply.octets.inj hr).symm
      obtain ⟨ca, -⟩ := inUse_copy hk hx
      obtain ⟨hn, -⟩ := pub_eq (priv_eq ca.1).1
      have hpa := ((checkPublic_ok _).mp (checkPublic_of_validate ca.2.accepted)).1
      have hsg := (C80_pss R fuel (gens i) ca.2.correct (by omega) blinded D hD saltLen hadd hashed _).mp he
      generalize hok : (Res.ok sig : Res Bytes) = r2 at hsg
      cases hsg with
      | noRng => cases hok
      | noSalt => cases hok
      | notHashed => cases hok
      | tooLong => cases hok
      | done s hgs salt hf hh em sig' hem hsig r2 hp =>
        obtain rfl := hok
        rw [hn] at hem hp
        have hroom := emsaPss_room hem
        have hlen : salt.length = saltLen := R.fill_len _ _ _ hf
        rw [hgs] at he
        subst hlen
        have hv := (C90_signatures k hk _ a t (inUse_journey hx) R fuel).2.2 D salt s (R.fill s salt.length).2 blinded
          hashed sig hD hh hroom (Prod.ext hf rfl) (by
            intro hbl
            subst hbl
            cases hp with
            | done h => exact h) he blinded'
        have hsv : Service R fuel gens k j (.checkPss D blinded' salt.length hashed sig)
            (.verdict (pss.Pss.verify ⟨blinded', DigestState.new D, salt.length⟩ a0.toPublicKey hashed sig)) :=
          ⟨_, .inl t, .checkPss _ D blinded' salt.length hashed sig⟩
        rw [service_unique hk (q := .checkPss D blinded' salt.length hashed sig) ⟨hD, hadd⟩ h2 hsv, hv]

/-- C92: there is always an answer: every history can be continued by the next turn, provided a generator is at hand when
something is to be encrypted. -/
theorem C92_always_answered (k : PrivateKey) (hk : Portable k) {σ : Type} (R : RngImpl σ) (fuel : Nat)
    (gens : Nat → Option σ) (peer : History → Ask) (h : History) (hs : Session (Service R fuel gens k) peer h)
    (hg : (peer h).Public → (gens h.length).isSome) :
    ∃ r, Session (Service R fuel gens k) peer (h ++ [(peer h, r)]) := by
  obtain ⟨⟨a, ha⟩, v, hv⟩ := inUse_exists hk
  have : ∃ r, Service R fuel gens k h.length (peer h) r := by
    generalize peer h = q at *
    cases q with
    | open1 ct => exact ⟨_, _, ha, .open1 a ct⟩
    | openOaep D MGD label ct => exact ⟨_, _, ha, .openOaep a D MGD label ct⟩
    | openOaepTyped D MGD label ct => exact ⟨_, _, ha, .openOaepTyped a D MGD label ct⟩
    | sign1 S hashed => exact ⟨_, _, ha, .sign1 a S hashed⟩
    | signPss D b l hashed => exact ⟨_, _, ha, .signPss a D b l hashed⟩
    | seal1 msg =>
      obtain ⟨s, hs⟩ := Option.isSome_iff_exists.mp (hg trivial)
      exact ⟨_, _, hv, .seal1 v s hs msg⟩
    | sealOaep D MGD label msg =>
      obtain ⟨s, hs⟩ := Option.isSome_iff_exists.mp (hg trivial)
      exact ⟨_, _, hv, .sealOaep v s hs D MGD label msg⟩
    | check1 S hashed sig => exact ⟨_, _, hv, .check1 v S hashed sig⟩
    | checkPss D b l hashed sig => exact ⟨_, _, hv, .checkPss v D b l hashed sig⟩
  obtain ⟨r, hr⟩ := this
  exact ⟨r, .turn h r hs hr⟩

/-! ### Examples -/

/-- A peer that asks for a signature, has it checked, and gives it back as if it were a ciphertext. -/
def Ex.curious : History → Ask
  | [] => .sign1 .newUnprefixed [1, 2, 3]
  | [(_, .octets (.ok sig))] => .check1 .newUnprefixed [1, 2, 3] sig
  | (_, .octets (.ok sig)) :: _ => .open1 sig
  | _ => .open1 []

theorem Ex.curious_sane (h : History) : (Ex.curious h).Sane ∧ ¬ (Ex.curious h).Randomised := by
  unfold Ex.curious
  split <;> exact ⟨trivial, id⟩

theorem Ex.key_inUse : InUse Ex.key (.secret Ex.key) ∧ InUse Ex.key (.secret Ex.keyNoCrt) ∧ InUse Ex.key (.open Ex.pub) :=
  ⟨.inr ⟨by decide +kernel, .refl⟩, .inr ⟨by decide +kernel, .single (.clear _)⟩,
    .inr ⟨by decide +kernel, .single (.publish _)⟩⟩

/- Its history with a key, the first answer coming from a copy with CRT values and blinding, the last from one without. -/
example : ∃ sig, Session (Service Ex.countingRng 5 (fun i => if i = 0 then some 7 else none) Ex.key) Ex.curious
    [(.sign1 .newUnprefixed [1, 2, 3], .octets (.ok sig)), (.check1 .newUnprefixed [1, 2, 3] sig, .verdict (.ok ())),
      (.open1 sig, .octets (.err .decryption))] := by
  have h : (match pkcs1v15.Pkcs1v15Sign.newUnprefixed.sign Ex.countingRng 5 (some 7) Ex.key [1, 2, 3] with
    | .ok sig => decide (pkcs1v15.Pkcs1v15Sign.newUnprefixed.verify Ex.pub [1, 2, 3] sig = .ok ()) &&
        decide (pkcs1v15.decrypt Ex.countingRng 5 none Ex.keyNoCrt sig = .err .decryption)
    | _ => false) = true := by decide +kernel
  cases hs : pkcs1v15.Pkcs1v15Sign.newUnprefixed.sign Ex.countingRng 5 (some 7) Ex.key [1, 2, 3] with
  | ok sig =>
    rw [hs] at h
    simp only [Bool.and_eq_true, decide_eq_true_eq] at h
    refine ⟨sig, .turn [_, _] _ (.turn [_] _ (.turn [] _ .start ⟨_, Ex.key_inUse.1, ?_⟩) ⟨_, Ex.key_inUse.2.2, ?_⟩)
      ⟨_, Ex.key_inUse.2.1, ?_⟩⟩
    · rw [← hs]; exact .sign1 _ _ _
    · rw [← h.1]; exact .check1 _ _ _ _
    · rw [← h.2]; exact .open1 _ _
  | err e => rw [hs] at h; cases h
  | panic x => rw [hs] at h; cases h
  | loop => rw [hs] at h; cases h

/-- The same modulus and public exponent with another private exponent. -/
def Ex.otherD : PrivateKey :=
  { Ex.keyNoCrt with d := wrap 4 (Ex.dVal + (2 ^ 89 - 2) * (2 ^ 127 - 2) / 6) }

theorem Ex.otherD_portable : Portable Ex.otherD where
  correct :=
    { coherent := rfl
      numbers := by
        have h2 : Ex.otherD.d.val = Ex.dVal + (2 ^ 89 - 2) * (2 ^ 127 - 2) / 6 := by decide +kernel
        rw [h2]
        exact { Ex.numbers with exp := by decide +kernel }
      width := by decide +kernel
      cache := by intro pre h; cases h }
  accepted := by decide +kernel
  two := ⟨_, _, rfl, by decide +kernel, by decide +kernel⟩
  width := by decide +kernel
  below := by decide +kernel

/- The code calls the two keys different, and yet they cannot be told apart in service. -/
example : Ex.key.eq Ex.otherD = false ∧ (∀ h, Session (Service Ex.countingRng 5 (fun _ => none) Ex.key) Ex.curious h ↔
    Session (Service Ex.countingRng 5 (fun _ => none) Ex.otherD) Ex.curious h) :=
  ⟨by decide +kernel, fun h => C92_same_public_same_service _ _ Ex.key_portable Ex.otherD_portable rfl rfl _ _ _ _
    (fun h => (Ex.curious_sane h).1) h⟩

/-- C92: the restriction to the copies in use is needed: a key stored with a spare limb and the copy of it that was written
and read back are told apart by one request. -/
theorem C92_spare_limbs_seen : ∃ k v v', Portable k ∧ Journey (.secret k) (.open v) ∧ Journey (.secret k) (.open v') ∧
    ∃ q r r', q.Sane ∧ r ≠ r' ∧ Serves Ex.countingRng 1 none (.open v) q r ∧
      Serves Ex.countingRng 1 none (.open v') q r' := by
  have h : (match pkcs1v15.Pkcs1v15Sign.newUnprefixed.sign Ex.countingRng 1 none Ex.wideKey [1, 2, 3] with
    | .ok sig => decide (pkcs1v15.Pkcs1v15Sign.newUnprefixed.verify Ex.wideKey.pub [1, 2, 3] sig = .err .verification) &&
        decide (pkcs1v15.Pkcs1v15Sign.newUnprefixed.verify Ex.postedPub [1, 2, 3] sig = .ok ())
    | _ => false) = true := by decide +kernel
  obtain ⟨x, y, h1, t, h2⟩ := Ex.wideKey_travelled
  refine ⟨Ex.wideKey, Ex.wideKey.pub, Ex.postedPub, Ex.wideKey_portable, .single (.publish _),
    (h1.tail (.transport t)).trans h2, ?_⟩
  cases hs : pkcs1v15.Pkcs1v15Sign.newUnprefixed.sign Ex.countingRng 1 none Ex.wideKey [1, 2, 3] with
  | ok sig =>
    rw [hs] at h
    simp only [Bool.and_eq_true, decide_eq_true_eq] at h
    refine ⟨.check1 .newUnprefixed [1, 2, 3] sig, .verdict (.err .verification), .verdict (.ok ()), trivial, by simp,
      ?_, ?_⟩
    · rw [← h.1]; exact .check1 _ _ _ _
    · rw [← h.2]; exact .check1 _ _ _ _
  | err e => rw [hs] at h; cases h
  | panic x => rw [hs] at h; cases h
  | loop => rw [hs] at h; cases h

/-- The curious peer and the example key. -/
example := C92_turn Ex.key Ex.key_portable _ (inverts_wf Ex.key_wf) Ex.countingRng 5 (some 7) _ (Ex.curious_sane []).1
example := C92_simulated Ex.key Ex.key_portable _ (inverts_wf Ex.key_wf) Ex.countingRng 5 (fun _ => some 7) Ex.curious
  (fun h => (Ex.curious_sane h).1)
example := C92_history_determined Ex.key Ex.key_portable Ex.countingRng 5 (fun _ => some 7) Ex.curious
  (fun h => (Ex.curious_sane h).1)
example := C92_blinding_unseen Ex.key Ex.key_portable Ex.countingRng 3 (fun _ => some 5) Ex.countingRng 0 (fun _ => none)
  (fun _ => ⟨6, 1, .good 5 5 (by decide) (Or.inr (by decide)), by decide⟩) (fun _ => trivial) Ex.curious Ex.curious_sane
example := C92_checked_as_signed Ex.key Ex.key_portable Ex.countingRng 3 (fun _ => some 5)
  (fun _ => ⟨6, 1, .good 5 5 (by decide) (Or.inr (by decide)), by decide⟩) Ex.curious

end RSA
