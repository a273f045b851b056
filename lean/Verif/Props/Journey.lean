import Verif.Spec.Journey
import Verif.Props.EndToEnd
import Verif.Props.Pkcs1
import Verif.Props.Serde

/-
C90: a key stays the same key, however often and in whatever way it is written, read, taken apart, cleared or published;
and all its copies work together.
-/
namespace RSA
open BoxedUint Spec

/-! ### What one step does -/

theorem Spec.Portable.coprime {k : PrivateKey} (hk : Portable k) {p q : BoxedUint} (hps : k.primes = [p, q]) :
    Nat.Coprime q.val p.val ∧ 1 < p.val ∧ 1 < q.val := by
  have hN := hk.correct.numbers
  rw [hps] at hN
  have hpp := hN.prime p.val (by simp)
  have hqp := hN.prime q.val (by simp)
  have hne : p.val ≠ q.val := by
    have := hN.nodup
    simp only [List.map_cons, List.map_nil, List.nodup_cons, List.mem_singleton] at this
    exact this.1
  exact ⟨(Nat.coprime_primes hqp hpp).mpr (Ne.symm hne), hpp.one_lt, hqp.one_lt⟩

/-- The two documents of a key. -/
theorem Spec.Portable.documents {k : PrivateKey} (hk : Portable k) {p q : BoxedUint} (hps : k.primes = [p, q]) :
    ∃ qi, qi < p.val ∧ qi * q.val % p.val = 1 ∧
      let key := rsaPrivateKey k.pub.n.val k.pub.e.val k.d.val p.val q.val (k.d.val % (p.val - 1))
        (k.d.val % (q.val - 1)) qi
      key.length ≤ 2 ^ 24 ∧ k.toPkcs8Der = .ok (privateKeyInfo rsaEncryptionAlg key) ∧ k.toPkcs1Der = .ok key := by
  obtain ⟨p', q', hps', hpw, hqw⟩ := hk.two
  obtain ⟨rfl, rfl⟩ : p = p' ∧ q = q' := by
    rw [hps] at hps'; simpa using hps'
  have hd := hk.width
  obtain ⟨hodd, hn, he⟩ := small_of_validate hk.accepted
  obtain ⟨qi, q1, q2, hb⟩ := C55_private_encoding_exact k p q hk.accepted hps hpw hqw hd (hk.coprime hps).1
  have sm : ∀ v, v < 2 ^ k.d.prec → Small v := by
    intro v hv
    refine Small.of_lt (len := 8 * k.d.nlimbs) (by unfold prec at hd; omega) ?_
    rw [pow256]; rwa [show 8 * (8 * k.d.nlimbs) = k.d.prec by unfold prec; ring]
  have lp : p.val < 2 ^ k.d.prec := lt_of_lt_of_le p.isLt (Nat.pow_le_pow_right (by norm_num) hpw)
  have lq : q.val < 2 ^ k.d.prec := lt_of_lt_of_le q.isLt (Nat.pow_le_pow_right (by norm_num) hqw)
  have s0 : Small k.pub.n.val := Small.of_lt (by omega) (lt_octetLen _)
  have s1 := sm _ (lt_of_le_of_lt (Nat.mod_le k.d.val (p.val - 1)) k.d.isLt)
  have s2 := sm _ (lt_of_le_of_lt (Nat.mod_le k.d.val (q.val - 1)) k.d.isLt)
  have s3 : Small qi := sm _ (by omega)
  exact ⟨qi, q1, q2, (rsaPrivateKey_length s0 he (sm _ k.d.isLt) (sm _ lp) (sm _ lq) s1 s2 s3).2, hb,
    toPkcs1Der_of_pkcs8 s0 he (sm _ k.d.isLt) (sm _ lp) (sm _ lq) s1 s2 s3 hb⟩

/-- Every way of writing and reading a private key amounts to the PKCS#8 one. -/
theorem transport_secret {k k' : PrivateKey} (hk : Portable k) (h : Transport (.secret k) (.secret k')) :
    ∃ b, k.toPkcs8Der = .ok b ∧ PrivateKey.fromPkcs8Der b = .ok k' := by
  cases h with
  | pkcs8 w r => exact ⟨_, w, r⟩
  | pkcs1 w r =>
    obtain ⟨p, q, hps, -⟩ := hk.two
    obtain ⟨qi, -, -, hl, h8, h1⟩ := hk.documents hps
    rw [h1] at w
    obtain rfl := Res.ok.inj w
    exact ⟨_, h8, by rw [← (C71_same_as_wrapped _ hl).1]; exact r⟩
  | serde hr w r =>
    unfold PrivateKey.serdeSerialize at w
    rw [Res.bind_eq_ok] at w
    obtain ⟨b, hb, w⟩ := w
    obtain rfl := Res.ok.inj w
    unfold PrivateKey.serdeDeserialize at r
    rw [deserialize_serialize, Res.ok_bind] at r
    exact ⟨b, serdeErr_ok.mp hb, serdeErr_ok.mp r⟩

/-- Every way of writing and reading a public key amounts to the SubjectPublicKeyInfo one. -/
theorem transport_open {k k' : PublicKey} (hv : checkPublic k = .ok ()) (h : Transport (.open k) (.open k')) :
    ∃ b, k.toPublicKeyDer = .ok b ∧ PublicKey.fromPublicKeyDer b = .ok k' := by
  obtain ⟨hn, he⟩ := public_small hv
  cases h with
  | spki w r => exact ⟨_, w, r⟩
  | pkcs1Public w r =>
    rw [toPkcs1Der_public hn he] at w
    obtain rfl := Res.ok.inj w
    exact ⟨_, toPublicKeyDer_eq k hn he, by rw [← (C71_same_as_wrapped _ (rsaPublicKey_length hn he)).2]; exact r⟩
  | serdePublic hr w r =>
    unfold PublicKey.serdeSerialize at w
    rw [Res.bind_eq_ok] at w
    obtain ⟨b, hb, w⟩ := w
    obtain rfl := Res.ok.inj w
    unfold PublicKey.serdeDeserialize at r
    rw [deserialize_serialize, Res.ok_bind] at r
    exact ⟨b, serdeErr_ok.mp hb, serdeErr_ok.mp r⟩

/-- Equality of keys is equality of their numbers, hence an equivalence. -/
theorem priv_eq_trans {a b c : PrivateKey} (h1 : a.eq b = true) (h2 : b.eq c = true) : a.eq c = true := by
  rw [C33_eq_distinguishes] at *
  exact ⟨h1.1.trans h2.1, h1.2.1.trans h2.2.1, h1.2.2.1.trans h2.2.2.1, h1.2.2.2.trans h2.2.2.2⟩

theorem priv_eq_symm {a b : PrivateKey} (h : a.eq b = true) : b.eq a = true := by
  rw [C33_eq_distinguishes] at *
  exact ⟨h.1.symm, h.2.1.symm, h.2.2.1.symm, h.2.2.2.symm⟩

theorem pub_eq_intro {a b : PublicKey} (hn : a.n.val = b.n.val) (he : a.e.val = b.e.val) : a.eq b = true := by
  unfold PublicKey.eq beq
  simp [hn, he]

theorem pub_eq_trans {a b c : PublicKey} (h1 : a.eq b = true) (h2 : b.eq c = true) : a.eq c = true :=
  pub_eq_intro ((pub_eq h1).1.trans (pub_eq h2).1) ((pub_eq h1).2.trans (pub_eq h2).2)

/-- A private key read back is the same key and may travel on. -/
theorem portable_decoded {k k' : PrivateKey} (hk : Portable k) {b : Bytes} (w : k.toPkcs8Der = .ok b)
    (r : PrivateKey.fromPkcs8Der b = .ok k') : k'.eq k = true ∧ Portable k' ∧ NoSpareLimbs k'.pub := by
  obtain ⟨p, q, hps, hpw, hqw⟩ := hk.two
  obtain ⟨h1, h2, h3, -, h5⟩ := (C36_private_round_trip_partial k p q hk.accepted hps hpw hqw hk.width).2 b k' w r
  have hv := (C33_eq_distinguishes k' k).mp h1
  obtain ⟨i, hi, h⟩ := fromPkcs8Der_ok r
  obtain ⟨-, n, e, d, p', q', dp, dq, qi, nOdd, -, hno, h0, -, -, -, hc⟩ := tryFromInfo_ok h
  obtain ⟨g1, -, -, g4, g5, -⟩ := PrivateKey.fromComponents_ok (by simp) hc
  obtain ⟨c1, -⟩ := (checkPublic_ok _).mp (checkPublic_of_validate h2)
  have hl : k'.d.nlimbs = k'.pub.n.nlimbs := by rw [g4, g1, hno]; rfl
  refine ⟨h1, ⟨h5 hk.correct, h2, ⟨_, _, g5, ?_, ?_⟩, ?_, ?_⟩, decoded_noSpare r⟩
  · rw [g4]; exact le_rfl
  · rw [g4]; exact le_rfl
  · unfold prec at c1 ⊢; omega
  · rw [hv.2.2.1, hv.1]; exact hk.below

/-- The same numbers, in the same storage, with other CRT values. -/
theorem portable_cache {k k' : PrivateKey} (hk : Portable k) (h1 : k'.pub = k.pub) (h2 : k'.d = k.d)
    (h3 : k'.primes = k.primes) (hwf : WellFormed k') : k'.eq k = true ∧ Portable k' := by
  refine ⟨by rw [C33_eq_distinguishes, h1, h2, h3]; simp, hwf, ?_, ?_, ?_, ?_⟩
  · have := hk.accepted
    unfold PrivateKey.validate at this ⊢
    rw [h1, h2, h3]; exact this
  · rw [h2, h3]; exact hk.two
  · rw [h2]; exact hk.width
  · rw [h1, h2]; exact hk.below

theorem Spec.Portable.limbs {k : PrivateKey} (hk : Portable k) : ∀ p ∈ k.primes, p.nlimbs ≤ k.d.nlimbs := by
  obtain ⟨p, q, hps, hpw, hqw⟩ := hk.two
  intro x hx
  rw [hps] at hx
  unfold prec at hpw hqw
  rcases List.mem_cons.mp hx with rfl | hx
  · omega
  · obtain rfl : x = q := by simpa using hx
    omega

/-- Putting a key together again from its own parts. -/
theorem portable_rebuilt {k k' : PrivateKey} (hk : Portable k) {n : OddUint} (hn : n.toBoxedUint = k.pub.n)
    (h : PrivateKey.fromComponents n k.pub.e k.d k.primes = .ok k') :
    k'.eq k = true ∧ Portable k' ∧ k'.pub = k.pub := by
  obtain ⟨p, q, hps, -⟩ := hk.two
  have hne : k.primes ≠ [] := by rw [hps]; simp
  obtain ⟨g1, g2, g3, g4, g5, -⟩ := PrivateKey.fromComponents_ok hne h
  have hN := hk.correct.numbers
  have hpub : k'.pub = k.pub := by
    have hc := hk.correct.coherent
    have h3 : k'.pub.nParams = k.pub.nParams := by
      rw [g3]
      cases hm : k.pub.nParams with
      | mk m =>
        rw [hm] at hc
        congr 1
        cases n; cases m
        simp only at hn hc
        subst hn; subst hc; rfl
    have h1 : k'.pub.n = k.pub.n := g1.trans hn
    cases hp : k.pub with
    | mk a b c =>
      cases hp' : k'.pub with
      | mk a' b' c' =>
        rw [hp, hp'] at h1 h3
        rw [hp, hp'] at g2
        simp only at h1 h3 g2
        rw [h1, h3, g2]
  have hwf : WellFormed k' := PrivateKey.fromComponents_wf h
    (fun p hp => hN.prime _ (List.mem_map_of_mem hp)) hN.nodup hne (by rw [hn]; exact hN.prod)
    (by rw [hn]; exact hk.correct.width)
  obtain ⟨a, b⟩ := portable_cache hk hpub g4 g5 hwf
  exact ⟨a, b, hpub⟩

/-- Public keys made again from their own numbers. -/
theorem open_rebuilt {k k' : PublicKey} (hc : k.Coherent)
    (h : PublicKey.new k.n k.e = .ok k' ∨ PublicKey.newUnchecked k.n k.e = .ok k') : k' = k := by
  have key : ∀ o : OddUint, o.toBoxedUint = k.n → (⟨k.n, k.e, ⟨o⟩⟩ : PublicKey) = k := by
    intro o ho
    unfold PublicKey.Coherent at hc
    cases k with
    | mk n e par =>
      cases par with
      | mk m =>
        cases o; cases m
        simp only at ho hc
        subst ho; subst hc; rfl
  have hnz : ∀ x, expectNonZero k.n = .ok x → x = k.n := by
    intro x hx
    unfold expectNonZero at hx
    cases hz : k.n.nonZero with
    | none => rw [hz] at hx; cases hx
    | some y =>
      rw [hz] at hx
      obtain rfl := Res.ok.inj hx
      unfold nonZero at hz
      split at hz
      · cases hz
      · exact (Option.some.inj hz).symm
  rcases h with h | h
  · obtain ⟨o, h1, h2⟩ : ∃ o : OddUint, o.toBoxedUint = k.n ∧ k' = ⟨k.n, k.e, ⟨o⟩⟩ := by
      unfold PublicKey.new PublicKey.newWithMaxSize at h
      rw [Res.bind_eq_ok] at h
      obtain ⟨-, -, h⟩ := h
      cases ho : OddUint.new k.n with
      | none => rw [ho] at h; cases h
      | some o =>
        rw [ho] at h
        simp only at h
        rw [Res.bind_eq_ok] at h
        obtain ⟨x, hx, h⟩ := h
        obtain rfl := hnz x hx
        unfold OddUint.new at ho
        split at ho
        · exact ⟨o, by rw [← Option.some.inj ho], (Res.ok.inj h).symm⟩
        · cases ho
    rw [h2, key o h1]
  · unfold PublicKey.newUnchecked at h
    cases ho : OddUint.new k.n with
    | none => rw [ho] at h; cases h
    | some o =>
      rw [ho] at h
      simp only at h
      rw [Res.bind_eq_ok] at h
      obtain ⟨x, hx, h⟩ := h
      obtain rfl := hnz x hx
      unfold OddUint.new at ho
      split at ho
      · rw [← Res.ok.inj h]
        exact key o (by rw [← Option.some.inj ho])
      · cases ho

/-- A decoded public key has no spare limbs. -/
theorem decoded_open {k k' : PublicKey} (hc : k.Coherent) (hv : checkPublic k = .ok ()) {b : Bytes}
    (w : k.toPublicKeyDer = .ok b) (r : PublicKey.fromPublicKeyDer b = .ok k') :
    k'.eq k = true ∧ k'.Coherent ∧ checkPublic k' = .ok () ∧ NoSpareLimbs k' := by
  obtain ⟨h1, k2, h2, h3, h4, h5, -⟩ := C37_public_round_trip k hc hv
  rw [h1] at w
  obtain rfl := Res.ok.inj w
  rw [h2] at r
  obtain rfl := Res.ok.inj r
  refine ⟨h3, h4, h5, ?_⟩
  obtain ⟨a, alg, n, e, -, -, hnew⟩ := fromPublicKeyDer_ok h2
  have hn : k2.n = stored n := (publicKey_new_some hnew).2.1
  have h0 : n ≠ 0 := by
    have := coherent_pos h4
    rw [hn, stored_val] at this; omega
  unfold NoSpareLimbs
  rw [hn, stored_nlimbs h0, stored_val, limbsFor_octets]
  have : 0 < n.size := Nat.size_pos.mpr (Nat.pos_of_ne_zero h0)
  unfold Spec.octetLen
  omega

/-- The public half of a key object. -/
def half : KeyObj → PublicKey
  | .secret k => k.pub
  | .open k => k

/-- One step from a copy leads to a copy; storage without spare limbs is kept, and any transport leads to it. -/
theorem move_copy {k : PrivateKey} {x y : KeyObj} (hx : CopyOf k x) (h : Move x y) :
    CopyOf k y ∧ (NoSpareLimbs (half x) → NoSpareLimbs (half y)) := by
  cases h with
  | transport t =>
    cases x with
    | secret a =>
      cases y with
      | secret b =>
        obtain ⟨b', w, r⟩ := transport_secret hx.2 t
        obtain ⟨h1, h2, h3⟩ := portable_decoded hx.2 w r
        exact ⟨⟨priv_eq_trans h1 hx.1, h2⟩, fun _ => h3⟩
      | «open» b => cases t
    | «open» a =>
      cases y with
      | secret b => cases t
      | «open» b =>
        obtain ⟨b', w, r⟩ := transport_open hx.2.2 t
        obtain ⟨h1, h2, h3, h4⟩ := decoded_open hx.2.1 hx.2.2 w r
        exact ⟨⟨pub_eq_trans h1 hx.1, h2, h3⟩, fun _ => h4⟩
  | @precompute a b hp =>
    obtain ⟨pre, h1, h2⟩ := precompute_wf hx.2.correct hx.2.limbs
    rw [h1] at hp
    obtain rfl := Res.ok.inj hp
    obtain ⟨h3, h4⟩ := portable_cache hx.2 (k' := { a with precomputed := some pre }) rfl rfl rfl h2
    exact ⟨⟨priv_eq_trans h3 hx.1, h4⟩, id⟩
  | clear a =>
    obtain ⟨h3, h4⟩ := portable_cache hx.2 (k' := a.clearPrecomputed) rfl rfl rfl (wf_without_cache hx.2.correct)
    exact ⟨⟨priv_eq_trans h3 hx.1, h4⟩, id⟩
  | rebuild n hn hr =>
    obtain ⟨h1, h2, h3⟩ := portable_rebuilt hx.2 hn hr
    refine ⟨⟨priv_eq_trans h1 hx.1, h2⟩, fun h => ?_⟩
    unfold half at h ⊢
    simp only at h ⊢
    rw [h3]; exact h
  | publish a =>
    exact ⟨⟨(priv_eq hx.1).1, hx.2.correct.coherent, checkPublic_of_validate hx.2.accepted⟩, id⟩
  | rebuildPublic hr =>
    obtain rfl := open_rebuilt hx.2.1 hr
    exact ⟨hx, id⟩

theorem transport_noSpare {k : PrivateKey} {x y : KeyObj} (hx : CopyOf k x) (t : Transport x y) :
    NoSpareLimbs (half y) := by
  cases x with
  | secret a =>
    cases y with
    | secret b =>
      obtain ⟨b', w, r⟩ := transport_secret hx.2 t
      exact (portable_decoded hx.2 w r).2.2
    | «open» b => cases t
  | «open» a =>
    cases y with
    | secret b => cases t
    | «open» b =>
      obtain ⟨b', w, r⟩ := transport_open hx.2.2 t
      exact (decoded_open hx.2.1 hx.2.2 w r).2.2.2

theorem journey_copy {k : PrivateKey} {x y : KeyObj} (hx : CopyOf k x) (h : Journey x y) :
    CopyOf k y ∧ (NoSpareLimbs (half x) → NoSpareLimbs (half y)) := by
  induction h with
  | refl => exact ⟨hx, id⟩
  | tail _ hm ih =>
    obtain ⟨h1, h2⟩ := move_copy ih.1 hm
    exact ⟨h1, fun h => h2 (ih.2 h)⟩

theorem copy_self {k : PrivateKey} (hk : Portable k) : CopyOf k (.secret k) :=
  ⟨by rw [C33_eq_distinguishes]; simp, hk⟩

theorem travelled_noSpare {k : PrivateKey} (hk : Portable k) {y : KeyObj} (h : Travelled (.secret k) y) :
    CopyOf k y ∧ NoSpareLimbs (half y) := by
  obtain ⟨a, b, h1, t, h2⟩ := h
  have ha := (journey_copy (copy_self hk) h1).1
  have hb := (move_copy ha (.transport t)).1
  obtain ⟨h3, h4⟩ := journey_copy hb h2
  exact ⟨h3, h4 (transport_noSpare ha t)⟩

/-! ### The claims -/

/-- C90: whatever happens to a correct key in its life, in any order and number of steps, the object at the end is a copy
of it: it compares equal, is correct and accepted by validation (or, if published, is the public half). -/
theorem C90_journey (k : PrivateKey) (hk : Portable k) (x : KeyObj) (h : Journey (.secret k) x) : CopyOf k x :=
  (journey_copy (copy_self hk) h).1

/-- C90, in numbers: the copy has the same modulus, public exponent and, unless published, private exponent and factors
in the same order. -/
theorem C90_same_numbers (k : PrivateKey) (hk : Portable k) :
    (∀ a, Journey (.secret k) (.secret a) → a.pub.n.val = k.pub.n.val ∧ a.pub.e.val = k.pub.e.val ∧ a.d.val = k.d.val ∧
      a.primes.map BoxedUint.val = k.primes.map BoxedUint.val) ∧
    (∀ a, Journey (.secret k) (.open a) → a.n.val = k.pub.n.val ∧ a.e.val = k.pub.e.val) :=
  ⟨fun a h => (C33_eq_distinguishes a k).mp (C90_journey k hk _ h).1, fun _ h => pub_eq (C90_journey k hk _ h).1⟩

/-- C90: no step of such a journey can fail: from any copy, every format can be written and what was written can be
read, CRT values can be computed, and the parts can be put together again. -/
theorem C90_never_stuck (k : PrivateKey) (hk : Portable k) (x : KeyObj) (h : Journey (.secret k) x) :
    (∀ a, x = .secret a →
      (∃ b a', a.toPkcs8Der = .ok b ∧ PrivateKey.fromPkcs8Der b = .ok a') ∧
      (∃ b a', a.toPkcs1Der = .ok b ∧ PrivateKey.fromPkcs1Der b = .ok a') ∧
      (∀ hr, ∃ d a', a.serdeSerialize hr = .ok d ∧ PrivateKey.serdeDeserialize hr d = .ok a') ∧
      (∃ a', a.precompute = .ok a') ∧
      (∀ n : OddUint, n.toBoxedUint = a.pub.n → ∃ a', PrivateKey.fromComponents n a.pub.e a.d a.primes = .ok a')) ∧
    (∀ a, x = .open a →
      (∃ b a', a.toPublicKeyDer = .ok b ∧ PublicKey.fromPublicKeyDer b = .ok a') ∧
      (∃ b a', a.toPkcs1Der = .ok b ∧ PublicKey.fromPkcs1Der b = .ok a') ∧
      (∀ hr, ∃ d a', a.serdeSerialize hr = .ok d ∧ PublicKey.serdeDeserialize hr d = .ok a') ∧
      PublicKey.new a.n a.e = .ok a ∧ PublicKey.newUnchecked a.n a.e = .ok a) := by
  have hx := C90_journey k hk x h
  constructor
  · rintro a rfl
    obtain ⟨p, q, hps, hpw, hqw⟩ := hx.2.two
    have c := hx.2
    obtain ⟨b, a', h1, h2, -⟩ := C36_well_formed_round_trip a p q c.correct c.accepted hps hpw hqw c.width c.below
    obtain ⟨b1, a1, h3, h4, -⟩ := C71_private_round_trip a p q c.correct c.accepted hps hpw hqw c.width c.below
    refine ⟨⟨b, a', h1, h2⟩, ⟨b1, a1, h3, h4⟩, fun hr => ?_, ?_, fun n hn => ?_⟩
    · obtain ⟨-, d, a2, -, -, h5, h6, -⟩ := (C63_keys hr).2.1 a p q c.correct c.accepted hps hpw hqw c.width c.below
      exact ⟨d, a2, h5, h6⟩
    · obtain ⟨pre, h5, -⟩ := precompute_wf c.correct c.limbs
      exact ⟨_, h5⟩
    · rw [hps]
      have hl := c.limbs
      rw [hps] at hl
      refine PrivateKey.fromComponents_ok_of_validate (le_trans (coherent_nlimbs_pos c.correct.coherent) c.correct.width)
        (hl p (by simp)) (hl q (by simp)) ?_
      have := c.accepted
      unfold PrivateKey.validate checkPublic at this ⊢
      rw [hn, ← hps]; exact this
  · rintro a rfl
    obtain ⟨-, hc, hv⟩ := hx
    obtain ⟨h1, a1, h2, -⟩ := C37_public_round_trip a hc hv
    obtain ⟨h3, a2, h4, -⟩ := C71_public_round_trip a hc hv
    have hodd : a.n.val % 2 = 1 := ((checkPublic_ok _).mp hv).2.2.1
    have hnew : PublicKey.new a.n a.e = .ok a := by
      have := publicKey_new_ok a.n a.e hodd hv
      rw [this]
      exact congrArg Res.ok (open_rebuilt hc (Or.inl this))
    refine ⟨⟨_, a1, h1, h2⟩, ⟨_, a2, h3, h4⟩, fun hr => ?_, hnew, ?_⟩
    · obtain ⟨-, d, a3, -, -, h5, h6, -⟩ := (C63_keys hr).1 a hc hv
      exact ⟨d, a3, h5, h6⟩
    · obtain ⟨a4, h7, -⟩ := (C26_new_unchecked a.n a.e).1 hodd
      rw [h7]
      exact congrArg Res.ok (open_rebuilt hc (Or.inr h7))

/-- C90: all documents of one format are the same, and all objects read from documents, whatever their formats, are the
same object to the last limb. -/
theorem C90_one_form (k : PrivateKey) (hk : Portable k) (x y x' y' : KeyObj) (hx : Journey (.secret k) x)
    (hy : Journey (.secret k) y) (tx : Transport x x') (ty : Transport y y') :
    (∀ a b, x = .secret a → y = .secret b → a.toPkcs8Der = b.toPkcs8Der ∧ a.toPkcs1Der = b.toPkcs1Der ∧ x' = y') ∧
    (∀ a b, x = .open a → y = .open b → a.toPublicKeyDer = b.toPublicKeyDer ∧ a.toPkcs1Der = b.toPkcs1Der ∧ x' = y') := by
  have cx := C90_journey k hk x hx
  have cy := C90_journey k hk y hy
  constructor
  · rintro a b rfl rfl
    have he := (C33_eq_distinguishes a b).mp (priv_eq_trans cx.1 (priv_eq_symm cy.1))
    obtain ⟨p, q, hps, -⟩ := cx.2.two
    obtain ⟨p', q', hps', -⟩ := cy.2.two
    obtain ⟨hp, hq⟩ : p.val = p'.val ∧ q.val = q'.val := by
      have := he.2.2.2
      rw [hps, hps'] at this
      simpa using this
    obtain ⟨i, i1, i2, -, i8, i9⟩ := cx.2.documents hps
    obtain ⟨j, j1, j2, -, j8, j9⟩ := cy.2.documents hps'
    obtain ⟨hco, hp1, -⟩ := cx.2.coprime hps
    have hij : i = j := by
      rw [← hp, ← hq] at j2
      rw [← hp] at j1
      have : i * q.val ≡ j * q.val [MOD p.val] := by unfold Nat.ModEq; rw [i2, j2]
      have := Nat.ModEq.cancel_right_of_coprime (Nat.coprime_comm.mp hco) this
      unfold Nat.ModEq at this
      rwa [Nat.mod_eq_of_lt i1, Nat.mod_eq_of_lt j1] at this
    have h8 : a.toPkcs8Der = b.toPkcs8Der := by rw [i8, j8, he.1, he.2.1, he.2.2.1, hp, hq, hij]
    refine ⟨h8, by rw [i9, j9, he.1, he.2.1, he.2.2.1, hp, hq, hij], ?_⟩
    cases x' with
    | secret c =>
      cases y' with
      | secret d =>
        obtain ⟨u, w1, r1⟩ := transport_secret cx.2 tx
        obtain ⟨v, w2, r2⟩ := transport_secret cy.2 ty
        rw [h8, w2] at w1
        obtain rfl := Res.ok.inj w1
        rw [r2] at r1
        rw [Res.ok.inj r1]
      | «open» d => cases ty
    | «open» c => cases tx
  · rintro a b rfl rfl
    obtain ⟨hn, he⟩ := pub_eq cx.1
    obtain ⟨hn', he'⟩ := pub_eq cy.1
    have h8 : a.toPublicKeyDer = b.toPublicKeyDer := by
      rw [(C37_public_round_trip a cx.2.1 cx.2.2).1, (C37_public_round_trip b cy.2.1 cy.2.2).1, hn, hn', he, he']
    refine ⟨h8, ?_, ?_⟩
    · rw [(C71_public_round_trip a cx.2.1 cx.2.2).1, (C71_public_round_trip b cy.2.1 cy.2.2).1, hn, hn', he, he']
    cases x' with
    | secret c => cases tx
    | «open» c =>
      cases y' with
      | secret d => cases ty
      | «open» d =>
        obtain ⟨u, w1, r1⟩ := transport_open cx.2.2 tx
        obtain ⟨v, w2, r2⟩ := transport_open cy.2.2 ty
        rw [h8, w2] at w1
        obtain rfl := Res.ok.inj w1
        rw [r2] at r1
        rw [Res.ok.inj r1]

/-- Two equal correct keys make the same typed PSS signatures. -/
theorem equal_sign_pss {a b : PrivateKey} (ha : WellFormed a) (hb : WellFormed b) (h : a.eq b = true)
    (pa : a.pub.n.prec < 2 ^ 32) (pb : b.pub.n.prec < 2 ^ 32) (D : HashFn) (hpos : 0 < D.outLen) {l : Nat}
    (hl : D.outLen + l + 2 < 2 ^ 64) {σ : Type} (R : RngImpl σ) (fuel : Nat) (s : σ) (blind : Bool)
    (hbl : blind = true → BlindingOk R a.pub.n.val fuel (some (R.fill s l).2)) (hashed : Bytes)
    (hh : hashed.length = D.outLen) :
    pss.signDigest R fuel D s blind a hashed l = pss.signDigest R fuel D s blind b hashed l ∧
    pss.sign R fuel s blind a hashed l (DigestState.new D) = pss.sign R fuel s blind b hashed l (DigestState.new D) := by
  rw [pss.signDigest_agree, pss.signDigest_agree, and_self]
  unfold pss.sign RngImpl.tryFill
  cases hf : R.fill s l with
  | mk o s' =>
    cases o with
    | none => rfl
    | some salt =>
      have hlen : salt.length = l := R.fill_len s l salt (by rw [hf])
      simp only [Res.ok_bind]
      refine (C59_equal_private_keys ha hb h R fuel _ ?_).2.1 D hashed salt hpos pa pb hh (by rw [hlen]; exact hl)
      cases blind with
      | false => exact trivial
      | true => have := hbl rfl; rw [hf] at this; exact this

/-- The private part of one copy with the public part of another. -/
theorem hybrid_wf {a : PrivateKey} {v : PublicKey} (ha : WellFormed a) (hv : v.Coherent) (hs : NoSpareLimbs v)
    (h : v.eq a.pub = true) : WellFormed { a with pub := v } ∧ PrivateKey.eq { a with pub := v } a = true := by
  obtain ⟨hn, he⟩ := pub_eq h
  refine ⟨⟨hv, ?_, ?_, ?_⟩, ?_⟩
  · show RsaNumbers v.n.val v.e.val a.d.val _
    rw [hn, he]; exact ha.numbers
  · show v.n.nlimbs ≤ a.d.nlimbs
    refine le_trans ?_ ha.width
    have h1 := coherent_pos hv
    have h2 : v.n.val < 2 ^ (64 * a.pub.n.nlimbs) := by rw [hn]; exact a.pub.n.isLt
    have h3 := Nat.size_le.mpr h2
    have h4 := noSpare_limbs h1 hs
    rw [size_eq_octetLen] at h4
    unfold limbsFor Spec.octetLen at h4
    have := coherent_nlimbs_pos ha.coherent
    omega
  · intro pre hp
    obtain ⟨h1, h2, h3, h4⟩ := ha.cache pre hp
    exact ⟨h1, h2, h3, h4⟩
  · rw [C33_eq_distinguishes]
    exact ⟨hn, he, rfl, rfl⟩

/-- C90: any two private copies sign and decrypt alike, whatever their journeys. -/
theorem C90_same_output (k : PrivateKey) (hk : Portable k) (a b : PrivateKey) (ha : Journey (.secret k) (.secret a))
    (hb : Journey (.secret k) (.secret b)) {σ : Type} (R : RngImpl σ) (fuel : Nat) (rng : Option σ)
    (hbl : BlindingOk R k.pub.n.val fuel rng) :
    (∀ (S : pkcs1v15.Pkcs1v15Sign) hashed, S.sign R fuel rng a hashed = S.sign R fuel rng b hashed) ∧
    (∀ (D : HashFn) hashed salt, 0 < D.outLen → hashed.length = D.outLen → D.outLen + salt.length + 2 < 2 ^ 64 →
      pss.signPssWithSalt R fuel rng a hashed salt (DigestState.new D) =
        pss.signPssWithSalt R fuel rng b hashed salt (DigestState.new D)) ∧
    (∀ ct, ct.length = octetLen k.pub.n.val → pkcs1v15.decrypt R fuel rng a ct = pkcs1v15.decrypt R fuel rng b ct) ∧
    (∀ ct (P : oaep.Oaep), P.decrypt R fuel rng a ct = P.decrypt R fuel rng b ct) := by
  have ca := C90_journey k hk _ ha
  have cb := C90_journey k hk _ hb
  have na := (pub_eq (priv_eq ca.1).1).1
  have nb := (pub_eq (priv_eq cb.1).1).1
  have va := checkPublic_of_validate ca.2.accepted
  have vb := checkPublic_of_validate cb.2.accepted
  have pa := ((checkPublic_ok _).mp va).1
  have pb := ((checkPublic_ok _).mp vb).1
  obtain ⟨h1, h2, h3, h4⟩ := C59_equal_private_keys ca.2.correct cb.2.correct
    (priv_eq_trans ca.1 (priv_eq_symm cb.1)) R fuel rng (by rw [na]; exact hbl)
  have fit : ∀ c : PrivateKey, c.pub.n.val = k.pub.n.val → octetLen k.pub.n.val ≤ 8 * c.pub.n.nlimbs := by
    intro c hc
    have := Nat.size_le.mpr c.pub.n.isLt
    rw [hc] at this
    unfold octetLen; omega
  exact ⟨h1, fun D hashed salt hD hh hl => h2 D hashed salt hD (by omega) (by omega) hh hl,
    fun ct hl => h3 ct va vb (hl ▸ fit a na) (hl ▸ fit b nb), h4⟩

/-- C90: whatever is encrypted to any public copy is decrypted by any private copy. -/
theorem C90_ciphertexts (k : PrivateKey) (hk : Portable k) (v : PublicKey) (a : PrivateKey)
    (hv : Journey (.secret k) (.open v)) (ha : Journey (.secret k) (.secret a)) {σ τ : Type} (R : RngImpl σ)
    (fuel : Nat) (s s' : σ) (R' : RngImpl τ) (fuel' : Nat) (rng : Option τ)
    (hb : BlindingOk R' k.pub.n.val fuel' rng) (msg ct : Bytes) :
    (pkcs1v15.encrypt R fuel s v msg = .ok (ct, s') → pkcs1v15.decrypt R' fuel' rng a ct = .ok msg) ∧
    (∀ (D MGD : HashFn) (label : Option Bytes), 0 < MGD.outLen → 11 ≤ octetLen k.pub.n.val ∨ 5 ≤ D.outLen →
      oaep.encrypt R s v msg (DigestState.new D) (DigestState.new MGD) label = .ok (ct, s') →
      oaep.decrypt R' fuel' rng a ct (DigestState.new D) (DigestState.new MGD) label = .ok msg) := by
  have ca := C90_journey k hk _ ha
  have cv := C90_journey k hk _ hv
  have na := (pub_eq (priv_eq ca.1).1).1
  have he : v.eq a.pub = true := pub_eq_trans cv.1 (priv_eq (priv_eq_symm ca.1)).1
  obtain ⟨h1, h2, -⟩ := C59_equal_public_keys cv.2.1 ca.2.correct.coherent he cv.2.2
    (checkPublic_of_validate ca.2.accepted)
  refine ⟨fun h => ?_, fun D MGD label hM h5 h => ?_⟩
  · rw [h1] at h
    exact C06_encryption_round_trip R fuel s s' ca.2.correct msg ct h R' fuel' rng (by rw [na]; exact hb)
  · rw [h2 R s msg D MGD label hM] at h
    exact (C14_oaep_round_trip R s s' ca.2.correct D MGD hM label (by rw [na]; exact h5) msg ct h R' fuel' rng
      (by rw [na]; exact hb)).1

/-- C90: whatever any private copy signs, every public copy that has once been written and read accepts, however the
original stores its modulus. (Without that a spare limb makes the key reject even its own signatures: C49, C50, C66.) -/
theorem C90_signatures (k : PrivateKey) (hk : Portable k) (v : PublicKey) (a : PrivateKey)
    (hv : Travelled (.secret k) (.open v)) (ha : Journey (.secret k) (.secret a)) {σ : Type} (R : RngImpl σ)
    (fuel : Nat) :
    (∀ (S : pkcs1v15.Pkcs1v15Sign) (rng : Option σ) hashed sig, BlindingOk R k.pub.n.val fuel rng →
      S.sign R fuel rng a hashed = .ok sig → S.verify v hashed sig = .ok ()) ∧
    (∀ (D : HashFn) saltLen (s : σ) msg sg, 0 < D.outLen → D.outLen + saltLen + 2 < 2 ^ 64 →
      pss.SigningKey.trySignWithRng (D := D) R fuel s ⟨a, saltLen⟩ msg = .ok sg ∨
        BlindingOk R k.pub.n.val fuel (some (R.fill s saltLen).2) ∧
        pss.BlindedSigningKey.trySignWithRng (D := D) R fuel s ⟨a, saltLen⟩ msg = .ok sg →
      (pss.VerifyingKey.newWithSaltLen (D := D) v saltLen).verify msg sg = .ok ()) ∧
    (∀ (D : HashFn) salt (s s' : σ) blinded hashed sig, 0 < D.outLen → hashed.length = D.outLen →
      D.outLen + salt.length + 2 ≤ (k.pub.n.val.size - 1 + 7) / 8 → R.fill s salt.length = (some salt, s') →
      (blinded = true → BlindingOk R k.pub.n.val fuel (some s')) →
      pss.Pss.sign ⟨blinded, DigestState.new D, salt.length⟩ R fuel (some s) a hashed = .ok sig →
      ∀ blinded', pss.Pss.verify ⟨blinded', DigestState.new D, salt.length⟩ v hashed sig = .ok ()) := by
  have ca := C90_journey k hk _ ha
  obtain ⟨cv, hs⟩ := travelled_noSpare hk hv
  have na := (pub_eq (priv_eq ca.1).1).1
  have nv := (pub_eq cv.1).1
  have he : v.eq a.pub = true := pub_eq_trans cv.1 (priv_eq (priv_eq_symm ca.1)).1
  obtain ⟨hw, heq⟩ := hybrid_wf ca.2.correct cv.2.1 hs he
  have pv : v.n.prec < 2 ^ 32 := by have := ((checkPublic_ok _).mp cv.2.2).1; omega
  have pa : a.pub.n.prec < 2 ^ 32 := by
    have := ((checkPublic_ok _).mp (checkPublic_of_validate ca.2.accepted)).1; omega
  have heq' := priv_eq_symm heq
  refine ⟨?_, ?_, ?_⟩
  · intro S rng hashed sig hb h
    rw [(C59_equal_private_keys ca.2.correct hw heq' R fuel rng (by rw [na]; exact hb)).1] at h
    exact C49_genuine_verify_partial hw hs pv S R fuel rng (by show BlindingOk R v.n.val fuel rng; rw [nv]; exact hb) hashed sig h
  · intro D l s msg sg hD hl h
    refine C50_genuine_verify_partial (k := { a with pub := v }) hw.coherent hs pv D hD l hl R fuel s msg sg ?_
    rcases h with h | ⟨hb, h⟩
    · right
      refine ⟨hw, ?_⟩
      unfold pss.SigningKey.trySignWithRng pss.SigningKey.trySignDigestWithRng at h ⊢
      rw [← (equal_sign_pss ca.2.correct hw heq' pa pv D hD hl R fuel s false (by simp) _ (D.hash_len _)).1]
      exact h
    · left
      unfold pss.BlindedSigningKey.trySignWithRng at h ⊢
      rw [← (equal_sign_pss ca.2.correct hw heq' pa pv D hD hl R fuel s true (fun _ => by rw [na]; exact hb) _ (D.hash_len _)).1]
      exact h
  · intro D salt s s' bl hashed sig hD hh hfit hfill hb h bl'
    obtain ⟨sig', -, -, h1, h2⟩ := C18_pss_round_trip hw pv D hD hashed salt hh
      (by show _ ≤ (v.n.val.size - 1 + 7) / 8; rw [nv]; exact hfit)
    obtain ⟨h3, h4⟩ := h2 R fuel s s' hfill
    have hl : D.outLen + salt.length + 2 < 2 ^ 64 := by
      have : k.pub.n.val.size ≤ v.n.prec := by rw [← nv]; exact Nat.size_le.mpr v.n.isLt
      omega
    have hsame := (equal_sign_pss ca.2.correct hw heq' pa pv D hD hl R fuel s bl
      (fun hbt => by rw [na, hfill]; exact hb hbt) hashed hh).2
    have h5 : pss.Pss.sign ⟨bl, DigestState.new D, salt.length⟩ R fuel (some s) { a with pub := v } hashed = .ok sig := by
      unfold pss.Pss.sign at h ⊢
      simp only at h ⊢
      rw [← hsame]; exact h
    have h6 : sig = sig' := by
      cases bl with
      | false => rw [h3] at h5; exact (Res.ok.inj h5).symm
      | true =>
        rw [h4 (by show BlindingOk R v.n.val fuel (some s'); rw [nv]; exact hb rfl)] at h5
        exact (Res.ok.inj h5).symm
    rw [h6]
    exact h1 bl'

/-- C90: the keys the crate makes itself are such keys: built from two primes, or generated. -/
theorem C90_portable_sources :
    (∀ (p q e : BoxedUint) (k : PrivateKey), p.val.Prime → q.val.Prime → PrivateKey.fromPQ p q e = .ok k → Portable k) ∧
    (∀ {σ : Type} (G : PrimeGen σ) (bitSize : Nat) (fuel : Nat) (s s' : σ) (exp : BoxedUint) (k : PrivateKey),
      PrimeSearch G → TopHalves G bitSize → PrivateKey.newWithExp G fuel s bitSize exp = .ok (k, s') → Portable k) := by
  constructor
  · intro p q e k hp hq h
    obtain ⟨hwf, hn, _, hps, _, hlt, _⟩ := (C29_from_p_q p q e).2.1 hp hq k h
    obtain ⟨n, d, hd, hm, hf⟩ := fromPQ_components h
    obtain ⟨g1, _, _, g4, _, _, g7, _, _⟩ := PrivateKey.fromComponents_ok (by simp) hf
    have hdl := ((carmichael_spec (e := e) hp.one_lt hq.one_lt).1 d hd).2.2
    have hnl := (computeModulus_ok hm).2
    obtain ⟨c1, _⟩ := (checkPublic_ok _).mp (checkPublic_of_validate g7)
    have hnl' : n.toBoxedUint.nlimbs = p.nlimbs + q.nlimbs := by simpa using hnl
    rw [g1] at c1
    unfold prec at c1
    refine ⟨hwf, g7, ⟨p, q, hps, ?_, ?_⟩, ?_, ?_⟩
    · rw [g4]; unfold prec; omega
    · rw [g4]; unfold prec; omega
    · rw [g4]; unfold prec; omega
    · rw [hn]
      refine lt_of_lt_of_le hlt (le_trans (Nat.lcm_le_mul ?_ ?_) (Nat.mul_le_mul (by omega) (by omega)))
      · have := hp.one_lt; omega
      · have := hq.one_lt; omega
  · intro σ G bitSize fuel s s' exp k hP hG h
    obtain ⟨h4, h32⟩ := generated_range hP h
    obtain ⟨hwf, -, -, -⟩ := C31_generated_key G hP fuel s s' bitSize exp k h
    obtain ⟨p, q, hps, hp, hq, hn, hd, hv, hdlt⟩ := generated_facts hP hG h4 h32 h
    obtain ⟨c1, -⟩ := (checkPublic_ok _).mp (checkPublic_of_validate hv)
    have hn4 : k.pub.n.nlimbs ≤ 64 := by unfold prec at c1; omega
    exact ⟨hwf, hv, ⟨p, q, hps, by unfold prec; omega, by unfold prec; omega⟩, by unfold prec; omega, hdlt⟩

/-! ### Examples -/

theorem Ex.key_portable : Portable Ex.key :=
  C90_portable_sources.1 (wrap 2 (2 ^ 89 - 1)) (wrap 2 (2 ^ 127 - 1)) (wrap 1 65537) Ex.key
    (by have : (wrap 2 (2 ^ 89 - 1)).val = 2 ^ 89 - 1 := by decide
        rw [this]; exact Ex.prime89)
    (by have : (wrap 2 (2 ^ 127 - 1)).val = 2 ^ 127 - 1 := by decide
        rw [this]; exact Ex.prime127)
    (by decide +kernel)

/-- A key whose modulus is stored with a spare limb. -/
theorem Ex.wideKey_portable : Portable Ex.wideKey where
  correct := Ex.wideKey_wf
  accepted := by decide +kernel
  two := ⟨_, _, rfl, by decide +kernel, by decide +kernel⟩
  width := by decide +kernel
  below := by decide +kernel

/-- Its public half after a visit to a certificate. -/
def Ex.postedPub : PublicKey :=
  match Ex.wideKey.pub.toPublicKeyDer with
  | .ok b => (match PublicKey.fromPublicKeyDer b with | .ok v => v | _ => Ex.wideKey.pub)
  | _ => Ex.wideKey.pub

theorem Ex.wideKey_travelled : Travelled (.secret Ex.wideKey) (.open Ex.postedPub) := by
  refine ⟨.open Ex.wideKey.pub, .open Ex.postedPub, .single (.publish _), ?_, .refl⟩
  have : (match Ex.wideKey.pub.toPublicKeyDer with
      | .ok b => decide (PublicKey.fromPublicKeyDer b = .ok Ex.postedPub) | _ => false) = true := by decide +kernel
  cases hb : Ex.wideKey.pub.toPublicKeyDer with
  | ok b =>
    rw [hb] at this
    exact .spki hb (of_decide_eq_true this)
  | err e => rw [hb] at this; cases this
  | panic x => rw [hb] at this; cases this
  | loop => rw [hb] at this; cases this

/- Its signature is refused by the key itself and accepted by the posted copy. -/
example : (match pkcs1v15.Pkcs1v15Sign.newUnprefixed.sign Ex.countingRng 1 none Ex.wideKey [1, 2, 3] with
    | .ok sig => decide (pkcs1v15.Pkcs1v15Sign.newUnprefixed.verify Ex.wideKey.pub [1, 2, 3] sig = .err .verification) &&
        decide (pkcs1v15.Pkcs1v15Sign.newUnprefixed.verify Ex.postedPub [1, 2, 3] sig = .ok ())
    | _ => false) = true := by decide +kernel

/- A longer journey of the first key: values cleared, computed again, taken apart and put together. -/
example : Journey (.secret Ex.key) (.secret Ex.key) ∧ Ex.key.clearPrecomputed ≠ Ex.key := by
  refine ⟨.tail (.tail (.single (.clear _)) (.precompute (k' := Ex.key) (by decide +kernel)))
    (.rebuild Ex.nOdd (by decide) (by decide +kernel)), by decide +kernel⟩

/-- A key that loses its precomputed values and gets them back. -/
theorem Ex.key_round : Journey (.secret Ex.key) (.secret Ex.key) :=
  .tail (.tail (.single (.clear _)) (.precompute (k' := Ex.key) (by decide +kernel)))
    (.rebuild Ex.nOdd (by decide) (by decide +kernel))
example := C90_journey Ex.key Ex.key_portable _ Ex.key_round
example := C90_same_output Ex.key Ex.key_portable Ex.key.clearPrecomputed Ex.key (.single (.clear _)) Ex.key_round
  Ex.countingRng 3 (some 5) ⟨6, 1, .good 5 5 (by decide) (Or.inr (by decide)), by decide⟩
example := C90_ciphertexts Ex.key Ex.key_portable Ex.key.pub Ex.key.clearPrecomputed (.single (.publish _)) (.single (.clear _))
  Ex.countingRng 3 5 6 Ex.countingRng 3 (some 5) ⟨6, 1, .good 5 5 (by decide) (Or.inr (by decide)), by decide⟩
example := C90_signatures Ex.wideKey Ex.wideKey_portable Ex.postedPub Ex.wideKey.clearPrecomputed Ex.wideKey_travelled
  (.single (.clear _)) Ex.countingRng 3

end RSA
