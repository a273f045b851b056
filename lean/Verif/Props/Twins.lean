import Verif.Spec.Twins
import Verif.Props.Session
import Verif.Props.LeakOps

/-
C93: a peer that also watches every private operation still cannot tell two private keys behind the same public key apart.
-/
namespace RSA
open BoxedUint Spec

theorem Leak.ext' {α : Type} {x y : Leak α} (he : x.ev = y.ev) (hr : x.res = y.res) : x = y := by
  cases x; cases y; simp_all

theorem Leak.bind_congr' {α β : Type} {x : Leak α} {f g : α → Leak β} (h : ∀ a, x.res = .ok a → f a = g a) :
    (x >>= f) = (x >>= g) := by
  show Leak.bind x f = Leak.bind x g
  unfold Leak.bind
  cases hx : x.res with
  | ok a => simp only [h a hx]
  | err => rfl
  | panic => rfl
  | loop => rfl

theorem rsaDecrypt_twins {k k' : PrivateKey} (h : Twins k k') {σ : Type} (R : RngImpl σ) (fuel : Nat) (rng : Option σ)
    (c : BoxedUint) (hw : c.nlimbs = k.pub.n.nlimbs) (hc : c.val < k.pub.n.val) :
    rsaDecrypt R fuel rng k c = rsaDecrypt R fuel rng k' c := by
  have hd := inverts_wf h.correct'
  rw [← h.pub] at hd
  have hx := inverts_unique h.correct hd c.val
  have hw' := hw
  have hc' := hc
  rw [h.pub] at hw' hc'
  cases rng with
  | none =>
    rw [rsaDecrypt_none R fuel h.correct c (by rw [hw]; exact h.correct.width) hc,
      rsaDecrypt_none R fuel h.correct' c (by rw [hw']; exact h.correct'.width) hc', ← h.pub, hx]
  | some s =>
    rw [rsaDecrypt_some R fuel s h.correct c hw hc, rsaDecrypt_some R fuel s h.correct' c hw' hc', ← h.pub, hx]

/-- The private operation, with all its observations. -/
theorem watched_twins {k k' : PrivateKey} (h : Twins k k') {σ : Type} (R : RngImpl σ) (fuel : Nat) (rng : Option σ)
    (c : BoxedUint) (hw : c.nlimbs = k.pub.n.nlimbs) :
    leak.rsaDecryptAndCheck R fuel k rng c = leak.rsaDecryptAndCheck R fuel k' rng c := by
  by_cases hc : c.val < k.pub.n.val
  · apply Leak.ext'
    · exact (C76_private_operation R R fuel rng rng h.shape h.correct h.correct' c c hw (by rw [← h.pub]; exact hw) hc
        (by rw [← h.pub]; exact hc)).mpr (by rw [← h.pub]; exact leak.sameBlinding_refl R _ fuel rng)
    · rw [C76_same_program.1, C76_same_program.1]
      unfold rsaDecryptAndCheck
      rw [rsaDecrypt_twins h R fuel rng c hw hc, h.pub]
  · have hge : ∀ k0 : PrivateKey, k0.pub = k.pub → leak.rsaDecryptAndCheck R fuel k0 rng c =
        ⟨[.bignum "cmp" [c.nlimbs, k.pub.n.nlimbs], .branch true], .err .decryption⟩ := by
      intro k0 h0
      have : c.ge k.pub.n = true := by simp [ge, lt, hc]
      unfold leak.rsaDecryptAndCheck leak.rsaDecrypt
      simp [leak.bn, leak.branch, this, h0, Leak.bind_def, Leak.bind, Leak.emit, Leak.ofRes]
    rw [hge k rfl, hge k' h.pub.symm]

/-- C93: each private operation gives the same answer, with the same observations, for both of two twins. -/
theorem C93_operations (k k' : PrivateKey) (h : Twins k k') {σ : Type} (R : RngImpl σ) (fuel : Nat) (rng : Option σ) :
    (∀ ct, leak.pkcs1v15Decrypt R fuel rng k ct = leak.pkcs1v15Decrypt R fuel rng k' ct) ∧
    (∀ ct dg mg label, leak.oaepSchemeDecrypt R fuel rng k ct dg mg label =
      leak.oaepSchemeDecrypt R fuel rng k' ct dg mg label) ∧
    (∀ D MGD ct label, leak.oaepSchemeDecryptDigest R fuel D MGD rng k ct label =
      leak.oaepSchemeDecryptDigest R fuel D MGD rng k' ct label) ∧
    (∀ pfx hashed, leak.pkcs1v15Sign R fuel rng k pfx hashed = leak.pkcs1v15Sign R fuel rng k' pfx hashed) ∧
    (∀ s blinded hashed saltLen dg, leak.pssSign R fuel s blinded k hashed saltLen dg =
      leak.pssSign R fuel s blinded k' hashed saltLen dg) ∧
    (∀ D s blinded hashed saltLen, leak.pssSignDigest R fuel D s blinded k hashed saltLen =
      leak.pssSignDigest R fuel D s blinded k' hashed saltLen) := by
  have hw : ∀ {b : Bytes} {c : BoxedUint}, fromBeSlice b k.pub.nBitsPrecision = .ok c → c.nlimbs = k.pub.n.nlimbs := by
    intro b c hc
    obtain ⟨-, -, rfl⟩ := fromBeSlice_eq_ok_iff.mp hc
    exact limbsFor_prec _ (coherent_nlimbs_pos (k := k.pub) h.correct.coherent)
  have salt : ∀ rng hashed salt dg, leak.signPssWithSalt R fuel rng k hashed salt dg =
      leak.signPssWithSalt R fuel rng k' hashed salt dg := by
    intro rng hashed salt dg
    unfold leak.signPssWithSalt
    rw [← h.pub]
    refine Leak.bind_congr' fun emBits _ => Leak.bind_congr' fun em _ => Leak.bind_congr' fun c hc => ?_
    rw [watched_twins h R fuel rng c (hw hc)]
  have saltD : ∀ D rng hashed salt, leak.signPssWithSaltDigest R fuel D rng k hashed salt =
      leak.signPssWithSaltDigest R fuel D rng k' hashed salt := by
    intro D rng hashed salt
    unfold leak.signPssWithSaltDigest
    rw [← h.pub]
    refine Leak.bind_congr' fun emBits _ => Leak.bind_congr' fun em _ => Leak.bind_congr' fun c hc => ?_
    rw [watched_twins h R fuel rng c (hw hc)]
  refine ⟨?_, ?_, ?_, ?_, ?_, ?_⟩
  · intro ct
    unfold leak.pkcs1v15Decrypt
    rw [← h.pub]
    refine Leak.bind_congr' fun _ _ => Leak.bind_congr' fun c hc => ?_
    rw [watched_twins h R fuel rng c (hw hc)]
  · intro ct dg mg label
    unfold leak.oaepSchemeDecrypt
    rw [← h.pub]
    split
    · rfl
    · refine Leak.bind_congr' fun c hc => ?_
      rw [watched_twins h R fuel rng c (hw hc)]
  · intro D MGD ct label
    unfold leak.oaepSchemeDecryptDigest
    rw [← h.pub]
    refine Leak.bind_congr' fun _ _ => ?_
    split
    · rfl
    · refine Leak.bind_congr' fun c hc => ?_
      rw [watched_twins h R fuel rng c (hw hc)]
  · intro pfx hashed
    unfold leak.pkcs1v15Sign
    rw [← h.pub]
    refine Leak.bind_congr' fun em _ => Leak.bind_congr' fun c hc => ?_
    rw [watched_twins h R fuel rng c (hw hc)]
  · intro s blinded hashed saltLen dg
    unfold leak.pssSign
    refine Leak.bind_congr' fun x _ => ?_
    simp only [salt]
  · intro D s blinded hashed saltLen
    unfold leak.pssSignDigest
    refine Leak.bind_congr' fun x _ => ?_
    simp only [saltD]

/-- C93: the same for whole sessions: a peer that chooses every request in the light of all earlier answers and of all
earlier observations sees the same from both. -/
theorem C93_sessions (k k' : PrivateKey) (h : Twins k k') {σ : Type} (R : RngImpl σ) (fuel : Nat) (gens : Nat → Option σ)
    (peer : List (Ask × Leak Bytes) → Ask) (hist : List (Ask × Leak Bytes)) :
    Session (Watched R fuel gens k) peer hist ↔ Session (Watched R fuel gens k') peer hist := by
  have hw : ∀ rng q, watch R fuel rng k q = watch R fuel rng k' q := by
    intro rng q
    obtain ⟨h1, h2, h3, h4, -, -⟩ := C93_operations k k' h R fuel rng
    cases q with
    | open1 ct => exact congrArg some (h1 ct)
    | openOaep D MGD label ct => exact congrArg some (h2 ct _ _ label)
    | openOaepTyped D MGD label ct => exact congrArg some (h3 D MGD ct label)
    | sign1 S hashed => simp only [watch, h4]
    | signPss D b l hashed =>
      cases rng with
      | none => rfl
      | some s => exact congrArg some ((C93_operations k k' h R fuel (some s)).2.2.2.2.1 s b hashed l _)
    | _ => rfl
  exact ⟨session_mono fun i h r ha => by unfold Watched at *; rw [← hw]; exact ha,
    session_mono fun i h r ha => by unfold Watched at *; rw [hw]; exact ha⟩

/-- What is watched is what is answered. -/
theorem C93_watch_answers {σ : Type} (R : RngImpl σ) (fuel : Nat) (rng : Option σ) (k : PrivateKey) (q : Ask) (r : Leak Bytes)
    (h : watch R fuel rng k q = some r) : Serves R fuel rng (.secret k) q (.octets r.res) := by
  obtain ⟨-, -, -, -, h5, h6, h7⟩ := C70_same_program
  obtain ⟨-, -, g3, g4, -⟩ := C76_same_program
  cases q with
  | open1 ct => obtain rfl := Option.some.inj h; rw [h5]; exact .open1 k ct
  | openOaep D MGD label ct => obtain rfl := Option.some.inj h; rw [h6]; exact .openOaep k D MGD label ct
  | openOaepTyped D MGD label ct => obtain rfl := Option.some.inj h; rw [h7]; exact .openOaepTyped k D MGD label ct
  | sign1 S hashed =>
    obtain rfl := Option.some.inj h
    rw [Leak.res_bind]
    simp only [g3]
    exact .sign1 k S hashed
  | signPss D b l hashed =>
    cases rng with
    | none => obtain rfl := Option.some.inj h; exact .signPss k D b l hashed
    | some s =>
      obtain rfl := Option.some.inj h
      rw [g4]
      exact .signPss k D b l hashed
  | _ => cases h

/-- C93: there are many twins: every private exponent of the stored size that fits the factors, with the factors in any
order, gives one (for keys without CRT values). -/
theorem C93_twins (k : PrivateKey) (hk : WellFormed k) (d : BoxedUint) (hd : d.nlimbs = k.d.nlimbs)
    (hde : ∀ p ∈ k.primes, d.val * k.pub.e.val % (p.val - 1) = 1) (ps : List BoxedUint) (hp : ps.Perm k.primes)
    (hl : ps.map BoxedUint.nlimbs = k.primes.map BoxedUint.nlimbs) :
    Twins k.clearPrecomputed { k with d := d, primes := ps, precomputed := none } where
  pub := rfl
  shape := ⟨rfl, rfl, hd.symm, hl.symm, rfl⟩
  correct := { coherent := hk.coherent, numbers := hk.numbers, width := hk.width, cache := by intro p h; cases h }
  correct' :=
    { coherent := hk.coherent
      numbers :=
        { prime := fun p h => hk.numbers.prime p ((hp.map _).mem_iff.mp h)
          nodup := (hp.map BoxedUint.val).nodup_iff.mpr hk.numbers.nodup
          two := by
            have := hk.numbers.two
            rw [List.length_map] at this ⊢
            rw [hp.length_eq]; exact this
          prod := by rw [(hp.map BoxedUint.val).prod_eq]; exact hk.numbers.prod
          exp := by
            intro p h
            obtain ⟨x, hx, rfl⟩ := List.mem_map.mp h
            exact hde x (hp.mem_iff.mp hx) }
      width := by show k.pub.n.nlimbs ≤ d.nlimbs; rw [hd]; exact hk.width
      cache := by intro p h; cases h }

/-! ### Examples -/

/-- Another exponent and the factors the other way round. -/
def Ex.twin : PrivateKey := { Ex.otherD with primes := Ex.key.primes.reverse }

theorem Ex.twins : Twins Ex.keyNoCrt Ex.twin :=
  C93_twins Ex.key Ex.key_wf Ex.otherD.d (by decide +kernel) (by decide +kernel) Ex.key.primes.reverse
    (List.reverse_perm _) (by decide +kernel)

example : Ex.keyNoCrt.eq Ex.twin = false ∧ Ex.keyNoCrt.d.val ≠ Ex.twin.d.val ∧
    (leak.pkcs1v15Sign Ex.countingRng 5 (some 7) Ex.twin [] [1, 2, 3]).ev.length = 64 := by
  refine ⟨by decide +kernel, by decide +kernel, by decide +kernel⟩

/-- The same key made from its factors in the other order, with the CRT values that belong to that order. -/
def Ex.swapped : PrivateKey :=
  match PrivateKey.fromPQ (wrap 2 (2 ^ 127 - 1)) (wrap 2 (2 ^ 89 - 1)) (wrap 1 65537) with
  | .ok k => k
  | _ => Ex.key

theorem Ex.swapped_twins : Twins Ex.key Ex.swapped where
  pub := by decide +kernel
  shape := ⟨by decide +kernel, by decide +kernel, by decide +kernel, by decide +kernel, by decide +kernel⟩
  correct := Ex.key_wf
  correct' := by
    refine (C90_portable_sources.1 (wrap 2 (2 ^ 127 - 1)) (wrap 2 (2 ^ 89 - 1)) (wrap 1 65537) Ex.swapped ?_ ?_
      (by decide +kernel)).correct
    · have : (wrap 2 (2 ^ 127 - 1)).val = 2 ^ 127 - 1 := by decide
      rw [this]; exact Ex.prime127
    · have : (wrap 2 (2 ^ 89 - 1)).val = 2 ^ 89 - 1 := by decide
      rw [this]; exact Ex.prime89

example : Ex.swapped.precomputed.isSome ∧ Ex.swapped.precomputed ≠ Ex.key.precomputed := by decide +kernel

/-- A peer whose second request is the first answer, and whose third depends on how much there was to see. -/
def Ex.watcher : List (Ask × Leak Bytes) → Ask
  | [] => .sign1 .newUnprefixed [1, 2, 3]
  | [(_, ⟨_, .ok sig⟩)] => .open1 sig
  | (_, r) :: _ => .open1 (List.replicate r.ev.length 0)

example (hist : List (Ask × Leak Bytes)) : Session (Watched Ex.countingRng 5 (fun _ => some 7) Ex.keyNoCrt) Ex.watcher hist ↔
    Session (Watched Ex.countingRng 5 (fun _ => some 7) Ex.twin) Ex.watcher hist :=
  C93_sessions _ _ Ex.twins _ _ _ _ _

/-- C93: how a key is stored does show: with CRT values and without, the answers are the same and the observations are
not. -/
theorem C93_storage_seen : ∃ k k' : PrivateKey, Portable k ∧ Journey (.secret k) (.secret k') ∧
    ∃ ct, (leak.pkcs1v15Decrypt Ex.countingRng 1 none k ct).res = (leak.pkcs1v15Decrypt Ex.countingRng 1 none k' ct).res ∧
      (leak.pkcs1v15Decrypt Ex.countingRng 1 none k ct).ev ≠ (leak.pkcs1v15Decrypt Ex.countingRng 1 none k' ct).ev :=
  ⟨Ex.key, Ex.key.clearPrecomputed, Ex.key_portable, .single (.clear _), [1, 2, 3], by decide +kernel, by decide +kernel⟩

example := C93_operations _ _ Ex.twins Ex.countingRng 5 (some 7)
example := C93_operations _ _ Ex.swapped_twins Ex.countingRng 5 (some 7)

end RSA
