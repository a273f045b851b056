import Verif.Props.Generate
import Verif.Props.Wrappers
import Verif.Props.Panics
import Verif.Props.Oaep
import Mathlib.NumberTheory.LucasPrimality

/-
C66: a freshly generated key works, from generation to use. The prime search is external; it is assumed to return primes
with the two top bits set, stored in the minimal number of limbs (`Spec.PrimeSearch`, `Spec.TopHalves`).
-/
namespace RSA
open BoxedUint Spec

/-- The draw behind what the loop returns. -/
theorem generateLoop_draw {σ : Type} {G : PrimeGen σ} {bitSize : Nat} {exp : BoxedUint} :
    ∀ (fuel : Nat) (s s' : σ) (c : Components), generateLoop G 2 bitSize exp fuel s = .ok (c, s') →
      ∃ t t', generatePrimes G 2 bitSize t = .ok (c.primes, t') := by
  intro fuel
  induction fuel with
  | zero => intro s s' c h; cases h
  | succ fuel ih =>
    intro s s' c h
    unfold generateLoop at h
    have h7 : ¬ (2 ≥ 7) := by omega
    simp only [if_neg h7] at h
    rw [Res.bind_eq_ok] at h
    obtain ⟨⟨ps, s1⟩, h1, h⟩ := h
    simp only at h
    cases hd : PrivateKey.hasDuplicate [] ps with
    | true => rw [if_pos hd] at h; exact ih _ _ _ h
    | false =>
      rw [if_neg (by rw [hd]; simp)] at h
      rw [Res.bind_eq_ok] at h
      obtain ⟨n, hn, h⟩ := h
      by_cases hb : n.toBoxedUint.bits ≠ bitSize
      · rw [if_pos hb] at h; exact ih _ _ _ h
      · rw [if_neg hb] at h
        cases he : computePrivateExponentEulerTotient ps exp with
        | ok d =>
          rw [he] at h
          obtain ⟨rfl, rfl⟩ := Prod.mk.inj (Res.ok.inj h)
          exact ⟨s, s1, h1⟩
        | err e => rw [he] at h; exact ih _ _ _ h
        | panic k => rw [he] at h; cases h
        | loop => rw [he] at h; cases h

/-- The width at which Euler's exponent is stored. -/
theorem euler_width {p q e d : BoxedUint} (hp : 0 < p.val) (hq : 0 < q.val)
    (h : computePrivateExponentEulerTotient [p, q] e = .ok d) : d.nlimbs = p.nlimbs + (p.nlimbs + q.nlimbs) := by
  have hpl := nlimbs_pos_of_val_pos p hp
  have hlf : limbsFor p.prec = p.nlimbs := limbsFor_prec p hpl
  obtain ⟨t, h3, _, h3l⟩ := totientLoop_eq [p, q] (oneWithPrecision p.prec) (by
    intro x hx
    rcases List.mem_cons.mp hx with rfl | hx
    · exact hp
    · obtain rfl : x = q := by simpa using hx
      exact hq)
  have h1l : (oneWithPrecision p.prec).nlimbs = p.nlimbs := hlf
  unfold computePrivateExponentEulerTotient at h
  rw [if_neg (by simp)] at h
  simp only [primeAt, List.getElem?_cons_zero, Res.ok_bind] at h
  rw [h3, Res.ok_bind, Res.bind_eq_ok] at h
  obtain ⟨x, -, h⟩ := h
  cases hi : x.invMod t with
  | none => rw [hi] at h; cases h
  | some r =>
    rw [hi] at h
    obtain rfl := Res.ok.inj h
    unfold invMod at hi
    rw [Option.map_eq_some_iff] at hi
    obtain ⟨v, -, rfl⟩ := hi
    show t.nlimbs = _
    rw [h3l, h1l]
    simp

/-- Everything about a generated key that the claims below need. -/
theorem generated_facts {σ : Type} {G : PrimeGen σ} (hP : PrimeSearch G) {bitSize : Nat} (hG : TopHalves G bitSize)
    (h4 : 4 ≤ bitSize) (h32 : bitSize < 2 ^ 32) {fuel : Nat} {s s' : σ} {exp : BoxedUint} {k : PrivateKey}
    (h : PrivateKey.newWithExp G fuel s bitSize exp = .ok (k, s')) :
    ∃ p q, k.primes = [p, q] ∧ p.nlimbs = (bitSize / 2 + 63) / 64 ∧ q.nlimbs = (bitSize - bitSize / 2 + 63) / 64 ∧
      k.pub.n.nlimbs = p.nlimbs + q.nlimbs ∧ k.d.nlimbs = p.nlimbs + (p.nlimbs + q.nlimbs) ∧
      k.validate = .ok () ∧ k.d.val < k.pub.n.val := by
  unfold PrivateKey.newWithExp at h
  rw [Res.bind_eq_ok] at h
  obtain ⟨⟨c, s1⟩, hc, h⟩ := h
  simp only at h
  rw [Res.bind_eq_ok] at h
  obtain ⟨k', hk, h⟩ := h
  obtain ⟨rfl, rfl⟩ := Prod.mk.inj (Res.ok.inj h)
  obtain ⟨_, hl, hprime, _, hnv, _, _, hdlt, _, _⟩ := C31_components G hP _ _ _ _ _ _ _ hc
  have hne : c.primes ≠ [] := by
    intro h0; rw [h0] at hl; simp at hl
  obtain ⟨hn, -, -, hd, hps, -, hv, -, -⟩ := PrivateKey.fromComponents_ok hne hk
  unfold generateMultiPrimeKeyWithExp at hc
  rw [if_neg (by omega)] at hc
  split at hc
  · cases hc
  obtain ⟨_, _, _, hm, _, he, _⟩ := generateLoop_ok _ _ _ _ hc
  obtain ⟨t, t', hdraw⟩ := generateLoop_draw _ _ _ _ hc
  obtain ⟨_, hg, _⟩ := generatePrimes_two hG t h4 h32
  rw [hg] at hdraw
  have hpr := (Prod.mk.inj (Res.ok.inj hdraw)).1
  have hnl := (computeModulus_ok hm).2
  rw [← hpr] at hps hnl he hprime hdlt hnv
  set p := (G.gen t (bitSize / 2)).1 with hpd
  set q := (G.gen (G.gen t (bitSize / 2)).2 (bitSize - bitSize / 2)).1 with hqd
  have hp := hprime p (by simp)
  have hq := hprime q (by simp)
  refine ⟨p, q, hps, hG.1.limbs _, hG.2.limbs _, ?_, ?_, hv, ?_⟩
  · rw [hn, hnl]; simp
  · rw [hd]; exact euler_width hp.pos hq.pos he
  · rw [hn, hd, hnv]
    refine lt_of_lt_of_le hdlt ?_
    simp only [List.map_cons, List.map_nil, List.prod_cons, List.prod_nil, mul_one]
    exact Nat.mul_le_mul (by omega) (by omega)

/-- The number of limbs `RsaPrivateKey::new` uses for a modulus of that many bits, and the number it needs. -/
def modulusLimbs (bitSize : Nat) : Nat := (bitSize / 2 + 63) / 64 + (bitSize - bitSize / 2 + 63) / 64

theorem noSpare_iff {k : PublicKey} {bitSize : Nat} (hs : k.n.val.size = bitSize)
    (hl : k.n.nlimbs = modulusLimbs bitSize) : NoSpareLimbs k ↔ modulusLimbs bitSize = (bitSize + 63) / 64 := by
  unfold NoSpareLimbs Spec.octetLen
  rw [hl, hs]
  omega

/-- Which sizes are stored without a spare limb. -/
theorem modulusLimbs_iff (bitSize : Nat) :
    modulusLimbs bitSize = (bitSize + 63) / 64 ↔ bitSize % 128 ≤ 1 ∨ 64 < bitSize % 128 := by
  unfold modulusLimbs
  omega

theorem generated_range {σ : Type} {G : PrimeGen σ} (hP : PrimeSearch G) {bitSize : Nat} {fuel : Nat} {s s' : σ}
    {exp : BoxedUint} {k : PrivateKey} (h : PrivateKey.newWithExp G fuel s bitSize exp = .ok (k, s')) :
    4 ≤ bitSize ∧ bitSize < 2 ^ 32 := by
  obtain ⟨hwf, hsz, hl, -⟩ := C31_generated_key G hP fuel s s' bitSize exp k h
  refine ⟨?_, ?_⟩
  · match hps : k.primes, hl with
    | [p, q], _ =>
      have hN := hwf.numbers
      rw [hps] at hN
      have hp := hN.prime p.val (by simp)
      have hq := hN.prime q.val (by simp)
      have ep := hN.exp p.val (by simp)
      have eq := hN.exp q.val (by simp)
      have hne : p.val ≠ q.val := by
        have := hN.nodup
        simp only [List.map_cons, List.map_nil, List.nodup_cons, List.mem_singleton] at this
        exact this.1
      have hprod : p.val * q.val = k.pub.n.val := by simpa using hN.prod
      have h2p : p.val ≠ 2 := by intro h2; rw [h2] at ep; simp at ep; omega
      have h2q : q.val ≠ 2 := by intro h2; rw [h2] at eq; simp at eq; omega
      have hp3 : 3 ≤ p.val := by have := hp.two_le; omega
      have hq3 : 3 ≤ q.val := by have := hq.two_le; omega
      have : 2 ^ 3 ≤ k.pub.n.val := by
        rw [← hprod]; exact le_trans (by norm_num) (Nat.mul_le_mul hp3 hq3)
      have := Nat.lt_size.mpr this
      omega
  · by_contra hbig
    exact C54_too_large G bitSize (by omega) fuel s s' exp k h

/-- Storage of a generated key: `n` takes the limbs of `p` plus those of `q`. There is no spare limb exactly if the size
is a multiple of 128, one more, or more than 64 above one. -/
theorem C66_storage {σ : Type} (G : PrimeGen σ) (hP : PrimeSearch G) (bitSize : Nat) (hG : TopHalves G bitSize)
    (fuel : Nat) (s s' : σ) (exp : BoxedUint) (k : PrivateKey)
    (h : PrivateKey.newWithExp G fuel s bitSize exp = .ok (k, s')) :
    k.pub.n.nlimbs = modulusLimbs bitSize ∧ (NoSpareLimbs k.pub ↔ bitSize % 128 ≤ 1 ∨ 64 < bitSize % 128) := by
  obtain ⟨h4, h32⟩ := generated_range hP h
  obtain ⟨-, hsz, -, -⟩ := C31_generated_key G hP fuel s s' bitSize exp k h
  obtain ⟨p, q, -, hp, hq, hn, -⟩ := generated_facts hP hG h4 h32 h
  have hl : k.pub.n.nlimbs = modulusLimbs bitSize := by rw [hn, hp, hq]; rfl
  exact ⟨hl, by rw [noSpare_iff hsz hl, modulusLimbs_iff]⟩

/-- A decoded private key has no spare limbs. -/
theorem decoded_noSpare {b : Bytes} {k : PrivateKey} (h : PrivateKey.fromPkcs8Der b = .ok k) : NoSpareLimbs k.pub := by
  obtain ⟨i, hi, h⟩ := fromPkcs8Der_ok h
  obtain ⟨hv, n, e, d, p, q, dp, dq, qi, nOdd, hpk, hno, h0, hd, hp, hq, hk⟩ := tryFromInfo_ok h
  obtain ⟨g1, -⟩ := PrivateKey.fromComponents_ok (by simp) hk
  have h1 : n ≠ 0 := h0
  unfold NoSpareLimbs
  rw [g1, hno, stored_nlimbs h1, stored_val, limbsFor_octets]
  have : 0 < n.size := Nat.size_pos.mpr (Nat.pos_of_ne_zero h1)
  unfold Spec.octetLen
  omega

/-- C66 (full statement: with a key fresh from `RsaPrivateKey::new_with_exp`, whatever is encrypted decrypts, whatever is
signed verifies, and the encoding decodes to an equal key). Proved for every size: both encryption schemes, the PSS scheme
object, the PKCS#8 round trip, and that the decoded key verifies the PKCS#1 v1.5 signatures of the original; for sizes
`128 j`, `128 j + 1` and `128 j + r` with `64 < r`: PKCS#1 v1.5 and typed PSS verification with the key itself.
Missing: these two for the other sizes, where they fail (`C66_own_signatures_rejected`). -/
theorem C66_generated_key_works_partial {σ : Type} (G : PrimeGen σ) (hP : PrimeSearch G) (bitSize : Nat)
    (hG : TopHalves G bitSize) (fuel : Nat) (s s' : σ) (exp : BoxedUint) (k : PrivateKey)
    (h : PrivateKey.newWithExp G fuel s bitSize exp = .ok (k, s')) {τ : Type} (R : RngImpl τ) (f : Nat) (r r' : τ)
    (rng : Option τ) (hb : BlindingOk R k.pub.n.val f rng) :
    (∀ msg ct, pkcs1v15.encrypt R f r k.toPublicKey msg = .ok (ct, r') → pkcs1v15.decrypt R f rng k ct = .ok msg) ∧
    (∀ (D MGD : HashFn) label msg ct, 0 < MGD.outLen → 5 ≤ D.outLen →
      oaep.encryptDigest R D MGD r k.toPublicKey msg label = .ok (ct, r') →
      oaep.decryptDigest R f D MGD rng k ct label = .ok msg) ∧
    (∀ (D : HashFn) hashed salt sig, 0 < D.outLen → hashed.length = D.outLen →
      D.outLen + salt.length + 2 ≤ (bitSize - 1 + 7) / 8 → R.fill r salt.length = (some salt, r') →
      pss.Pss.sign ⟨false, DigestState.new D, salt.length⟩ R f (some r) k hashed = .ok sig →
      pss.Pss.verify ⟨false, DigestState.new D, salt.length⟩ k.toPublicKey hashed sig = .ok ()) ∧
    (bitSize % 128 ≤ 1 ∨ 64 < bitSize % 128 →
      (∀ (S : pkcs1v15.Pkcs1v15Sign) hashed sig, S.sign R f rng k hashed = .ok sig →
        S.verify k.toPublicKey hashed sig = .ok ()) ∧
      (∀ (D : HashFn) saltLen msg sg, 0 < D.outLen → D.outLen + saltLen + 2 < 2 ^ 64 →
        (pss.SigningKey.trySignWithRng (D := D) R f r ⟨k, saltLen⟩ msg = .ok sg ∨
          pss.BlindedSigningKey.trySignWithRng (D := D) R f r ⟨k, saltLen⟩ msg = .ok sg) →
        (pss.VerifyingKey.newWithSaltLen (D := D) k.toPublicKey saltLen).verify msg sg = .ok ())) ∧
    (∃ b k', k.toPkcs8Der = .ok b ∧ PrivateKey.fromPkcs8Der b = .ok k' ∧ k'.eq k = true ∧ WellFormed k' ∧
      NoSpareLimbs k'.pub ∧
      ∀ (S : pkcs1v15.Pkcs1v15Sign) hashed sig, S.sign R f rng k hashed = .ok sig →
        S.verify k'.toPublicKey hashed sig = .ok ()) := by
  obtain ⟨h4, h32⟩ := generated_range hP h
  obtain ⟨hwf, hsz, -, -⟩ := C31_generated_key G hP fuel s s' bitSize exp k h
  obtain ⟨p, q, hps, hp, hq, hn, hd, hv, hdlt⟩ := generated_facts hP hG h4 h32 h
  obtain ⟨hl, hsp⟩ := C66_storage G hP bitSize hG fuel s s' exp k h
  have hchk := checkPublic_of_validate hv
  obtain ⟨c1, -⟩ := (checkPublic_ok _).mp hchk
  have hp32 : k.pub.n.prec < 2 ^ 32 := by omega
  have hn4 : k.pub.n.nlimbs ≤ 64 := by unfold prec at c1; omega
  refine ⟨?_, ?_, ?_, ?_, ?_⟩
  · intro msg ct he
    exact C06_encryption_round_trip R f r r' hwf msg ct he R f rng hb
  · intro D MGD label msg ct hm h5 he
    rw [(C24_oaep_agree R f D MGD label).2.2.1] at he
    exact (C14_oaep_round_trip R r r' hwf D MGD hm label (Or.inr h5) msg ct he R f rng hb).2
  · intro D hashed salt sig hD hh hfit hfill hs
    obtain ⟨sig', -, -, hver, hsign⟩ := C18_pss_round_trip hwf hp32 D hD hashed salt hh (by rw [hsz]; exact hfit)
    have := (hsign R f r r' hfill).1
    rw [hs] at this
    obtain rfl := Res.ok.inj this
    exact hver false
  · intro hsize
    have hns := hsp.mpr hsize
    refine ⟨fun S hashed sig hs => C49_genuine_verify_partial hwf hns hp32 S R f rng hb hashed sig hs, ?_⟩
    intro D saltLen msg sg hD hadd hs
    exact C50_genuine_verify_partial hwf.coherent hns hp32 D hD saltLen hadd R f r msg sg (hs.symm.imp id (fun x => ⟨hwf, x⟩))
  · obtain ⟨b, k', hb', hk', he, hwf', -⟩ := C36_well_formed_round_trip k p q hwf hv hps (by unfold prec; omega)
      (by unfold prec; omega) (by unfold prec; omega) hdlt
    have hns' := decoded_noSpare hk'
    refine ⟨b, k', hb', hk', he, hwf', hns', ?_⟩
    intro S hashed sig hs
    obtain ⟨hv', -⟩ := C57_private_decoding_sound b k' hk'
    obtain ⟨c1', -⟩ := (checkPublic_ok _).mp (checkPublic_of_validate hv')
    have hnn : k'.pub.n.val = k.pub.n.val := by
      simp only [PrivateKey.eq, PublicKey.eq, BoxedUint.beq, Bool.and_eq_true, beq_iff_eq] at he
      exact he.1.1.1
    rw [← (C59_equal_private_keys hwf' hwf he R f rng (by rw [hnn]; exact hb)).1 S hashed] at hs
    exact C49_genuine_verify_partial hwf' hns' (by omega) S R f rng (by rw [hnn]; exact hb) hashed sig hs

/-- C66 refuted for the remaining sizes (`128 j + r`, `2 ≤ r ≤ 64`, for instance 3000 or 1600 bits): every PKCS#1 v1.5
signature string of the modulus' length is rejected, in particular every one the key makes, and likewise for typed PSS
keys. -/
theorem C66_own_signatures_rejected {σ : Type} (G : PrimeGen σ) (hP : PrimeSearch G) (bitSize : Nat)
    (hG : TopHalves G bitSize) (hsize : 2 ≤ bitSize % 128 ∧ bitSize % 128 ≤ 64) (fuel : Nat) (s s' : σ)
    (exp : BoxedUint) (k : PrivateKey) (h : PrivateKey.newWithExp G fuel s bitSize exp = .ok (k, s')) :
    (∀ (S : pkcs1v15.Pkcs1v15Sign) hashed sig, sig.length = octetLen k.pub.n.val →
      S.verify k.toPublicKey hashed sig ≠ .ok ()) ∧
    (∀ (S : pkcs1v15.Pkcs1v15Sign) {τ : Type} (R : RngImpl τ) f rng hashed sig,
      S.sign R f rng k hashed = .ok sig → S.verify k.toPublicKey hashed sig ≠ .ok ()) ∧
    (∀ (D : HashFn) saltLen sig, sig.length = octetLen k.pub.n.val → ∃ sg, pss.Signature.tryFrom sig = .ok sg ∧
      ∀ msg, (pss.VerifyingKey.newWithSaltLen (D := D) k.toPublicKey saltLen).verify msg sg = .err .verification) := by
  obtain ⟨h4, h32⟩ := generated_range hP h
  obtain ⟨hwf, -⟩ := C31_generated_key G hP fuel s s' bitSize exp k h
  obtain ⟨-, -, -, -, -, -, -, hv, -⟩ := generated_facts hP hG h4 h32 h
  obtain ⟨-, hsp⟩ := C66_storage G hP bitSize hG fuel s s' exp k h
  obtain ⟨c1, -⟩ := (checkPublic_ok _).mp (checkPublic_of_validate hv)
  have hns : ¬ NoSpareLimbs k.pub := by rw [hsp]; omega
  refine ⟨?_, ?_, ?_⟩
  · intro S hashed sig hl
    exact C49_spare_limbs_reject k.pub hwf.coherent hns S hashed sig hl
  · intro S τ R f rng hashed sig hs
    obtain ⟨_, -, hs⟩ := Res.map_ok hs
    exact C49_spare_limbs_reject k.pub hwf.coherent hns S hashed sig
      ((pkcs1v15.sign_length R f rng k _ _ _ hs).trans (size_eq_octetLen k.pub))
  · intro D saltLen sig hl
    exact C50_spare_limbs_reject (pss.VerifyingKey.newWithSaltLen (D := D) k.pub saltLen) hwf.coherent hns
      (show k.pub.n.prec < 2 ^ 32 by omega) sig hl

/-! ### Examples: a 128-bit key, stored exactly, and a 64-bit key, stored with a spare limb -/

/-- Lucas' test for `c 2^m + 1`. -/
theorem lucas_proth {c m g : Nat} (hc : c.Prime) (h1 : MontyForm.powMod g (c * 2 ^ m) (c * 2 ^ m + 1) = 1)
    (h2 : MontyForm.powMod g (c * 2 ^ m / 2) (c * 2 ^ m + 1) ≠ 1)
    (h3 : MontyForm.powMod g (c * 2 ^ m / c) (c * 2 ^ m + 1) ≠ 1) : (c * 2 ^ m + 1).Prime := by
  have hz : ∀ x : Nat, (g : ZMod (c * 2 ^ m + 1)) ^ x = 1 ↔ MontyForm.powMod g x (c * 2 ^ m + 1) = 1 := by
    intro x
    have hpos : 1 < c * 2 ^ m + 1 := by
      have := Nat.mul_pos hc.pos (Nat.two_pow_pos m); omega
    have := ZMod.natCast_eq_natCast_iff (g ^ x) 1 (c * 2 ^ m + 1)
    rw [Nat.cast_pow, Nat.cast_one] at this
    rw [MontyForm.powMod_eq, this]
    unfold Nat.ModEq
    rw [Nat.mod_eq_of_lt hpos]
  refine lucas_primality _ (g : ZMod (c * 2 ^ m + 1)) ((hz _).mpr h1) ?_
  intro q hq hdvd
  rw [Nat.add_sub_cancel] at hdvd ⊢
  rw [ne_eq, hz]
  rcases (hq.dvd_mul).mp hdvd with h | h
  · rw [(Nat.prime_dvd_prime_iff_eq hq hc).mp h]; exact h3
  · rw [(Nat.prime_dvd_prime_iff_eq hq Nat.prime_two).mp (hq.dvd_of_dvd_pow h)]; exact h2

theorem Ex.prime64a : Nat.Prime (1571 * 2 ^ 53 + 1) :=
  lucas_proth (g := 3) (by norm_num) (by decide +kernel) (by decide +kernel) (by decide +kernel)

theorem Ex.prime64b : Nat.Prime (1733 * 2 ^ 53 + 1) :=
  lucas_proth (g := 3) (by norm_num) (by decide +kernel) (by decide +kernel) (by decide +kernel)

/-- A prime search alternating between two 64-bit primes. -/
def Ex.pair64 : PrimeGen Nat :=
  ⟨fun s _ => (if s % 2 = 0 then wrap 1 (1571 * 2 ^ 53 + 1) else wrap 1 (1733 * 2 ^ 53 + 1), s + 1)⟩

theorem Ex.pair64_prime : PrimeSearch Ex.pair64 := by
  intro s b _
  simp only [Ex.pair64]
  split
  · exact Ex.prime64a
  · exact Ex.prime64b

theorem Ex.pair64_top : TopHalves Ex.pair64 128 := by
  have h : TopBits Ex.pair64 64 := by
    constructor <;> intro s <;> simp only [Ex.pair64] <;> split <;> decide
  exact ⟨h, h⟩

/-- Generation at 128 bits succeeds and its key has no spare limb. -/
example : ∃ k, PrivateKey.newWithExp Ex.pair64 1 0 128 (wrap 1 65537) = .ok (k, 2) ∧ NoSpareLimbs k.pub := by
  obtain ⟨k, h1, -⟩ := C54_first_usable_pair Ex.pair64 Ex.pair64_prime 128 Ex.pair64_top (by omega)
    (by omega) (wrap 1 65537) (by decide) (by decide) (by decide) (by decide) 0 2 (wrap 1 (1571 * 2 ^ 53 + 1))
    (wrap 1 (1733 * 2 ^ 53 + 1)) 1 (.good 0 (by decide) (by decide +kernel)) 1 le_rfl
  refine ⟨k, h1, ?_⟩
  rw [(C66_storage _ Ex.pair64_prime 128 Ex.pair64_top _ _ _ _ k h1).2]
  decide

/-- With this key a three-octet message makes the trip, a signature of a two-octet hash verifies, and the key encodes. -/
example : (match PrivateKey.newWithExp Ex.pair64 1 0 128 (wrap 1 65537) with
    | .ok (k, _) =>
      (match pkcs1v15.encrypt Ex.countingRng 1 7 k.toPublicKey [7, 8, 9] with
        | .ok (ct, _) => decide (pkcs1v15.decrypt Ex.countingRng 0 none k ct = .ok [7, 8, 9])
        | _ => false) &&
      (match pkcs1v15.Pkcs1v15Sign.newUnprefixed.sign Ex.countingRng 0 none k [1, 2] with
        | .ok sig => decide (pkcs1v15.Pkcs1v15Sign.newUnprefixed.verify k.toPublicKey [1, 2] sig = .ok ())
        | _ => false) &&
      (match k.toPkcs8Der with
        | .ok _ => true
        | _ => false)
    | _ => false) = true := by decide +kernel

/-- At 64 bits the key rejects its own signatures. -/
example : ∃ k, PrivateKey.newWithExp Ex.alternating 2 0 64 (wrap 1 65537) = .ok (k, 4) ∧ ¬ NoSpareLimbs k.pub := by
  obtain ⟨k, h1, -⟩ := C54_first_usable_pair Ex.alternating Ex.alternating_prime 64 Ex.alternating_top (by omega)
    (by omega) (wrap 1 65537) (by decide) (by decide) (by decide) (by decide) 0 4 (wrap 1 (2 ^ 32 - 5))
    (wrap 1 (2 ^ 32 - 17)) 2 (.again 0 _ _ _ 1 (Or.inl (by decide)) (.good 2 (by decide) (by decide +kernel))) 2 le_rfl
  refine ⟨k, h1, ?_⟩
  rw [(C66_storage _ Ex.alternating_prime 64 Ex.alternating_top _ _ _ _ k h1).2]
  decide

end RSA
