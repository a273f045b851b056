import Verif.Props.CrtFault
import Verif.Props.Pkcs1v15
import Verif.Props.Pss
import Mathlib.NumberTheory.LegendreSymbol.JacobiSymbol
import Mathlib.Data.Nat.ChineseRemainder

/-
C101: what the algebra of the raw operations allows without the private key: products, borrowed decryptions, fixed points,
cycles and the Jacobi symbol.
-/
namespace RSA
open BoxedUint Spec

/-! ### Counting fixed points -/

theorem card_fixed_mul {s t m : Nat} (hco : Nat.Coprime s t) (hs : 0 < s) (ht : 0 < t) :
    Set.ncard {c : Nat | c < s * t ∧ c ^ m ≡ c [MOD s * t]} =
      Set.ncard {c : Nat | c < s ∧ c ^ m ≡ c [MOD s]} * Set.ncard {c : Nat | c < t ∧ c ^ m ≡ c [MOD t]} := by
  classical
  rw [ncard_filter, ncard_filter, ncard_filter, ← Finset.card_product]
  have red : ∀ (x y w : Nat), x ≡ y [MOD w] → x ^ m ≡ x [MOD w] → y ^ m ≡ y [MOD w] :=
    fun x y w h h' => ((h.pow m).symm.trans h').trans h
  refine Finset.card_nbij' (fun c => (c % s, c % t)) (fun x => (Nat.chineseRemainder hco x.1 x.2 : Nat)) ?_ ?_ ?_ ?_
  · intro c hc
    simp only [Finset.coe_filter, Finset.mem_range, Set.mem_ofPred_eq] at hc
    obtain ⟨-, hc⟩ := hc
    obtain ⟨h1, h2⟩ := (Nat.modEq_and_modEq_iff_modEq_mul hco).mpr hc
    simp only [Finset.coe_product, Set.mem_prod, Finset.coe_filter, Finset.mem_range, Set.mem_ofPred_eq]
    exact ⟨⟨Nat.mod_lt _ hs, red _ _ _ (Nat.mod_modEq _ _).symm h1⟩, Nat.mod_lt _ ht, red _ _ _ (Nat.mod_modEq _ _).symm h2⟩
  · rintro ⟨x, y⟩ hc
    simp only [Finset.coe_product, Set.mem_prod, Finset.coe_filter, Finset.mem_range, Set.mem_ofPred_eq] at hc ⊢
    obtain ⟨⟨-, h1⟩, -, h2⟩ := hc
    have h := (Nat.chineseRemainder hco x y).prop
    exact ⟨Nat.chineseRemainder_lt_mul hco x y hs.ne' ht.ne',
      (Nat.modEq_and_modEq_iff_modEq_mul hco).mp ⟨red _ _ _ h.1.symm h1, red _ _ _ h.2.symm h2⟩⟩
  · intro c hc
    simp only [Finset.coe_filter, Finset.mem_range, Set.mem_ofPred_eq] at hc
    have h := (Nat.chineseRemainder hco (c % s) (c % t)).prop
    have h2 := (Nat.modEq_and_modEq_iff_modEq_mul hco).mp
      ⟨h.1.trans (Nat.mod_modEq _ _), h.2.trans (Nat.mod_modEq _ _)⟩
    exact Nat.ModEq.eq_of_lt_of_lt h2 (Nat.chineseRemainder_lt_mul hco _ _ hs.ne' ht.ne') hc.1
  · rintro ⟨x, y⟩ hc
    simp only [Finset.coe_product, Set.mem_prod, Finset.coe_filter, Finset.mem_range, Set.mem_ofPred_eq] at hc
    obtain ⟨⟨h1, -⟩, h2, -⟩ := hc
    have h := (Nat.chineseRemainder hco x y).prop
    exact Prod.ext (Eq.trans h.1 (Nat.mod_eq_of_lt h1)) (Eq.trans h.2 (Nat.mod_eq_of_lt h2))

theorem card_fixed_list (m : Nat) : ∀ l : List Nat, (∀ p ∈ l, p.Prime) → l.Nodup →
    Set.ncard {c : Nat | c < l.prod ∧ c ^ (m + 1) ≡ c [MOD l.prod]} = (l.map fun p => 1 + (p - 1).gcd m).prod
  | [], _, _ => by
    have : {c : Nat | c < ([] : List Nat).prod ∧ c ^ (m + 1) ≡ c [MOD ([] : List Nat).prod]} = {0} := by
      ext c
      simp only [List.prod_nil, Set.mem_ofPred_eq, Set.mem_singleton_iff]
      exact ⟨fun h => by omega, fun h => by subst h; exact ⟨by norm_num, Nat.modEq_one⟩⟩
    rw [this]; simp
  | p :: l, hp, hn => by
    have hp1 : p.Prime := hp p (by simp)
    have hl : ∀ r ∈ l, r.Prime := fun r hr => hp r (by simp [hr])
    have hco : Nat.Coprime p l.prod := by
      apply Nat.Coprime.symm
      apply Nat.coprime_list_prod_left_iff.mpr
      intro r hr
      exact (Nat.coprime_primes (hl r hr) hp1).mpr fun h => (List.nodup_cons.mp hn).1 (h ▸ hr)
    have hpos : 0 < l.prod := List.prod_pos fun r hr => (hl r hr).pos
    rw [List.prod_cons, card_fixed_mul hco hp1.pos hpos, card_fixed hp1,
      card_fixed_list m l hl (List.nodup_cons.mp hn).2]
    simp

theorem prime_odd {k : PrivateKey} (hk : WellFormed k) {p : Nat} (hp : p ∈ k.primes.map BoxedUint.val) :
    p.Prime ∧ p ≠ 2 := by
  refine ⟨hk.numbers.prime p hp, fun h => ?_⟩
  have := hk.numbers.exp p hp
  rw [h] at this; omega

theorem exp_odd {k : PrivateKey} (hk : WellFormed k) : k.pub.e.val % 2 = 1 := by
  have h2 := hk.numbers.two
  obtain ⟨p, hp⟩ := List.exists_mem_of_length_pos (l := k.primes.map BoxedUint.val) (by omega)
  obtain ⟨h1, h3⟩ := prime_odd hk hp
  have hodd := (Nat.Prime.eq_two_or_odd h1).resolve_left h3
  have h := hk.numbers.exp p hp
  have hd : 2 ∣ p - 1 := by omega
  have h4 : k.d.val * k.pub.e.val % 2 = 1 := by
    rw [← Nat.mod_mod_of_dvd _ hd, h]
  rcases Nat.mod_two_eq_zero_or_one k.pub.e.val with h5 | h5
  · rw [Nat.mul_mod, h5] at h4; simp at h4
  · exact h5

section
variable {k : PrivateKey}

theorem enc_val (hk : k.pub.Coherent) (m : BoxedUint) (hm : m.val < k.pub.n.val) (x : BoxedUint)
    (h : rsaEncrypt k.pub m = .ok x) : x = wrap k.pub.n.nlimbs (m.val ^ k.pub.e.val % k.pub.n.val) := by
  rw [rsaEncrypt_lt k.pub hk m (lt_trans hm k.pub.n.isLt)] at h
  simpa using h.symm

/-! ### C101 -/

/-- C101: the raw public operation turns products into products, whatever the key. -/
theorem C101_public_product (K : PublicKey) (hk : K.Coherent) (s t st x y z : BoxedUint) (hs : s.val < K.n.val)
    (ht : t.val < K.n.val) (hst : st.val = s.val * t.val % K.n.val)
    (hx : rsaEncrypt K s = .ok x) (hy : rsaEncrypt K t = .ok y) (hz : rsaEncrypt K st = .ok z) :
    z.val = x.val * y.val % K.n.val := by
  have hn := coherent_pos hk
  rw [rsaEncrypt_lt K hk s (lt_trans hs K.n.isLt)] at hx
  rw [rsaEncrypt_lt K hk t (lt_trans ht K.n.isLt)] at hy
  rw [rsaEncrypt_lt K hk st (lt_trans (by rw [hst]; exact Nat.mod_lt _ hn) K.n.isLt)] at hz
  obtain rfl : wrap K.n.nlimbs (s.val ^ K.e.val % K.n.val) = x := by simpa using hx
  obtain rfl : wrap K.n.nlimbs (t.val ^ K.e.val % K.n.val) = y := by simpa using hy
  obtain rfl : wrap K.n.nlimbs (st.val ^ K.e.val % K.n.val) = z := by simpa using hz
  rw [wrap_mod_val _ hn, wrap_mod_val _ hn, wrap_mod_val _ hn, hst, ← Nat.pow_mod, mul_pow, ← Nat.mul_mod]

/-- A result of the checked private operation of a well-formed key is the root there is. -/
theorem checked_val {σ : Type} (R : RngImpl σ) (fuel : Nat) (hk : WellFormed k) (rng rng' : Option σ) (c m : BoxedUint)
    (h : rsaDecryptAndCheck R fuel k rng c = .ok (m, rng')) :
    c.val < k.pub.n.val ∧ m.val < k.pub.n.val ∧ m.val ^ k.pub.e.val ≡ c.val [MOD k.pub.n.val] := by
  obtain ⟨h1, h2, -⟩ := C04_fault_safety R fuel k hk.coherent rng rng' c m h
  refine ⟨h1, C48_reduced_partial R fuel k hk.coherent rng rng' c m h (by simp [hk]), ?_⟩
  show _ % _ = _ % _
  rw [h2, Nat.mod_eq_of_lt h1]

/-- C101: so does the private operation. Whoever has the results of two numbers has the result of their product. -/
theorem C101_private_product {σ τ υ : Type} (R : RngImpl σ) (S : RngImpl τ) (T : RngImpl υ) (fR fS fT : Nat)
    (hk : WellFormed k) (r r' : Option σ) (s s' : Option τ) (t t' : Option υ) (b c bc x y z : BoxedUint)
    (hbc : bc.val = b.val * c.val % k.pub.n.val)
    (hx : rsaDecryptAndCheck R fR k r b = .ok (x, r')) (hy : rsaDecryptAndCheck S fS k s c = .ok (y, s'))
    (hz : rsaDecryptAndCheck T fT k t bc = .ok (z, t')) : z.val = x.val * y.val % k.pub.n.val := by
  obtain ⟨-, hx1, hx2⟩ := checked_val R fR hk r r' b x hx
  obtain ⟨-, hy1, hy2⟩ := checked_val S fS hk s s' c y hy
  obtain ⟨-, hz1, hz2⟩ := checked_val T fT hk t t' bc z hz
  apply wf_inj hk hz1 (Nat.mod_lt _ (coherent_pos hk.coherent))
  rw [← Nat.pow_mod, mul_pow]
  refine Eq.trans hz2 (Nat.ModEq.trans ?_ (hx2.mul hy2).symm)
  rw [hbc]
  exact Nat.mod_modEq _ _

/-- C101: a borrowed decryption. The result of a ciphertext follows from that of another that looks nothing like it: of its
product with the public power of any number `u` with an inverse `v`. -/
theorem C101_borrowed {σ τ : Type} (R : RngImpl σ) (S : RngImpl τ) (fR fS : Nat) (hk : WellFormed k)
    (r r' : Option σ) (s s' : Option τ) (c c' m m' : BoxedUint) (u v : Nat) (huv : u * v % k.pub.n.val = 1)
    (hc : c'.val = c.val * u ^ k.pub.e.val % k.pub.n.val)
    (hm : rsaDecryptAndCheck R fR k r c = .ok (m, r')) (hm' : rsaDecryptAndCheck S fS k s c' = .ok (m', s')) :
    m.val = m'.val * v % k.pub.n.val := by
  obtain ⟨hc1, hm1, hm2⟩ := checked_val R fR hk r r' c m hm
  obtain ⟨-, hm1', hm2'⟩ := checked_val S fS hk s s' c' m' hm'
  have hn := coherent_pos (k := k.pub) hk.coherent
  apply wf_inj hk hm1 (Nat.mod_lt _ hn)
  have h1 : u * v % k.pub.n.val = 1 % k.pub.n.val := by rw [huv]; exact (one_mod_of huv).symm
  exact Eq.trans hm2 (unblind_half (dvd_refl _) h1 (by rw [← hc]; exact hm2')).symm

/-- C101: how many messages encryption leaves as they are: `1 + gcd(p - 1, e - 1)` for each prime, multiplied. -/
theorem C101_unconcealed (hk : WellFormed k) :
    Set.ncard {m : Nat | m < k.pub.n.val ∧ ∃ x, rsaEncrypt k.pub (wrap k.pub.n.nlimbs m) = .ok x ∧ x.val = m} =
      (k.primes.map fun p => 1 + (p.val - 1).gcd (k.pub.e.val - 1)).prod := by
  have hn := coherent_pos (k := k.pub) hk.coherent
  have he := exp_odd hk
  have hset : {m : Nat | m < k.pub.n.val ∧ ∃ x, rsaEncrypt k.pub (wrap k.pub.n.nlimbs m) = .ok x ∧ x.val = m} =
      {c : Nat | c < (k.primes.map BoxedUint.val).prod ∧
        c ^ (k.pub.e.val - 1 + 1) ≡ c [MOD (k.primes.map BoxedUint.val).prod]} := by
    ext m
    rw [hk.numbers.prod, Nat.sub_add_cancel (by omega)]
    refine and_congr_right fun hm => ?_
    have hv : (wrap k.pub.n.nlimbs m).val = m := wrap_lt_val hm
    rw [rsaEncrypt_lt k.pub hk.coherent _ (by rw [hv]; exact lt_trans hm k.pub.n.isLt), hv]
    constructor
    · rintro ⟨x, hx, hxm⟩
      obtain rfl := Res.ok.inj hx
      rw [wrap_mod_val _ hn] at hxm
      show _ % _ = m % _
      rw [hxm, Nat.mod_eq_of_lt hm]
    · intro h
      refine ⟨_, rfl, ?_⟩
      rw [wrap_mod_val _ hn]
      exact Eq.trans h (Nat.mod_eq_of_lt hm)
  rw [hset, card_fixed_list _ _ hk.numbers.prime hk.numbers.nodup, List.map_map]
  rfl

/-- C101: there are at least three for each prime, so nine under any key. -/
theorem C101_at_least (hk : WellFormed k) :
    3 ^ k.primes.length ≤
      Set.ncard {m : Nat | m < k.pub.n.val ∧ ∃ x, rsaEncrypt k.pub (wrap k.pub.n.nlimbs m) = .ok x ∧ x.val = m} := by
  rw [C101_unconcealed hk]
  have he := exp_odd hk
  have h : ∀ p ∈ k.primes, 3 ≤ 1 + (p.val - 1).gcd (k.pub.e.val - 1) := by
    intro p hp
    obtain ⟨h1, h2⟩ := prime_odd hk (List.mem_map_of_mem (f := BoxedUint.val) hp)
    have hodd := (Nat.Prime.eq_two_or_odd h1).resolve_left h2
    have h3 := h1.two_le
    have hd : 2 ∣ (p.val - 1).gcd (k.pub.e.val - 1) := Nat.dvd_gcd (by omega) (by omega)
    have h4 : 0 < (p.val - 1).gcd (k.pub.e.val - 1) := Nat.gcd_pos_of_pos_left _ (by omega)
    have := Nat.le_of_dvd h4 hd
    omega
  generalize k.primes = l at h
  induction l with
  | nil => simp
  | cons p l ih =>
    rw [List.length_cons, List.map_cons, List.prod_cons, pow_succ, mul_comm]
    exact Nat.mul_le_mul (h p (by simp)) (ih fun r hr => h r (by simp [hr]))

/-- What `i` encryptions one after the other make of `m`. -/
theorem iterate_enc (hk : WellFormed k) (i m : Nat) (hm : m < k.pub.n.val) :
    (fun r => r >>= rsaEncrypt k.pub)^[i] (.ok (wrap k.pub.n.nlimbs m)) =
      .ok (wrap k.pub.n.nlimbs (m ^ k.pub.e.val ^ i % k.pub.n.val)) := by
  have hn := coherent_pos (k := k.pub) hk.coherent
  induction i with
  | zero => simp [Nat.mod_eq_of_lt hm]
  | succ i ih =>
    rw [Function.iterate_succ_apply', ih]
    show rsaEncrypt k.pub _ = _
    have hv := wrap_mod_val k.pub.n hn (m ^ k.pub.e.val ^ i)
    rw [rsaEncrypt_lt k.pub hk.coherent _ (by rw [hv]; exact lt_trans (Nat.mod_lt _ hn) k.pub.n.isLt), hv,
      ← Nat.pow_mod, ← pow_mul, pow_succ]

theorem all_fixed_iff {l : List Nat} (hp : ∀ p ∈ l, p.Prime) (hn : l.Nodup) (h2 : ∀ p ∈ l, p ≠ 2) (m : Nat) :
    (∀ c < l.prod, c ^ (m + 1) ≡ c [MOD l.prod]) ↔ ∀ p ∈ l, (p - 1) ∣ m := by
  constructor
  · intro h p hpl
    have hpp := hp p hpl
    have hd : p ∣ l.prod := List.dvd_prod hpl
    have hall : {c : Nat | c < p ∧ c ^ (m + 1) ≡ c [MOD p]} = {c | c < p} := by
      ext c
      refine ⟨fun h => h.1, fun hc => ⟨hc, ?_⟩⟩
      have hpos : 0 < l.prod := List.prod_pos fun r hr => (hp r hr).pos
      exact (h c (lt_of_lt_of_le hc (Nat.le_of_dvd hpos hd))).of_dvd hd
    have h1 := card_fixed (m := m) hpp
    rw [hall] at h1
    have h2 : Set.ncard {c : Nat | c < p} = p := by
      have : {c : Nat | c < p} = ((Finset.range p : Finset Nat) : Set Nat) := by ext c; simp
      rw [this, Set.ncard_coe_finset, Finset.card_range]
    rw [h2] at h1
    have h3 : (p - 1).gcd m = p - 1 := by omega
    rw [← h3]; exact Nat.gcd_dvd_right _ _
  · intro h c _
    have := rsa_exp l 1 (m + 1) c hp hn h2 (by
      intro p hpl
      obtain ⟨t, ht⟩ := h p hpl
      rw [one_mul, ht, Nat.mul_add_mod])
    rw [one_mul] at this
    exact this

/-- C101: after how many encryptions, one after the other, every message is back: exactly when `p - 1` divides
`e ^ i - 1` for every prime `p`. -/
theorem C101_cycle (hk : WellFormed k) (i : Nat) :
    (∀ m < k.pub.n.val, (fun r => r >>= rsaEncrypt k.pub)^[i] (.ok (wrap k.pub.n.nlimbs m)) =
      .ok (wrap k.pub.n.nlimbs m)) ↔ ∀ p ∈ k.primes, (p.val - 1) ∣ k.pub.e.val ^ i - 1 := by
  have hn := coherent_pos (k := k.pub) hk.coherent
  have he : 1 ≤ k.pub.e.val ^ i := Nat.one_le_pow _ _ (by have := exp_odd hk; omega)
  have h := all_fixed_iff hk.numbers.prime hk.numbers.nodup (fun p hp => (prime_odd hk hp).2) (k.pub.e.val ^ i - 1)
  rw [hk.numbers.prod, Nat.sub_add_cancel he] at h
  rw [List.forall_mem_map] at h
  rw [← h]
  refine forall_congr' fun m => imp_congr_right fun hm => ?_
  rw [iterate_enc hk i m hm]
  constructor
  · intro h
    have h1 := congrArg BoxedUint.val (Res.ok.inj h)
    rw [wrap_mod_val _ hn, wrap_lt_val hm] at h1
    show _ % _ = m % _
    rw [h1, Nat.mod_eq_of_lt hm]
  · intro h
    have h1 : m ^ k.pub.e.val ^ i % k.pub.n.val = m := Eq.trans h (Nat.mod_eq_of_lt hm)
    rw [h1]

theorem prod_pred_lt : ∀ l : List Nat, (∀ p ∈ l, 2 ≤ p) → l ≠ [] → (l.map (· - 1)).prod < l.prod
  | [], _, h => absurd rfl h
  | [p], hp, _ => by have := hp p (by simp); simp; omega
  | p :: r :: l, hp, _ => by
    have ih := prod_pred_lt (r :: l) (fun x hx => hp x (by simp at hx ⊢; tauto)) (by simp)
    have := hp p (by simp)
    rw [List.map_cons, List.prod_cons, List.prod_cons]
    calc (p - 1) * ((r :: l).map (· - 1)).prod ≤ (p - 1) * (r :: l).prod := Nat.mul_le_mul_left _ ih.le
      _ < p * (r :: l).prod := Nat.mul_lt_mul_of_pos_right (by omega) (by omega)

/-- C101: and fewer than `n` encryptions always suffice. -/
theorem C101_cycle_exists (hk : WellFormed k) : ∃ i, 0 < i ∧ i < k.pub.n.val ∧ ∀ m < k.pub.n.val,
    (fun r => r >>= rsaEncrypt k.pub)^[i] (.ok (wrap k.pub.n.nlimbs m)) = .ok (wrap k.pub.n.nlimbs m) := by
  set l := k.primes.map BoxedUint.val with hl
  set L := (l.map (· - 1)).prod with hL
  have h2 : ∀ p ∈ l, 2 ≤ p := fun p hp => (hk.numbers.prime p hp).two_le
  have hpos : 0 < L := by
    apply List.prod_pos
    intro x hx
    obtain ⟨p, hp, rfl⟩ := List.mem_map.mp hx
    have := h2 p hp; omega
  have hlt : L < k.pub.n.val := by
    rw [← hk.numbers.prod]
    refine prod_pred_lt l h2 fun h => ?_
    have := hk.numbers.two
    rw [← hl, h] at this; simp at this
  have hco : Nat.Coprime k.pub.e.val L := by
    apply Nat.coprime_list_prod_right_iff.mpr
    intro x hx
    obtain ⟨p, hp, rfl⟩ := List.mem_map.mp hx
    have h := hk.numbers.exp p hp
    have h1 : Nat.Coprime (k.d.val * k.pub.e.val) (p - 1) := by
      have h2 : k.d.val * k.pub.e.val ≡ 1 [MOD p - 1] := Eq.trans h (one_mod_of h).symm
      have := h2.gcd_eq
      rwa [Nat.gcd_one_left] at this
    exact Nat.Coprime.coprime_mul_left h1
  refine ⟨Nat.totient L, Nat.totient_pos.mpr hpos, lt_of_le_of_lt (Nat.totient_le L) hlt, ?_⟩
  refine (C101_cycle hk _).mpr fun p hp => ?_
  have h := Nat.ModEq.pow_totient hco
  have he : 1 ≤ k.pub.e.val ^ Nat.totient L := Nat.one_le_pow _ _ (by have := exp_odd hk; omega)
  have h3 : L ∣ k.pub.e.val ^ Nat.totient L - 1 := (Nat.modEq_iff_dvd' he).mp h.symm
  exact dvd_trans (List.dvd_prod (List.mem_map.mpr ⟨p.val, List.mem_map_of_mem hp, rfl⟩)) h3

/-- C101: whoever sees a ciphertext come back after `i + 1` encryptions had the plaintext one step earlier. -/
theorem C101_cycling {σ : Type} (R : RngImpl σ) (fuel : Nat) (hk : WellFormed k) (rng rng' : Option σ) (c m : BoxedUint)
    (hw : c.nlimbs = k.pub.n.nlimbs) (hm : rsaDecryptAndCheck R fuel k rng c = .ok (m, rng')) (i : Nat)
    (h : (fun r => r >>= rsaEncrypt k.pub)^[i + 1] (.ok c) = .ok c) :
    ∃ x, (fun r => r >>= rsaEncrypt k.pub)^[i] (.ok c) = .ok x ∧ x.val = m.val := by
  have hn := coherent_pos (k := k.pub) hk.coherent
  obtain ⟨hc1, hm1, hm2⟩ := checked_val R fuel hk rng rng' c m hm
  have hcw : c = wrap k.pub.n.nlimbs c.val := by rw [← hw, BoxedUint.wrap_self]
  have h1 := iterate_enc hk (i + 1) c.val hc1
  have h2 := iterate_enc hk i c.val hc1
  rw [← hcw] at h1 h2
  rw [h1] at h
  refine ⟨_, h2, ?_⟩
  have h3 := congrArg BoxedUint.val (Res.ok.inj h)
  rw [wrap_mod_val _ hn] at h3 ⊢
  apply wf_inj hk (Nat.mod_lt _ hn) hm1
  rw [← Nat.pow_mod, ← pow_mul, ← pow_succ, h3]
  exact (Eq.trans hm2 (Nat.mod_eq_of_lt hc1)).symm

/-- C101: a ciphertext shows the Jacobi symbol of what was encrypted. -/
theorem C101_jacobi (hk : WellFormed k) (m x : BoxedUint) (hm : m.val < k.pub.n.val)
    (h : rsaEncrypt k.pub m = .ok x) : jacobiSym x.val k.pub.n.val = jacobiSym m.val k.pub.n.val := by
  have hn := coherent_pos (k := k.pub) hk.coherent
  obtain rfl := enc_val hk.coherent m hm x h
  rw [wrap_mod_val _ hn]
  push_cast
  rw [← jacobiSym.mod_left, jacobiSym.pow_left]
  have he : Odd k.pub.e.val := Nat.odd_iff.mpr (exp_odd hk)
  rcases jacobiSym.trichotomy m.val k.pub.n.val with h | h | h <;> rw [h]
  · exact zero_pow (by have := exp_odd hk; omega)
  · exact one_pow _
  · exact he.neg_one_pow

end

/-! ### What the PKCS#1 v1.5 encodings make of it -/

theorem i2osp_iff {x len : Nat} {em : Bytes} : i2osp x len = some em ↔ em.length = len ∧ os2ip em = x := by
  constructor
  · intro h
    by_cases hx : x < 256 ^ len
    · rw [i2osp_eq x len hx] at h
      obtain rfl := Option.some.inj h
      rw [← beVal_eq_os2ip, beVal_beBytes, Nat.mod_eq_of_lt hx]
      exact ⟨beBytes_length _ _, rfl⟩
    · rw [i2osp_none x len (by omega)] at h; cases h
  · rintro ⟨rfl, rfl⟩
    rw [← beVal_eq_os2ip, i2osp_eq _ _ (beVal_lt em), beBytes_beVal]

theorem emsa_some {t em : Bytes} {len : Nat} (h : emsaPkcs1v15 t len = some em) :
    11 ≤ len ∧ em.length = len ∧ ∃ rest, em = 0x00 :: 0x01 :: rest := by
  unfold emsaPkcs1v15 at h
  split at h
  · obtain rfl := Option.some.inj h
    refine ⟨by omega, ?_, _, rfl⟩
    simp; omega
  · cases h

/-- C101: the product of two PKCS#1 v1.5 signatures is a signature of a third digest exactly if the encoding of the third
is the product of the encodings of the first two modulo `n`. -/
theorem C101_signature_product (K : PublicKey) (hk : K.Coherent) (S : pkcs1v15.Pkcs1v15Sign) (h1 h2 h3 s1 s2 s3 : Bytes)
    (l1 : s1.length < 2 ^ 29) (l2 : s2.length < 2 ^ 29) (l3 : s3.length = s1.length)
    (hs : os2ip s3 = os2ip s1 * os2ip s2 % K.n.val)
    (v1 : S.verify K h1 s1 = .ok ()) (v2 : S.verify K h2 s2 = .ok ()) :
    S.verify K h3 s3 = .ok () ↔ (∀ l, S.hashLen = some l → h3.length = l) ∧
      ∃ em1 em2 em3, emsaPkcs1v15 (S.pfx ++ h1) (octetLen K.n.val) = some em1 ∧
        emsaPkcs1v15 (S.pfx ++ h2) (octetLen K.n.val) = some em2 ∧
        emsaPkcs1v15 (S.pfx ++ h3) (octetLen K.n.val) = some em3 ∧
        os2ip em3 = os2ip em1 * os2ip em2 % K.n.val := by
  have hn := coherent_pos hk
  obtain ⟨-, -, hw, em1, he1, ho1⟩ := (C10_verify_exact K hk S h1 s1 l1).1.mp v1
  obtain ⟨-, -, -, em2, he2, ho2⟩ := (C10_verify_exact K hk S h2 s2 l2).1.mp v2
  rw [i2osp_iff] at ho1 ho2
  rw [(C10_verify_exact K hk S h3 s3 (by omega)).1]
  have hv : os2ip s3 ^ K.e.val % K.n.val = os2ip em1 * os2ip em2 % K.n.val := by
    rw [hs, ← Nat.pow_mod, mul_pow, Nat.mul_mod, ← ho1.2, ← ho2.2]
  rw [hv]
  constructor
  · rintro ⟨hl, -, -, em3, he3, ho3⟩
    exact ⟨hl, em1, em2, em3, he1, he2, he3, (i2osp_iff.mp ho3).2⟩
  · rintro ⟨hl, em1', em2', em3, he1', he2', he3, ho3⟩
    rw [he1] at he1'; rw [he2] at he2'
    cases he1'; cases he2'
    exact ⟨hl, by rw [hs]; exact Nat.mod_lt _ hn, by rw [l3]; exact hw, em3, he3,
      i2osp_iff.mpr ⟨(emsa_some he3).2.1, ho3⟩⟩

/-- A string that begins with a zero octet and a small one is none of the numbers 0, 1 and `n - 1`. -/
theorem not_trivial {n : Nat} (hn : 0 < n) {b : UInt8} {rest : Bytes} (hb : 1 ≤ b.toNat) (hb' : b.toNat ≤ 2)
    (hl : (0x00 :: b :: rest).length = octetLen n) (h11 : 11 ≤ octetLen n) :
    os2ip (0x00 :: b :: rest) ≠ 0 ∧ os2ip (0x00 :: b :: rest) ≠ 1 ∧ os2ip (0x00 :: b :: rest) ≠ n - 1 := by
  have hv : os2ip (0x00 :: b :: rest) = b.toNat * 256 ^ rest.length + os2ip rest := by
    simp [os2ip]
  have hr : os2ip rest < 256 ^ rest.length := by rw [← beVal_eq_os2ip]; exact beVal_lt rest
  have hlen : rest.length + 2 = octetLen n := by simpa using hl
  have hbig : 256 ^ 9 ≤ 256 ^ rest.length := Nat.pow_le_pow_right (by norm_num) (by omega)
  have hlow : 256 ^ (rest.length + 1) ≤ n := by
    by_contra hlt
    have := octetLen_le (n := n) (len := rest.length + 1) (by omega)
    omega
  rw [pow_succ] at hlow
  rw [hv]
  have h1 : 256 ^ rest.length ≤ b.toNat * 256 ^ rest.length := Nat.le_mul_of_pos_left _ hb
  have h2 : b.toNat * 256 ^ rest.length ≤ 2 * 256 ^ rest.length := Nat.mul_le_mul_right _ hb'
  generalize b.toNat * 256 ^ rest.length = z at *
  generalize 256 ^ rest.length = y at *
  have : 256 ^ 9 = 4722366482869645213696 := by norm_num
  omega

theorem pred_pow {n e : Nat} (hn : 0 < n) (he : e % 2 = 1) : (n - 1) ^ e % n = (n - 1) % n := by
  have h : ((n - 1 : Nat) : Int) ^ e ≡ ((n - 1 : Nat) : Int) [ZMOD n] := by
    rw [Nat.cast_sub hn]
    push_cast
    have h1 : (n : Int) - 1 ≡ -1 [ZMOD n] := by simp [Int.ModEq, sub_eq_add_neg]
    have h2 := h1.pow e
    rw [Odd.neg_one_pow (Nat.odd_iff.mpr he)] at h2
    exact h2.trans h1.symm
  have h3 : (n - 1) ^ e ≡ n - 1 [MOD n] := (Int.natCast_modEq_iff).mp (by push_cast at h ⊢; exact h)
  exact h3

/-- The numbers 0, 1 and `n - 1` are their own powers for an odd exponent. -/
theorem trivial_pow {n e x : Nat} (hn : 1 < n) (he : e % 2 = 1) (hx : x = 0 ∨ x = 1 ∨ x = n - 1) : x ^ e % n = x := by
  rcases hx with rfl | rfl | rfl
  · rw [zero_pow (by omega), Nat.zero_mod]
  · rw [one_pow, Nat.mod_eq_of_lt hn]
  · rw [pred_pow (by omega) he, Nat.mod_eq_of_lt (by omega)]

theorem modulus_big {k : PrivateKey} (hk : WellFormed k) : 1 < k.pub.n.val := by
  have h2 := hk.numbers.two
  obtain ⟨p, hp⟩ := List.exists_mem_of_length_pos (l := k.primes.map BoxedUint.val) (by omega)
  have h3 : p ∣ k.pub.n.val := by rw [← hk.numbers.prod]; exact List.dvd_prod hp
  exact lt_of_lt_of_le (hk.numbers.prime p hp).one_lt (Nat.le_of_dvd (coherent_pos (k := k.pub) hk.coherent) h3)

/-- C101: 0, 1 and `n - 1` are always among them, and the private operation leaves them as they are too. -/
theorem C101_always {σ : Type} (R : RngImpl σ) (fuel : Nat) {k : PrivateKey} (hk : WellFormed k) (m : Nat)
    (hm : m = 0 ∨ m = 1 ∨ m = k.pub.n.val - 1) :
    rsaEncrypt k.pub (wrap k.pub.n.nlimbs m) = .ok (wrap k.pub.n.nlimbs m) ∧
    ∀ rng rng' x, rsaDecryptAndCheck R fuel k rng (wrap k.pub.n.nlimbs m) = .ok (x, rng') → x.val = m := by
  have hbig := modulus_big hk
  have hlt : m < k.pub.n.val := by omega
  have hv : (wrap k.pub.n.nlimbs m).val = m := wrap_lt_val hlt
  have hp := trivial_pow hbig (exp_odd hk) hm
  constructor
  · rw [rsaEncrypt_lt k.pub hk.coherent _ (by rw [hv]; exact lt_trans hlt k.pub.n.isLt), hv, hp]
  · intro rng rng' x h
    obtain ⟨-, h1, h2⟩ := checked_val R fuel hk rng rng' _ x h
    rw [hv] at h2
    apply wf_inj hk h1 hlt
    rw [hp]
    exact Eq.trans h2 (Nat.mod_eq_of_lt hlt)

/-- C101: the numbers that are always their own roots, 0, 1 and `n - 1`, are never accepted as PKCS#1 v1.5 signatures,
under any key with an odd exponent. -/
theorem C101_trivial_signatures (K : PublicKey) (hk : K.Coherent) (he : K.e.val % 2 = 1) (S : pkcs1v15.Pkcs1v15Sign)
    (hashed sig : Bytes) (h29 : sig.length < 2 ^ 29) (hs : os2ip sig = 0 ∨ os2ip sig = 1 ∨ os2ip sig = K.n.val - 1) :
    S.verify K hashed sig ≠ .ok () := by
  intro h
  have hn := coherent_pos hk
  obtain ⟨-, -, -, em, h1, h2⟩ := (C10_verify_exact K hk S hashed sig h29).1.mp h
  rw [i2osp_iff] at h2
  obtain ⟨h11, hl, rest, rfl⟩ := emsa_some h1
  have hbig : 1 < K.n.val := by
    by_contra hle
    have : octetLen K.n.val ≤ 1 := octetLen_le (by omega)
    omega
  rw [trivial_pow hbig he hs] at h2
  obtain ⟨a, b, c⟩ := not_trivial hn (b := 0x01) (by decide) (by decide) hl h11
  rcases hs with hs | hs | hs
  · exact a (h2.2.trans hs)
  · exact b (h2.2.trans hs)
  · exact c (h2.2.trans hs)

/-- C101: nor do they decrypt to a message by PKCS#1 v1.5. -/
theorem C101_trivial_ciphertexts {σ : Type} (R : RngImpl σ) (fuel : Nat) (rng : Option σ) {k : PrivateKey}
    (hk : WellFormed k) (hc : checkPublic k.pub = .ok ()) (hb : BlindingOk R k.pub.n.val fuel rng)
    (ct : Bytes) (hl : ct.length ≤ 8 * k.pub.n.nlimbs)
    (hs : os2ip ct = 0 ∨ os2ip ct = 1 ∨ os2ip ct = k.pub.n.val - 1) :
    pkcs1v15.decrypt R fuel rng k ct = .err .decryption := by
  have hn := coherent_pos (k := k.pub) hk.coherent
  have hbig := modulus_big hk
  have hd : os2ip ct ^ k.d.val % k.pub.n.val = os2ip ct := by
    have hlt : os2ip ct < k.pub.n.val := by omega
    apply wf_inj hk (Nat.mod_lt _ hn) hlt
    rw [right_pow hk, Nat.mod_eq_of_lt hlt, trivial_pow hbig (exp_odd hk) hs]
  obtain ⟨h1, -⟩ := C08_decrypt_accepts_exactly R fuel rng hk hc hb ct hl
  obtain ⟨em, h2, -, h3⟩ := h1 (by omega)
  rw [hd, i2osp_iff] at h2
  apply h3
  rintro ⟨m, ps, rfl, h8, -, hlen⟩
  have h11 : 11 ≤ octetLen k.pub.n.val := by rw [← hlen]; simp; omega
  rw [show ([0x00, 0x02] ++ ps ++ [0x00] ++ m : Bytes) = 0x00 :: 0x02 :: (ps ++ [0x00] ++ m) by simp] at hlen h2
  obtain ⟨a, b, c⟩ := not_trivial hn (b := 0x02) (rest := ps ++ [0x00] ++ m) (by decide) (by decide) hlen h11
  rcases hs with hs | hs | hs
  · exact a (h2.2.trans hs)
  · exact b (h2.2.trans hs)
  · exact c (h2.2.trans hs)

/-- C101: nor are 0 and 1 ever accepted as PSS signatures, whatever the hash function and the exponent. -/
theorem C101_trivial_pss (K : PublicKey) (hk : K.Coherent) (hp : K.n.prec < 2 ^ 32) (he : 1 ≤ K.e.val) (blinded : Bool)
    (D : HashFn) (hpos : 0 < D.outLen) (saltLen : Nat) (hadd : D.outLen + saltLen + 2 < 2 ^ 64) (hashed sig : Bytes)
    (h29 : sig.length < 2 ^ 29) (hs : os2ip sig = 0 ∨ os2ip sig = 1) :
    pss.Pss.verify ⟨blinded, DigestState.new D, saltLen⟩ K hashed sig = .err .verification := by
  obtain ⟨h1, h2⟩ := C19_pss_verify_exact K hk hp blinded D hpos saltLen hadd hashed sig h29
  refine h2.resolve_left fun h => ?_
  obtain ⟨-, -, em, hem, salt, -, henc⟩ := h1.mp h
  rw [i2osp_iff] at hem
  have hv : os2ip sig ^ K.e.val % K.n.val ≤ 1 := by
    refine le_trans (Nat.mod_le _ _) ?_
    rcases hs with hs | hs <;> rw [hs]
    · rw [zero_pow (by omega)]; exact Nat.zero_le _
    · rw [one_pow]
  unfold emsaPss at henc
  dsimp only at henc
  split at henc
  · cases henc
  · have henc := Option.some.inj henc
    have hsplit := List.take_append_drop (if K.n.val.size % 8 = 1 then 1 else 0) em
    rw [← henc, ← List.append_assoc, ← List.append_assoc] at hsplit
    have hval := hem.2
    rw [← hsplit, ← beVal_eq_os2ip, beVal_append] at hval
    have h188 : beVal [0xbc] = 188 := by decide
    rw [h188] at hval
    omega

/-! ### Examples -/

example := C101_public_product Ex.key.pub rfl (wrap 4 5) (wrap 4 7) (wrap 4 35) _ _ _ (by decide +kernel)
  (by decide +kernel) (by decide +kernel) rfl rfl rfl

/-- The results of 7, of 12345 and of their product, the second with blinding. -/
example := C101_private_product (x := wrap 4 87801356066745075180338660075133838404825787229238834902640500569)
  (y := wrap 4 83410789264595470968058977732445373593725921364094080967837019834)
  Ex.countingRng Ex.countingRng Ex.countingRng 1 1 1 Ex.key_wf none none (some 5) (some 6)
  none none (wrap 4 7) (wrap 4 12345) (wrap 4 86415) (z := wrap 4 26611425770630339808716276353419448704421698746416736189923902721) (by decide +kernel) (by decide +kernel)
  (by decide +kernel) (by decide +kernel)

/-- The result of 12345 from that of its product with `2 ^ e`. -/
example := C101_borrowed (m := wrap 4 83410789264595470968058977732445373593725921364094080967837019834)
  (m' := wrap 4 61509286860633755238199927951361498329644949078969044534696729971)
  (c' := wrap 4 61253912187035818815601730491542190467663610682778610868542649090)
  Ex.countingRng Ex.countingRng 1 1 Ex.key_wf none none none none (wrap 4 12345) (u := 2)
  (v := 52656145834278593348959013756764624428903446824609558700488654849) (by decide +kernel) (by decide +kernel)
  (by decide +kernel) (by decide +kernel)

/-- Nine messages under the example key, no more; the key with three primes has 27 at least. -/
example : Set.ncard {m : Nat | m < Ex.key.pub.n.val ∧
    ∃ x, rsaEncrypt Ex.key.pub (wrap Ex.key.pub.n.nlimbs m) = .ok x ∧ x.val = m} = 9 := by
  rw [C101_unconcealed Ex.key_wf]; decide +kernel
example := C101_at_least Ex.key3_wf

example := C101_always Ex.countingRng 1 Ex.key_wf 1 (by decide)
example : rsaDecryptAndCheck Ex.countingRng 1 Ex.key (some 5) (wrap 4 1) = .ok (wrap 4 1, some 6) := by decide +kernel

example := C101_cycle Ex.key_wf 2
example := C101_cycle_exists Ex.key3_wf

/-- A ciphertext that comes back at once is its own plaintext. -/
example := C101_cycling Ex.countingRng 0 Ex.key_wf none none (wrap 4 1) (wrap 4 1) rfl (by decide +kernel) 0
  (by decide +kernel)
example := C101_jacobi Ex.key_wf (wrap 4 12345) _ (by decide +kernel) rfl

/-- Two signatures and their product, which is no signature of the concatenated digest. -/
def Ex.sigA : Bytes :=
  [209, 168, 54, 190, 224, 67, 39, 138, 167, 205, 225, 75, 195, 246,
    62, 183, 107, 240, 150, 31, 31, 92, 73, 125, 246, 61, 244]
def Ex.sigB : Bytes :=
  [242, 195, 86, 138, 215, 9, 111, 168, 8, 76, 23, 111, 219, 29,
    180, 41, 51, 31, 175, 51, 2, 81, 115, 229, 33, 183, 240]
def Ex.sigAB : Bytes :=
  [140, 153, 246, 89, 86, 211, 66, 255, 245, 236, 167, 172, 138, 78,
    137, 218, 156, 133, 93, 118, 7, 20, 104, 8, 182, 251, 31]
example := C101_signature_product Ex.key.pub rfl pkcs1v15.Pkcs1v15Sign.newUnprefixed [1, 2, 3] [4, 5] [1, 2, 3, 4, 5]
  Ex.sigA Ex.sigB Ex.sigAB (by decide) (by decide) rfl (by decide +kernel) (by decide +kernel) (by decide +kernel)
example : pkcs1v15.Pkcs1v15Sign.newUnprefixed.verify Ex.key.pub [1, 2, 3, 4, 5] Ex.sigAB = .err .verification := by
  decide +kernel

example := C101_trivial_signatures Ex.key.pub rfl (by decide +kernel) pkcs1v15.Pkcs1v15Sign.newUnprefixed [1, 2, 3]
  (List.replicate 27 0) (by decide) (Or.inl (by decide +kernel))
example := C101_trivial_ciphertexts Ex.countingRng 0 none Ex.key_wf (by decide +kernel) trivial
  [255, 255, 255, 255, 255, 255, 255, 255, 255, 255, 255, 127, 255, 255,
    255, 254, 0, 0, 0, 0, 0, 0, 0, 0, 0, 0, 0] (by decide +kernel) (Or.inr (Or.inr (by decide +kernel)))
example := C101_trivial_pss Ex.key.pub rfl (by decide) (by decide +kernel) false Ex.hash4 (by decide) 4 (by decide)
  [1, 2, 3, 4] (List.replicate 26 0 ++ [1]) (by decide) (Or.inr (by decide +kernel))

end RSA
