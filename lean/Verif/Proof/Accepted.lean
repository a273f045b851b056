import Verif.Props.Rejection
import Verif.Props.Hiding
import Verif.Props.Pkcs1v15
import Verif.Props.Pss

/-
Lemmas for C99: a permutation of the numbers below the modulus keeps the number of octet strings in a set.
-/
namespace RSA
open BoxedUint Spec

theorem octets_finite (N : Nat) : {t : Bytes | t.length = N}.Finite :=
  Set.finite_of_ncard_ne_zero (by rw [octets_ncard]; positivity)

/-- Strings of `K` octets whose number, sent through `f`, gives a string of `E`: as many as there are in `E`. -/
theorem perm_ncard {n K : Nat} (hK : n ≤ 256 ^ K) (f g : Nat → Nat) (hg : ∀ x < n, g x < n)
    (hgf : ∀ x < n, g (f x) = x) (hfg : ∀ x < n, f (g x) = x) (E : Set Bytes)
    (hE : ∀ em ∈ E, em.length = K ∧ beVal em < n) (hf : ∀ x < n, f x < n) :
    {x : Bytes | x.length = K ∧ beVal x < n ∧ beBytes K (f (beVal x)) ∈ E}.ncard = E.ncard := by
  have hv : ∀ x < n, beVal (beBytes K x) = x := fun x hx => by
    rw [beVal_beBytes, Nat.mod_eq_of_lt (lt_of_lt_of_le hx hK)]
  have hset : {x : Bytes | x.length = K ∧ beVal x < n ∧ beBytes K (f (beVal x)) ∈ E} =
      (fun em => beBytes K (g (beVal em))) '' E := by
    ext x
    constructor
    · rintro ⟨h1, h2, h3⟩
      refine ⟨_, h3, ?_⟩
      simp only
      rw [hv _ (hf _ h2), hgf _ h2, ← h1, beBytes_beVal]
    · rintro ⟨em, he, rfl⟩
      obtain ⟨h1, h2⟩ := hE em he
      have h3 := hg _ h2
      simp only [Set.mem_ofPred_eq, beBytes_length, true_and]
      rw [hv _ h3, hfg _ h2, ← h1, beBytes_beVal]
      exact ⟨h3, he⟩
  rw [hset]
  refine Set.InjOn.ncard_image fun a ha b hb h => ?_
  obtain ⟨a1, a2⟩ := hE a ha
  obtain ⟨b1, b2⟩ := hE b hb
  have h2 : f (beVal (beBytes K (g (beVal a)))) = f (beVal (beBytes K (g (beVal b)))) :=
    congrArg (fun x => f (beVal x)) h
  rw [hv _ (hg _ a2), hv _ (hg _ b2), hfg _ a2, hfg _ b2] at h2
  exact beVal_inj (a1.trans b1.symm) h2

theorem wf_de {k : PrivateKey} (hk : WellFormed k) {x : Nat} (hx : x < k.pub.n.val) :
    (x ^ k.d.val % k.pub.n.val) ^ k.pub.e.val % k.pub.n.val = x := by
  rw [← Nat.pow_mod, ← pow_mul]
  exact Eq.trans (wf_rsa hk x) (Nat.mod_eq_of_lt hx)

theorem wf_ed {k : PrivateKey} (hk : WellFormed k) {x : Nat} (hx : x < k.pub.n.val) :
    (x ^ k.pub.e.val % k.pub.n.val) ^ k.d.val % k.pub.n.val = x := by
  rw [← Nat.pow_mod, ← pow_mul, mul_comm]
  exact Eq.trans (wf_rsa hk x) (Nat.mod_eq_of_lt hx)

/-- Ciphertexts whose block is in `E`. -/
theorem private_ncard {k : PrivateKey} (hk : WellFormed k) (E : Set Bytes)
    (hE : ∀ em ∈ E, em.length = k.pub.size ∧ beVal em < k.pub.n.val) :
    {x : Bytes | x.length = k.pub.size ∧ beVal x < k.pub.n.val ∧
      beBytes k.pub.size (beVal x ^ k.d.val % k.pub.n.val) ∈ E}.ncard = E.ncard :=
  have hn := coherent_pos hk.coherent
  perm_ncard (lt_pow_size k.pub).le (fun x => x ^ k.d.val % k.pub.n.val) (fun x => x ^ k.pub.e.val % k.pub.n.val)
    (fun _ _ => Nat.mod_lt _ hn) (fun _ h => wf_de hk h) (fun _ h => wf_ed hk h) E hE (fun _ _ => Nat.mod_lt _ hn)

/-- Signatures whose block is in `E`. -/
theorem public_ncard {k : PrivateKey} (hk : WellFormed k) (E : Set Bytes)
    (hE : ∀ em ∈ E, em.length = k.pub.size ∧ beVal em < k.pub.n.val) :
    {x : Bytes | x.length = k.pub.size ∧ beVal x < k.pub.n.val ∧
      beBytes k.pub.size (beVal x ^ k.pub.e.val % k.pub.n.val) ∈ E}.ncard = E.ncard :=
  have hn := coherent_pos hk.coherent
  perm_ncard (lt_pow_size k.pub).le (fun x => x ^ k.pub.e.val % k.pub.n.val) (fun x => x ^ k.d.val % k.pub.n.val)
    (fun _ _ => Nat.mod_lt _ hn) (fun _ h => wf_ed hk h) (fun _ h => wf_de hk h) E hE (fun _ _ => Nat.mod_lt _ hn)

/-- Strings in one of finitely many disjoint sets. -/
theorem levels_ncard {α : Type} (A : Nat → Set α) (hfin : ∀ j, (A j).Finite)
    (hdis : ∀ i j x, x ∈ A i → x ∈ A j → i = j) :
    ∀ J : Nat, {x | ∃ j < J, x ∈ A j}.Finite ∧ {x | ∃ j < J, x ∈ A j}.ncard = ∑ j ∈ Finset.range J, (A j).ncard
  | 0 => by simp
  | J + 1 => by
    obtain ⟨i1, i2⟩ := levels_ncard A hfin hdis J
    have hs : {x | ∃ j < J + 1, x ∈ A j} = {x | ∃ j < J, x ∈ A j} ∪ A J := by
      ext x
      constructor
      · rintro ⟨j, hj, hx⟩
        rcases Nat.lt_succ_iff_lt_or_eq.mp hj with h | rfl
        · exact Or.inl ⟨j, h, hx⟩
        · exact Or.inr hx
      · rintro (⟨j, hj, hx⟩ | hx)
        · exact ⟨j, by omega, hx⟩
        · exact ⟨J, by omega, hx⟩
    rw [hs]
    refine ⟨i1.union (hfin J), ?_⟩
    rw [Set.ncard_union_eq ?_ i1 (hfin J), i2, Finset.sum_range_succ]
    rw [Set.disjoint_left]
    rintro x ⟨j, hj, hx⟩ hx'
    exact absurd (hdis j J x hx hx') (by omega)

/-! ### Blocks of PKCS#1 v1.5 encryption -/

theorem nonzero_ncard (N : Nat) : {t : Bytes | t.length = N ∧ ∀ b ∈ t, b ≠ 0}.ncard = 255 ^ N := by
  have h := usable_ncard N N
  rw [Nat.choose_self, one_mul] at h
  rw [← h]
  congr 1
  ext t
  simp only [Set.mem_ofPred_eq, usable]
  constructor
  · rintro ⟨h1, h2⟩
    refine ⟨h1, ?_⟩
    rw [List.countP_eq_length.mpr (by simpa using h2), h1]
  · rintro ⟨h1, h2⟩
    refine ⟨h1, ?_⟩
    rw [← h1, List.countP_eq_length] at h2
    simpa using h2

theorem eme_of_fit {K : Nat} {m em : Bytes} (h : IsEmePkcs1v15 K m em) :
    m.length + 11 ≤ K ∧ em.length = K ∧ em.head? = some 0 := by
  obtain ⟨ps, rfl, h8, -, hl⟩ := h
  simp at hl
  exact ⟨by omega, by simp; omega, rfl⟩

theorem eme_unique {K : Nat} {m m' em : Bytes} (h : IsEmePkcs1v15 K m em) (h' : IsEmePkcs1v15 K m' em) : m = m' := by
  obtain ⟨ps, rfl, -, h2, -⟩ := h
  obtain ⟨ps', h3, -, h4, -⟩ := h'
  simp only [List.append_assoc, List.cons_append, List.nil_append, List.cons.injEq, true_and] at h3
  exact (nonzero_prefix_inj h2 h4 h3).2

/-- Blocks encoding a message of `S`, all of length `j`. -/
theorem eme_ncard {K j : Nat} (hj : j + 11 ≤ K) (S : Set Bytes) (hS : ∀ m ∈ S, m.length = j) :
    {em : Bytes | ∃ m ∈ S, IsEmePkcs1v15 K m em}.ncard = 255 ^ (K - 3 - j) * S.ncard := by
  have hset : {em : Bytes | ∃ m ∈ S, IsEmePkcs1v15 K m em} =
      (fun p : Bytes × Bytes => [0x00, 0x02] ++ p.1 ++ [0x00] ++ p.2) ''
        ({t : Bytes | t.length = K - 3 - j ∧ ∀ b ∈ t, b ≠ 0} ×ˢ S) := by
    ext em
    constructor
    · rintro ⟨m, hm, ps, rfl, h8, hnz, hl⟩
      have := hS m hm
      simp at hl
      exact ⟨(ps, m), ⟨⟨by simp; omega, hnz⟩, hm⟩, rfl⟩
    · rintro ⟨⟨ps, m⟩, ⟨⟨h1, h2⟩, hm⟩, rfl⟩
      have := hS m hm
      simp only at h1 h2 hm this
      exact ⟨m, hm, ps, rfl, by omega, h2, by simp; omega⟩
  rw [hset, Set.InjOn.ncard_image, Set.ncard_prod, nonzero_ncard]
  rintro ⟨a, b⟩ ⟨⟨-, h1⟩, -⟩ ⟨a', b'⟩ ⟨⟨-, h2⟩, -⟩ h
  simp only [List.append_assoc, List.cons_append, List.nil_append, List.cons.injEq, true_and] at h
  obtain ⟨rfl, rfl⟩ := nonzero_prefix_inj h1 h2 h
  rfl

theorem geom_blocks : ∀ N : Nat, ∑ j ∈ Finset.range N, 255 ^ (N - 1 - j) * 256 ^ j = 256 ^ N - 255 ^ N := by
  intro N
  have h : (∑ j ∈ Finset.range N, 255 ^ (N - 1 - j) * 256 ^ j) + 255 ^ N = 256 ^ N := by
    induction N with
    | zero => rfl
    | succ N ih =>
      rw [Finset.sum_range_succ]
      have : ∑ j ∈ Finset.range N, 255 ^ (N + 1 - 1 - j) * 256 ^ j =
          255 * ∑ j ∈ Finset.range N, 255 ^ (N - 1 - j) * 256 ^ j := by
        rw [Finset.mul_sum]
        refine Finset.sum_congr rfl fun j hj => ?_
        have := Finset.mem_range.mp hj
        rw [← mul_assoc, ← pow_succ']
        congr 2
        omega
      rw [this, Nat.add_sub_cancel, Nat.sub_self, pow_zero, one_mul, pow_succ 255, pow_succ 256, ← ih]
      ring
  omega

/-! ### Blocks of OAEP -/

theorem oaep_ncard {g : Bytes → Nat → Bytes} {p : Bytes} {hLen K j : Nat} (hg : ∀ z l, (g z l).length = l)
    (hp : p.length = hLen) (hj : j + 2 * hLen + 2 ≤ K) (S : Set Bytes) (hS : ∀ m ∈ S, m.length = j) :
    {em : Bytes | ∃ m ∈ S, ∃ seed, seed.length = hLen ∧ em = emeOaep p g hLen K seed m}.ncard =
      256 ^ hLen * S.ncard := by
  have hset : {em : Bytes | ∃ m ∈ S, ∃ seed, seed.length = hLen ∧ em = emeOaep p g hLen K seed m} =
      (fun q : Bytes × Bytes => emeOaep p g hLen K q.1 q.2) '' ({t : Bytes | t.length = hLen} ×ˢ S) := by
    ext em
    constructor
    · rintro ⟨m, hm, seed, hs, rfl⟩
      exact ⟨(seed, m), ⟨hs, hm⟩, rfl⟩
    · rintro ⟨⟨seed, m⟩, ⟨h1, h2⟩, rfl⟩
      exact ⟨m, h2, seed, h1, rfl⟩
  rw [hset, Set.InjOn.ncard_image, Set.ncard_prod, octets_ncard]
  rintro ⟨a, b⟩ ⟨h1, hb⟩ ⟨a', b'⟩ ⟨h2, hb'⟩ h
  have hb1 : b.length = j := hS _ hb
  have hb2 : b'.length = j := hS _ hb'
  obtain ⟨-, h3, h4⟩ := emeOaep_inj_msg (m := b) (m' := b') hg hp hp h1 h2 (by omega) (by omega) h
  exact Prod.ext h3 h4

end RSA
