import Verif.Proof.Accepted
import Verif.Props.Chance

/-
C99: how many ciphertexts and how many signatures are accepted.
-/
namespace RSA
open BoxedUint Spec

/-! ### PKCS#1 v1.5 decryption -/

theorem decrypt_accepts {σ : Type} (R : RngImpl σ) (fuel : Nat) (rng : Option σ) {k : PrivateKey} (hk : WellFormed k)
    (hc : checkPublic k.pub = .ok ()) (hb : BlindingOk R k.pub.n.val fuel rng) (ct m : Bytes)
    (hl : ct.length = k.pub.size) :
    pkcs1v15.decrypt R fuel rng k ct = .ok m ↔ beVal ct < k.pub.n.val ∧
      IsEmePkcs1v15 k.pub.size m (beBytes k.pub.size (beVal ct ^ k.d.val % k.pub.n.val)) := by
  have hn := coherent_pos hk.coherent
  obtain ⟨h1, h2⟩ := C08_decrypt_accepts_exactly R fuel rng hk hc hb ct (by rw [hl]; exact size_le_bytes k.pub)
  rw [← size_eq_octetLen, ← beVal_eq_os2ip, i2osp_eq _ _ (mod_lt_pow_size _ hn _)] at h1
  rw [← beVal_eq_os2ip] at h2
  by_cases hv : beVal ct < k.pub.n.val
  · obtain ⟨em, he, h3, -⟩ := h1 hv
    obtain rfl := Option.some.inj he
    rw [h3 m]
    exact ⟨fun h => ⟨hv, h⟩, fun h => h.2⟩
  · rw [h2 (by omega)]
    exact ⟨fun h => (by cases h), fun h => absurd h.1 hv⟩

theorem pkcs1v15_ncard {σ : Type} (R : RngImpl σ) (fuel : Nat) (rng : Option σ) {k : PrivateKey} (hk : WellFormed k)
    (hc : checkPublic k.pub = .ok ()) (hb : BlindingOk R k.pub.n.val fuel rng) {j : Nat} (hj : j + 11 ≤ k.pub.size)
    (S : Set Bytes) (hS : ∀ m ∈ S, m.length = j) :
    {ct : Bytes | ct.length = k.pub.size ∧ ∃ m ∈ S, pkcs1v15.decrypt R fuel rng k ct = .ok m}.ncard =
      255 ^ (k.pub.size - 3 - j) * S.ncard := by
  have hn := coherent_pos hk.coherent
  rw [← eme_ncard hj S hS, ← private_ncard hk {em : Bytes | ∃ m ∈ S, IsEmePkcs1v15 k.pub.size m em}]
  · congr 1
    ext ct
    constructor
    · rintro ⟨hl, m, hm, h⟩
      obtain ⟨h1, h2⟩ := (decrypt_accepts R fuel rng hk hc hb ct m hl).mp h
      exact ⟨hl, h1, m, hm, h2⟩
    · rintro ⟨hl, h1, m, hm, h2⟩
      exact ⟨hl, m, hm, (decrypt_accepts R fuel rng hk hc hb ct m hl).mpr ⟨h1, h2⟩⟩
  · rintro em ⟨m, -, h⟩
    obtain ⟨-, h1, h2⟩ := eme_of_fit h
    exact ⟨h1, block_lt k.pub hn h1 h2⟩

/-- C99: of the strings as long as the modulus, exactly `255 ^ (k - 3 - |m|)` decrypt to the message `m`: one for each
padding. -/
theorem C99_pkcs1v15_message {σ : Type} (R : RngImpl σ) (fuel : Nat) (rng : Option σ) {k : PrivateKey}
    (hk : WellFormed k) (hc : checkPublic k.pub = .ok ()) (hb : BlindingOk R k.pub.n.val fuel rng) (m : Bytes) :
    {ct : Bytes | ct.length = octetLen k.pub.n.val ∧ pkcs1v15.decrypt R fuel rng k ct = .ok m}.ncard =
      if m.length + 11 ≤ octetLen k.pub.n.val then 255 ^ (octetLen k.pub.n.val - 3 - m.length) else 0 := by
  rw [← size_eq_octetLen]
  split
  · next h =>
    have := pkcs1v15_ncard R fuel rng hk hc hb h {m} (by simp)
    simpa using this
  · next h =>
    rw [show {ct : Bytes | ct.length = k.pub.size ∧ pkcs1v15.decrypt R fuel rng k ct = .ok m} = ∅ from ?_,
      Set.ncard_empty]
    ext ct
    simp only [Set.mem_ofPred_eq, Set.mem_empty_iff_false, iff_false]
    rintro ⟨hl, hd⟩
    exact h (eme_of_fit ((decrypt_accepts R fuel rng hk hc hb ct m hl).mp hd).2).1

/-- C99: of the strings as long as the modulus, exactly `255 ^ 8 * (256 ^ (k - 10) - 255 ^ (k - 10))` decrypt to
anything; the others are refused. -/
theorem C99_pkcs1v15 {σ : Type} (R : RngImpl σ) (fuel : Nat) (rng : Option σ) {k : PrivateKey} (hk : WellFormed k)
    (hc : checkPublic k.pub = .ok ()) (hb : BlindingOk R k.pub.n.val fuel rng) :
    {ct : Bytes | ct.length = octetLen k.pub.n.val ∧ ∃ m, pkcs1v15.decrypt R fuel rng k ct = .ok m}.ncard =
      255 ^ 8 * (256 ^ (octetLen k.pub.n.val - 10) - 255 ^ (octetLen k.pub.n.val - 10)) := by
  rw [← size_eq_octetLen]
  have hlev := (levels_ncard (fun j => {ct : Bytes | ct.length = k.pub.size ∧
      ∃ m ∈ {m : Bytes | m.length = j}, pkcs1v15.decrypt R fuel rng k ct = .ok m})
    (fun j => (octets_finite k.pub.size).subset fun ct h => h.1)
    (fun i j ct hi hj => by
      obtain ⟨-, m, h1, h2⟩ := hi
      obtain ⟨-, m', h3, h4⟩ := hj
      rw [h2] at h4
      cases h4
      exact h1.symm.trans h3) (k.pub.size - 10)).2
  have hset : {ct : Bytes | ct.length = k.pub.size ∧ ∃ m, pkcs1v15.decrypt R fuel rng k ct = .ok m} =
      {ct | ∃ j < k.pub.size - 10, ct ∈ {ct : Bytes | ct.length = k.pub.size ∧
        ∃ m ∈ {m : Bytes | m.length = j}, pkcs1v15.decrypt R fuel rng k ct = .ok m}} := by
    ext ct
    constructor
    · rintro ⟨hl, m, hd⟩
      have := (eme_of_fit ((decrypt_accepts R fuel rng hk hc hb ct m hl).mp hd).2).1
      exact ⟨m.length, by omega, hl, m, rfl, hd⟩
    · rintro ⟨j, -, hl, m, -, hd⟩
      exact ⟨hl, m, hd⟩
  rw [hset, hlev, ← geom_blocks, Finset.mul_sum]
  refine Finset.sum_congr rfl fun j hj => ?_
  have hj' := Finset.mem_range.mp hj
  rw [pkcs1v15_ncard R fuel rng hk hc hb (j := j) (by omega) {m | m.length = j} (fun m hm => hm), octets_ncard, ← mul_assoc, ← pow_add]
  congr 2
  omega

/-! ### OAEP decryption -/

theorem oaep_decrypt_ncard {σ : Type} (R : RngImpl σ) (fuel : Nat) (rng : Option σ) {k : PrivateKey} (hk : WellFormed k)
    (hp : k.pub.n.prec < 2 ^ 32) (hb : BlindingOk R k.pub.n.val fuel rng) (D MGD : HashFn) (hpos : 0 < MGD.outLen)
    (label : Option Bytes) (hl : (label.getD []).length < 2 ^ 61) {j : Nat} (h11 : 11 ≤ k.pub.size)
    (hj : j + 2 * D.outLen + 2 ≤ k.pub.size) (S : Set Bytes) (hS : ∀ m ∈ S, m.length = j) :
    {ct : Bytes | ∃ m ∈ S, oaep.decrypt R fuel rng k ct (DigestState.new D) (DigestState.new MGD) label = .ok m}.ncard =
      256 ^ D.outLen * S.ncard := by
  have hn := coherent_pos hk.coherent
  have hg : ∀ z l, (mgf1 MGD.hash MGD.outLen z l).length = l := fun z l => mgf1_length MGD hpos z l
  have hE : ∀ em ∈ {em : Bytes | ∃ m ∈ S, ∃ seed, seed.length = D.outLen ∧ em = emeOaep (D.hash (label.getD []))
      (mgf1 MGD.hash MGD.outLen) D.outLen k.pub.size seed m}, em.length = k.pub.size ∧ beVal em < k.pub.n.val := by
    rintro em ⟨m, hm, seed, hs, rfl⟩
    have := hS m hm
    have h1 := emeOaep_length (D.hash (label.getD [])) (mgf1 MGD.hash MGD.outLen) D.outLen k.pub.size seed m
      (D.hash_len _) hs hg (by omega)
    exact ⟨h1, block_lt k.pub hn h1 rfl⟩
  rw [← oaep_ncard (K := k.pub.size) hg (D.hash_len (label.getD [])) hj S hS, ← private_ncard hk _ hE]
  · congr 1
    ext ct
    constructor
    · rintro ⟨m, hm, h⟩
      obtain ⟨h1, -, h2, seed, hs, -, h3⟩ := ((C15_oaep_decrypt_exact R fuel rng hk hp hb D MGD hpos label hl ct).1 m).mp h
      rw [← size_eq_octetLen] at h1
      rw [h1, ← beVal_eq_os2ip, i2osp_eq _ _ (mod_lt_pow_size _ hn _)] at h3
      rw [← beVal_eq_os2ip] at h2
      exact ⟨h1, h2, m, hm, seed, hs, Option.some.inj h3⟩
    · rintro ⟨h1, h2, m, hm, seed, hs, h3⟩
      have := hS m hm
      refine ⟨m, hm, ((C15_oaep_decrypt_exact R fuel rng hk hp hb D MGD hpos label hl ct).1 m).mpr ?_⟩
      rw [← size_eq_octetLen, h1, ← beVal_eq_os2ip, i2osp_eq _ _ (mod_lt_pow_size _ hn _)]
      exact ⟨rfl, h11, h2, seed, hs, by omega, congrArg some h3⟩

/-- C99: exactly `256 ^ hLen` strings decrypt to the message `m` by OAEP: one for each seed. -/
theorem C99_oaep_message {σ : Type} (R : RngImpl σ) (fuel : Nat) (rng : Option σ) {k : PrivateKey} (hk : WellFormed k)
    (hp : k.pub.n.prec < 2 ^ 32) (hb : BlindingOk R k.pub.n.val fuel rng) (D MGD : HashFn) (hpos : 0 < MGD.outLen)
    (label : Option Bytes) (hl : (label.getD []).length < 2 ^ 61) (m : Bytes) :
    {ct : Bytes | oaep.decrypt R fuel rng k ct (DigestState.new D) (DigestState.new MGD) label = .ok m}.ncard =
      if 11 ≤ octetLen k.pub.n.val ∧ m.length + 2 * D.outLen + 2 ≤ octetLen k.pub.n.val then 256 ^ D.outLen else 0 := by
  split
  · next h =>
    rw [← size_eq_octetLen] at h
    have := oaep_decrypt_ncard R fuel rng hk hp hb D MGD hpos label hl h.1 h.2 {m} (by simp)
    simpa using this
  · next h =>
    rw [show {ct : Bytes | oaep.decrypt R fuel rng k ct (DigestState.new D) (DigestState.new MGD) label = .ok m} = ∅
      from ?_, Set.ncard_empty]
    ext ct
    simp only [Set.mem_ofPred_eq, Set.mem_empty_iff_false, iff_false]
    intro hd
    obtain ⟨h1, h2, -, seed, -, h3, -⟩ :=
      ((C15_oaep_decrypt_exact R fuel rng hk hp hb D MGD hpos label hl ct).1 m).mp hd
    rw [h1] at h2 h3
    exact h ⟨h2, h3⟩

theorem geom_octets (N : Nat) : 255 * ∑ j ∈ Finset.range N, 256 ^ j = 256 ^ N - 1 := by
  have h : 255 * (∑ j ∈ Finset.range N, 256 ^ j) + 1 = 256 ^ N := by
    induction N with
    | zero => rfl
    | succ N ih => rw [Finset.sum_range_succ, pow_succ, ← ih]; ring_nf
  omega

/-- C99: the strings that decrypt to anything by OAEP, 255 times their number. -/
theorem C99_oaep {σ : Type} (R : RngImpl σ) (fuel : Nat) (rng : Option σ) {k : PrivateKey} (hk : WellFormed k)
    (hp : k.pub.n.prec < 2 ^ 32) (hb : BlindingOk R k.pub.n.val fuel rng) (D MGD : HashFn) (hpos : 0 < MGD.outLen)
    (label : Option Bytes) (hl : (label.getD []).length < 2 ^ 61) (h11 : 11 ≤ octetLen k.pub.n.val) :
    {ct : Bytes | ∃ m, oaep.decrypt R fuel rng k ct (DigestState.new D) (DigestState.new MGD) label = .ok m}.Finite ∧
    255 * {ct : Bytes | ∃ m, oaep.decrypt R fuel rng k ct (DigestState.new D) (DigestState.new MGD) label =
      .ok m}.ncard = 256 ^ D.outLen * (256 ^ (octetLen k.pub.n.val - 2 * D.outLen - 1) - 1) := by
  rw [← size_eq_octetLen] at h11 ⊢
  have hsize : ∀ ct m, oaep.decrypt R fuel rng k ct (DigestState.new D) (DigestState.new MGD) label = .ok m →
      ct.length = k.pub.size ∧ m.length + 2 * D.outLen + 2 ≤ k.pub.size := by
    intro ct m hd
    obtain ⟨h1, -, -, seed, -, h3, -⟩ :=
      ((C15_oaep_decrypt_exact R fuel rng hk hp hb D MGD hpos label hl ct).1 m).mp hd
    rw [← size_eq_octetLen] at h1
    exact ⟨h1, by omega⟩
  obtain ⟨hf, hlev⟩ := levels_ncard (fun j => {ct : Bytes | ∃ m ∈ {m : Bytes | m.length = j},
      oaep.decrypt R fuel rng k ct (DigestState.new D) (DigestState.new MGD) label = .ok m})
    (fun j => (octets_finite k.pub.size).subset fun ct ⟨m, _, h⟩ => (hsize ct m h).1)
    (fun i j ct hi hj => by
      obtain ⟨m, h1, h2⟩ := hi
      obtain ⟨m', h3, h4⟩ := hj
      rw [h2] at h4
      cases h4
      exact h1.symm.trans h3) (k.pub.size - 2 * D.outLen - 1)
  have hset : {ct : Bytes | ∃ m, oaep.decrypt R fuel rng k ct (DigestState.new D) (DigestState.new MGD) label = .ok m} =
      {ct | ∃ j < k.pub.size - 2 * D.outLen - 1, ct ∈ {ct : Bytes | ∃ m ∈ {m : Bytes | m.length = j},
        oaep.decrypt R fuel rng k ct (DigestState.new D) (DigestState.new MGD) label = .ok m}} := by
    ext ct
    constructor
    · rintro ⟨m, hd⟩
      have := hsize ct m hd
      exact ⟨m.length, by omega, m, rfl, hd⟩
    · rintro ⟨j, -, m, -, hd⟩
      exact ⟨m, hd⟩
  rw [hset]
  refine ⟨hf, ?_⟩
  have hsum : ∑ j ∈ Finset.range (k.pub.size - 2 * D.outLen - 1), ({ct : Bytes | ∃ m ∈ {m : Bytes | m.length = j},
      oaep.decrypt R fuel rng k ct (DigestState.new D) (DigestState.new MGD) label = .ok m}).ncard =
      256 ^ D.outLen * ∑ j ∈ Finset.range (k.pub.size - 2 * D.outLen - 1), 256 ^ j := by
    rw [Finset.mul_sum]
    refine Finset.sum_congr rfl fun j hj => ?_
    have hj' := Finset.mem_range.mp hj
    rw [oaep_decrypt_ncard R fuel rng hk hp hb D MGD hpos label hl (j := j) h11 (by omega) {m | m.length = j}
      (fun m hm => hm), octets_ncard]
  rw [hlev, hsum, ← geom_octets]
  ring

/-- C99: the typed form accepts the same strings, for keys that pass `check_public`. -/
theorem C99_oaep_typed {σ : Type} (R : RngImpl σ) (fuel : Nat) (rng : Option σ) {k : PrivateKey}
    (hc : checkPublic k.pub = .ok ()) (D MGD : HashFn) (label : Option Bytes)
    (hl : (label.getD []).length < 2 ^ 61) (m : Bytes) :
    {ct : Bytes | oaep.decryptDigest R fuel D MGD rng k ct label = .ok m} =
      {ct : Bytes | oaep.decrypt R fuel rng k ct (DigestState.new D) (DigestState.new MGD) label = .ok m} := by
  ext ct
  simp only [Set.mem_ofPred_eq]
  rw [oaep.decryptDigest_agree R fuel D MGD rng k hc ct label hl]

/-! ### PKCS#1 v1.5 verification -/

/-- C99: of the strings as long as the modulus, exactly one is a signature of the digest, or none: if the digest has
the wrong length, if its encoding does not fit, or if the modulus is stored with spare limbs. -/
theorem C99_pkcs1v15_signatures {k : PrivateKey} (hk : WellFormed k) (h29 : octetLen k.pub.n.val < 2 ^ 29)
    (S : pkcs1v15.Pkcs1v15Sign) (hashed : Bytes) :
    {sig : Bytes | sig.length = octetLen k.pub.n.val ∧ S.verify k.pub hashed sig = .ok ()}.ncard =
      if (∀ l, S.hashLen = some l → hashed.length = l) ∧ (S.pfx ++ hashed).length + 11 ≤ octetLen k.pub.n.val ∧
        max 1 ((octetLen k.pub.n.val + 7) / 8) = k.pub.n.nlimbs then 1 else 0 := by
  have hn := coherent_pos hk.coherent
  rw [← size_eq_octetLen] at h29 ⊢
  split
  · next h =>
    obtain ⟨h1, h2, h3⟩ := h
    obtain ⟨em, hem⟩ : ∃ em, emsaPkcs1v15 (S.pfx ++ hashed) k.pub.size = some em := ⟨_, if_pos h2⟩
    have hlen : em.length = k.pub.size ∧ em.head? = some 0 := by
      unfold emsaPkcs1v15 at hem
      rw [if_pos h2] at hem
      obtain rfl := Option.some.inj hem
      simp at h2 ⊢
      omega
    have hc := public_ncard hk {em} (fun x hx => by
      rw [Set.mem_singleton_iff.mp hx]
      exact ⟨hlen.1, block_lt k.pub hn hlen.1 hlen.2⟩)
    rw [Set.ncard_singleton] at hc
    rw [← hc]
    congr 1
    ext sig
    simp only [Set.mem_ofPred_eq, Set.mem_singleton_iff]
    refine and_congr_right fun hl => ?_
    rw [(C10_verify_exact k.pub hk.coherent S hashed sig (by omega)).1, ← size_eq_octetLen, ← beVal_eq_os2ip,
      i2osp_eq _ _ (mod_lt_pow_size _ hn _), hem, hl]
    constructor
    · rintro ⟨-, h4, -, x, h5, h6⟩
      exact ⟨h4, (Option.some.inj h6).trans (Option.some.inj h5).symm⟩
    · rintro ⟨h4, h5⟩
      exact ⟨h1, h4, h3, em, rfl, congrArg some h5⟩
  · next h =>
    rw [show {sig : Bytes | sig.length = k.pub.size ∧ S.verify k.pub hashed sig = .ok ()} = ∅ from ?_, Set.ncard_empty]
    ext sig
    simp only [Set.mem_ofPred_eq, Set.mem_empty_iff_false, iff_false]
    rintro ⟨hl, hv⟩
    obtain ⟨h1, -, h2, x, h3, -⟩ := (C10_verify_exact k.pub hk.coherent S hashed sig (by omega)).1.mp hv
    rw [hl] at h2
    refine h ⟨h1, ?_, h2⟩
    unfold emsaPkcs1v15 at h3
    rw [← size_eq_octetLen] at h3
    by_contra hne
    rw [if_neg hne] at h3
    cases h3

/-! ### PSS verification -/

/-- Blocks that are an encoding of the digest after some leading octets: as many as there are salts giving one below `n`. -/
theorem pss_blocks {k : PrivateKey} (D : HashFn) (hpos : 0 < D.outLen) (hashed : Bytes) (sLen : Nat) (lead : Bytes) :
    {em : Bytes | beVal em < k.pub.n.val ∧ ∃ salt em', salt.length = sLen ∧ em = lead ++ em' ∧
      emsaPss D.hash (mgf1 D.hash D.outLen) D.outLen hashed salt (k.pub.n.val.size - 1) = some em'}.ncard =
    {salt : Bytes | salt.length = sLen ∧ ∃ em, emsaPss D.hash (mgf1 D.hash D.outLen) D.outLen hashed salt
      (k.pub.n.val.size - 1) = some em ∧ beVal (lead ++ em) < k.pub.n.val}.ncard := by
  rw [← Set.InjOn.ncard_image (s := {salt : Bytes | salt.length = sLen ∧ ∃ em, emsaPss D.hash (mgf1 D.hash D.outLen)
    D.outLen hashed salt (k.pub.n.val.size - 1) = some em ∧ beVal (lead ++ em) < k.pub.n.val})
    (f := fun salt => lead ++ (emsaPss D.hash (mgf1 D.hash D.outLen) D.outLen hashed salt (k.pub.n.val.size - 1)).getD [])]
  · congr 1
    ext em
    constructor
    · rintro ⟨h1, salt, em', h2, rfl, h3⟩
      exact ⟨salt, ⟨h2, em', h3, h1⟩, by simp only [h3, Option.getD_some]⟩
    · rintro ⟨salt, ⟨h2, em', h3, h1⟩, rfl⟩
      simp only [h3, Option.getD_some]
      exact ⟨h1, salt, em', h2, rfl, h3⟩
  · rintro a ⟨-, x, hx, -⟩ b ⟨-, y, hy, -⟩ h
    simp only [hx, hy, Option.getD_some] at h
    obtain rfl := List.append_cancel_left h
    exact (emsaPss_inj hpos hx hy).1

/-- Every salt that fits gives a block below `n`. -/
theorem salts_all {k : PrivateKey} (hk : WellFormed k) (D : HashFn) (hpos : 0 < D.outLen) (hashed : Bytes) (sLen z : Nat)
    (hfit : D.outLen + sLen + 2 ≤ (k.pub.n.val.size - 1 + 7) / 8) :
    {salt : Bytes | salt.length = sLen ∧ ∃ em, emsaPss D.hash (mgf1 D.hash D.outLen) D.outLen hashed salt
      (k.pub.n.val.size - 1) = some em ∧ beVal (List.replicate z 0 ++ em) < k.pub.n.val}.ncard = 256 ^ sLen := by
  rw [← octets_ncard sLen]
  congr 1
  ext salt
  simp only [Set.mem_ofPred_eq, and_iff_left_iff_imp]
  intro hs
  obtain ⟨em, h1, h2, -⟩ := pss_sign_verify hk D hpos hashed salt (by rw [hs]; exact hfit)
  exact ⟨em, h1, by rw [beVal_append, beVal_replicate_zero, zero_mul, zero_add]; exact h2⟩

/-- The number of blocks PSS verification accepts. -/
theorem pss_accepted {k : PrivateKey} (hk : WellFormed k) (D : HashFn) (hpos : 0 < D.outLen) (hashed : Bytes)
    (sLen : Nat) (hfit : D.outLen + sLen + 2 ≤ (k.pub.n.val.size - 1 + 7) / 8) :
    {em : Bytes | em.length = k.pub.size ∧ beVal em < k.pub.n.val ∧
      IsEmsaPss D.hash D.outLen hashed sLen (k.pub.n.val.size - 1)
        (em.drop (if k.pub.n.val.size % 8 = 1 then 1 else 0))}.ncard =
    256 ^ sLen + if k.pub.n.val.size % 8 = 1 then {salt : Bytes | salt.length = sLen ∧ ∃ em,
      emsaPss D.hash (mgf1 D.hash D.outLen) D.outLen hashed salt (k.pub.n.val.size - 1) = some em ∧
      256 ^ em.length + os2ip em < k.pub.n.val}.ncard else 0 := by
  have hn := coherent_pos hk.coherent
  have hsz : k.pub.size = (k.pub.n.val.size + 7) / 8 := size_eq_octetLen k.pub
  have hpos' : 0 < k.pub.n.val.size := Nat.size_pos.mpr hn
  split
  · next h8 =>
    have hb0 := pss_blocks (k := k) D hpos hashed sLen [0]
    have hb1 := pss_blocks (k := k) D hpos hashed sLen [1]
    have hall := salts_all hk D hpos hashed sLen 1 hfit
    rw [List.replicate_one] at hall
    rw [hall] at hb0
    have hos : ∀ em : Bytes, beVal ([1] ++ em) = 256 ^ em.length + os2ip em := by
      intro em
      rw [beVal_append, beVal_singleton, beVal_eq_os2ip]
      simp
    simp only [hos] at hb1
    rw [← hb0, ← hb1, ← Set.ncard_union_eq ?_ ?_ ?_]
    · congr 1
      ext em
      constructor
      · rintro ⟨h1, h2, salt, hs, h3⟩
        rcases em with _ | ⟨b, em⟩
        · rw [List.length_nil] at h1; omega
        · rw [List.drop_one, List.tail_cons] at h3
          simp only [List.length_cons] at h1
          have hlt : k.pub.n.val < 2 * 256 ^ em.length := by
            have := Nat.lt_size_self k.pub.n.val
            rw [pow256, ← pow_succ']
            refine lt_of_lt_of_le this (Nat.pow_le_pow_right (by norm_num) (by omega))
          have hb : b.toNat < 2 := by
            rw [beVal_cons] at h2
            by_contra hge
            have : 2 * 256 ^ em.length ≤ b.toNat * 256 ^ em.length := Nat.mul_le_mul_right _ (by omega)
            omega
          have hb2 : b = 0 ∨ b = 1 := by
            rcases Nat.lt_succ_iff_lt_or_eq.mp hb with h | h
            · exact Or.inl (UInt8.toNat_inj.mp (by rw [Nat.lt_one_iff.mp h]; rfl))
            · exact Or.inr (UInt8.toNat_inj.mp (by rw [h]; rfl))
          rcases hb2 with rfl | rfl
          · exact Or.inl ⟨h2, salt, em, hs, rfl, h3⟩
          · exact Or.inr ⟨h2, salt, em, hs, rfl, h3⟩
      · have hl : ∀ salt em', emsaPss D.hash (mgf1 D.hash D.outLen) D.outLen hashed salt (k.pub.n.val.size - 1) = some em' →
            em'.length + 1 = k.pub.size := by
          intro salt em' h
          rw [(emsaPss_length hpos h).1, hsz]
          omega
        rintro (⟨h2, salt, em', hs, rfl, h3⟩ | ⟨h2, salt, em', hs, rfl, h3⟩)
        · exact ⟨by simpa using hl _ _ h3, h2, salt, hs, h3⟩
        · exact ⟨by simpa using hl _ _ h3, h2, salt, hs, h3⟩
    · rw [Set.disjoint_left]
      rintro em ⟨-, _, _, -, rfl, -⟩ ⟨-, _, _, -, h, -⟩
      simp at h
    · refine Set.finite_of_ncard_ne_zero ?_
      rw [hb0]
      positivity
    · refine (octets_finite k.pub.size).subset ?_
      rintro em ⟨-, salt, em', -, rfl, h⟩
      show ([1] ++ em').length = k.pub.size
      simp only [List.length_append, List.length_singleton]
      rw [(emsaPss_length hpos h).1, hsz]
      omega
  · next h8 =>
    have hb := pss_blocks (k := k) D hpos hashed sLen []
    have hall := salts_all hk D hpos hashed sLen 0 hfit
    rw [List.replicate_zero] at hall
    rw [hall] at hb
    rw [add_zero, ← hb]
    congr 1
    ext em
    constructor
    · rintro ⟨h1, h2, salt, hs, h3⟩
      exact ⟨h2, salt, em, hs, rfl, h3⟩
    · rintro ⟨h2, salt, em', hs, hem, h3⟩
      obtain rfl : em = em' := hem
      refine ⟨?_, h2, salt, hs, h3⟩
      rw [(emsaPss_length hpos h3).1, hsz]
      omega

/-- C99: of the strings as long as the modulus whose number is below it, exactly `256 ^ sLen` are PSS signatures of the
digest, one for each salt, or none if no encoding fits; if the modulus has `8j+1` bits there are further ones, one for
each salt whose encoding after an octet 1 is still below the modulus. -/
theorem C99_pss_signatures {k : PrivateKey} (hk : WellFormed k) (hp : k.pub.n.prec < 2 ^ 32) (blinded : Bool)
    (D : HashFn) (hpos : 0 < D.outLen) (sLen : Nat) (hadd : D.outLen + sLen + 2 < 2 ^ 64) (hashed : Bytes)
    (hh : hashed.length = D.outLen) (hfit : D.outLen + sLen + 2 ≤ (k.pub.n.val.size - 1 + 7) / 8) :
    {sig : Bytes | sig.length = octetLen k.pub.n.val ∧ os2ip sig < k.pub.n.val ∧
      pss.Pss.verify ⟨blinded, DigestState.new D, sLen⟩ k.pub hashed sig = .ok ()}.ncard =
    256 ^ sLen + if k.pub.n.val.size % 8 = 1 then {salt : Bytes | salt.length = sLen ∧ ∃ em,
      emsaPss D.hash (mgf1 D.hash D.outLen) D.outLen hashed salt (k.pub.n.val.size - 1) = some em ∧
      256 ^ em.length + os2ip em < k.pub.n.val}.ncard else 0 := by
  have hn := coherent_pos hk.coherent
  rw [← pss_accepted hk D hpos hashed sLen hfit, ← public_ncard hk {em : Bytes | em.length = k.pub.size ∧
    beVal em < k.pub.n.val ∧ IsEmsaPss D.hash D.outLen hashed sLen (k.pub.n.val.size - 1)
      (em.drop (if k.pub.n.val.size % 8 = 1 then 1 else 0))} (fun em h => ⟨h.1, h.2.1⟩), ← size_eq_octetLen]
  congr 1
  ext sig
  simp only [Set.mem_ofPred_eq, beBytes_length, true_and]
  refine and_congr_right fun hl => ?_
  rw [← beVal_eq_os2ip]
  refine and_congr_right fun hv => ?_
  have h29 : sig.length < 2 ^ 29 := by
    have := size_le_bytes k.pub
    unfold prec at hp
    omega
  rw [(C19_pss_verify_exact k.pub hk.coherent hp blinded D hpos sLen hadd hashed sig h29).1, ← size_eq_octetLen,
    ← beVal_eq_os2ip, i2osp_eq _ _ (mod_lt_pow_size _ hn _), beVal_beBytes, Nat.mod_eq_of_lt (mod_lt_pow_size _ hn _)]
  constructor
  · rintro ⟨-, -, em, h1, h2⟩
    obtain rfl := Option.some.inj h1
    exact ⟨Nat.mod_lt _ hn, h2⟩
  · rintro ⟨-, h2⟩
    exact ⟨hl, hh, _, rfl, h2⟩

/-- C99: no string is accepted for a digest of the wrong length or if no encoding fits. -/
theorem C99_pss_none {k : PrivateKey} (hk : WellFormed k) (hp : k.pub.n.prec < 2 ^ 32) (blinded : Bool)
    (D : HashFn) (hpos : 0 < D.outLen) (sLen : Nat) (hadd : D.outLen + sLen + 2 < 2 ^ 64) (hashed sig : Bytes)
    (h29 : sig.length < 2 ^ 29)
    (h : hashed.length ≠ D.outLen ∨ (k.pub.n.val.size - 1 + 7) / 8 < D.outLen + sLen + 2) :
    pss.Pss.verify ⟨blinded, DigestState.new D, sLen⟩ k.pub hashed sig = .err .verification := by
  obtain ⟨h1, h2⟩ := C19_pss_verify_exact k.pub hk.coherent hp blinded D hpos sLen hadd hashed sig h29
  refine h2.resolve_left fun hok => ?_
  obtain ⟨-, h3, em, -, salt, hs, h4⟩ := h1.mp hok
  have := (emsaPss_length hpos h4).2
  rw [hs] at this
  omega

/-- C99: a typed verifying key accepts as many signature objects. -/
theorem C99_pss_typed {k : PrivateKey} (hk : WellFormed k) (hp : k.pub.n.prec < 2 ^ 32)
    (D : HashFn) (hpos : 0 < D.outLen) (sLen : Nat) (hadd : D.outLen + sLen + 2 < 2 ^ 64) (hashed : Bytes)
    (hh : hashed.length = D.outLen) (hfit : D.outLen + sLen + 2 ≤ (k.pub.n.val.size - 1 + 7) / 8) :
    {sg : pss.Signature | pss.VerifyingKey.verifyPrehash (D := D) ⟨k.pub, sLen⟩ hashed sg = .ok ()}.ncard =
    256 ^ sLen + if k.pub.n.val.size % 8 = 1 then {salt : Bytes | salt.length = sLen ∧ ∃ em,
      emsaPss D.hash (mgf1 D.hash D.outLen) D.outLen hashed salt (k.pub.n.val.size - 1) = some em ∧
      256 ^ em.length + os2ip em < k.pub.n.val}.ncard else 0 := by
  have hn := coherent_pos hk.coherent
  rw [← C99_pss_signatures hk hp false D hpos sLen hadd hashed hh hfit, ← size_eq_octetLen]
  have hbnd : ∀ v < k.pub.n.val, v < 2 ^ (64 * k.pub.n.nlimbs) := fun v hv => lt_trans hv k.pub.n.isLt
  have hexact : ∀ sig : Bytes, sig.length = k.pub.size → beVal sig < k.pub.n.val →
      (pss.Pss.verify ⟨false, DigestState.new D, sLen⟩ k.pub hashed sig = .ok () ↔
        pss.VerifyingKey.verifyPrehash (D := D) ⟨k.pub, sLen⟩ hashed ⟨wrap k.pub.n.nlimbs (beVal sig)⟩ = .ok ()) := by
    intro sig hl hv
    have h29 : sig.length < 2 ^ 29 := by
      have := size_le_bytes k.pub
      unfold prec at hp
      omega
    rw [(C19_pss_verify_exact k.pub hk.coherent hp false D hpos sLen hadd hashed sig h29).1,
      (C19_typed_verify_exact (D := D) ⟨k.pub, sLen⟩ hk.coherent hp hpos hadd hashed _).1]
    simp only [wrap_val_of_lt (hbnd _ hv), ← beVal_eq_os2ip, ← size_eq_octetLen]
    constructor
    · rintro ⟨-, h1, h2⟩; exact ⟨hv, rfl, h1, h2⟩
    · rintro ⟨-, -, h1, h2⟩; exact ⟨hl, h1, h2⟩
  rw [← Set.InjOn.ncard_image (s := {sig : Bytes | sig.length = k.pub.size ∧ os2ip sig < k.pub.n.val ∧
      pss.Pss.verify ⟨false, DigestState.new D, sLen⟩ k.pub hashed sig = .ok ()})
    (f := fun sig => (⟨wrap k.pub.n.nlimbs (beVal sig)⟩ : pss.Signature))]
  · congr 1
    ext sg
    constructor
    · intro h
      obtain ⟨h1, h2, -⟩ := (C19_typed_verify_exact (D := D) ⟨k.pub, sLen⟩ hk.coherent hp hpos hadd hashed sg).1.mp h
      have hv : beVal (beBytes k.pub.size sg.inner.val) = sg.inner.val := by
        rw [beVal_beBytes, Nat.mod_eq_of_lt (lt_trans h1 (lt_pow_size k.pub))]
      have hsg : (⟨wrap k.pub.n.nlimbs (beVal (beBytes k.pub.size sg.inner.val))⟩ : pss.Signature) = sg := by
        rw [hv]
        rcases sg with ⟨⟨l, v, hlt⟩⟩
        simp only at h1 h2
        subst h2
        simp [wrap, Nat.mod_eq_of_lt hlt]
      refine ⟨beBytes k.pub.size sg.inner.val, ⟨beBytes_length _ _, ?_, ?_⟩, hsg⟩
      · rw [← beVal_eq_os2ip, hv]; exact h1
      · rw [hexact _ (beBytes_length _ _) (by rw [hv]; exact h1), hsg]
        exact h
    · rintro ⟨sig, ⟨h1, h2, h3⟩, rfl⟩
      rw [← beVal_eq_os2ip] at h2
      exact (hexact sig h1 h2).mp h3
  · rintro a ⟨a1, a2, -⟩ b ⟨b1, b2, -⟩ h
    rw [← beVal_eq_os2ip] at a2 b2
    have h' : (wrap k.pub.n.nlimbs (beVal a)).val = (wrap k.pub.n.nlimbs (beVal b)).val :=
      congrArg (fun s : pss.Signature => s.inner.val) h
    rw [wrap_val_of_lt (hbnd _ a2), wrap_val_of_lt (hbnd _ b2)] at h'
    exact beVal_inj (a1.trans b1.symm) h'

/-! ### How rare -/

/-- C99: fewer than one string in `2 ^ 16` decrypts to anything by PKCS#1 v1.5, and fewer than one in `256 ^ (hLen + 1)`
by OAEP. -/
theorem C99_few {σ : Type} (R : RngImpl σ) (fuel : Nat) (rng : Option σ) {k : PrivateKey} (hk : WellFormed k)
    (hb : BlindingOk R k.pub.n.val fuel rng) :
    (checkPublic k.pub = .ok () →
      2 ^ 16 * {ct : Bytes | ct.length = octetLen k.pub.n.val ∧ ∃ m, pkcs1v15.decrypt R fuel rng k ct = .ok m}.ncard <
        256 ^ octetLen k.pub.n.val) ∧
    (k.pub.n.prec < 2 ^ 32 → ∀ (D MGD : HashFn) (label : Option Bytes), 0 < MGD.outLen →
      (label.getD []).length < 2 ^ 61 → 11 ≤ octetLen k.pub.n.val → D.outLen < octetLen k.pub.n.val →
      256 ^ (D.outLen + 1) * {ct : Bytes | ∃ m, oaep.decrypt R fuel rng k ct (DigestState.new D) (DigestState.new MGD)
        label = .ok m}.ncard < 256 ^ octetLen k.pub.n.val) := by
  constructor
  · intro hc
    rw [C99_pkcs1v15 R fuel rng hk hc hb]
    rcases Nat.lt_or_ge (octetLen k.pub.n.val) 11 with h | h
    · rw [show octetLen k.pub.n.val - 10 = 0 by omega]
      simp
    · obtain ⟨j, hj⟩ : ∃ j, octetLen k.pub.n.val = j + 10 := ⟨octetLen k.pub.n.val - 10, by omega⟩
      rw [hj, Nat.add_sub_cancel, pow_add, show (256 : Nat) ^ 10 = 2 ^ 16 * 256 ^ 8 by norm_num]
      have h1 : 256 ^ j - 255 ^ j ≤ 256 ^ j := Nat.sub_le _ _
      have h2 : 0 < 256 ^ j := by positivity
      have h3 : 255 ^ 8 * (256 ^ j - 255 ^ j) < 256 ^ 8 * 256 ^ j :=
        lt_of_le_of_lt (Nat.mul_le_mul_left _ h1) (Nat.mul_lt_mul_of_pos_right (by norm_num) h2)
      calc 2 ^ 16 * (255 ^ 8 * (256 ^ j - 255 ^ j)) < 2 ^ 16 * (256 ^ 8 * 256 ^ j) :=
            Nat.mul_lt_mul_of_pos_left h3 (by norm_num)
        _ = _ := by ring
  · intro hp D MGD label hpos hl h11 hlen
    obtain ⟨-, h⟩ := C99_oaep R fuel rng hk hp hb D MGD hpos label hl h11
    set c := {ct : Bytes | ∃ m, oaep.decrypt R fuel rng k ct (DigestState.new D) (DigestState.new MGD)
      label = .ok m}.ncard
    have h1 : c ≤ 255 * c := by omega
    rcases Nat.lt_or_ge (octetLen k.pub.n.val) (2 * D.outLen + 1) with hs | hs
    · rw [show octetLen k.pub.n.val - 2 * D.outLen - 1 = 0 by omega] at h
      have h0 : c = 0 := by simpa using h
      rw [h0, mul_zero]
      positivity
    · have h2 : 255 * c < 256 ^ D.outLen * 256 ^ (octetLen k.pub.n.val - 2 * D.outLen - 1) := by
        rw [h]
        exact Nat.mul_lt_mul_of_pos_left (Nat.sub_lt (by positivity) one_pos) (by positivity)
      calc 256 ^ (D.outLen + 1) * c < 256 ^ (D.outLen + 1) *
            (256 ^ D.outLen * 256 ^ (octetLen k.pub.n.val - 2 * D.outLen - 1)) :=
            Nat.mul_lt_mul_of_pos_left (lt_of_le_of_lt h1 h2) (by positivity)
        _ = _ := by rw [← pow_add, ← pow_add]; congr 1; omega

/-! ### Examples -/

/-- The 27-octet key without blinding: three octets of message leave 21 of padding. -/
example : {ct : Bytes | ct.length = 27 ∧
    pkcs1v15.decrypt Ex.countingRng 0 none Ex.key ct = .ok [1, 2, 3]}.ncard = 255 ^ 21 :=
  C99_pkcs1v15_message Ex.countingRng 0 none Ex.key_wf (by decide +kernel) trivial [1, 2, 3]

/-- The same with blinding, by a generator that gives a usable number at once. -/
example : {ct : Bytes | ct.length = 27 ∧ ∃ m, pkcs1v15.decrypt Ex.countingRng 3 (some 5) Ex.key ct = .ok m}.ncard =
    255 ^ 8 * (256 ^ 17 - 255 ^ 17) :=
  C99_pkcs1v15 Ex.countingRng 3 (some 5) Ex.key_wf (by decide +kernel)
    ⟨6, 1, .good 5 5 (by decide) (Or.inr (by decide)), by decide⟩

example : {ct : Bytes | oaep.decrypt Ex.countingRng 0 none Ex.key ct (DigestState.new Ex.hash4) (DigestState.new Ex.hash4)
    none = .ok [7]}.ncard = 256 ^ 4 :=
  C99_oaep_message Ex.countingRng 0 none Ex.key_wf (by decide) trivial Ex.hash4 Ex.hash4 (by decide) none (by decide) [7]

example : 255 * {ct : Bytes | ∃ m, oaep.decrypt Ex.countingRng 0 none Ex.key ct (DigestState.new Ex.hash4)
    (DigestState.new Ex.hash4) none = .ok m}.ncard = 256 ^ 4 * (256 ^ 18 - 1) :=
  (C99_oaep Ex.countingRng 0 none Ex.key_wf (by decide) trivial Ex.hash4 Ex.hash4 (by decide) none (by decide)
    (by decide +kernel)).2

example : {sig : Bytes | sig.length = 27 ∧
    (pkcs1v15.Pkcs1v15Sign.newUnprefixed).verify Ex.key.pub [1, 2, 3] sig = .ok ()}.ncard = 1 :=
  (C99_pkcs1v15_signatures Ex.key_wf (by decide +kernel) .newUnprefixed [1, 2, 3]).trans
    (if_pos ⟨fun _ h => (by cases h), by decide +kernel, by decide +kernel⟩)

/-- Salts of three octets. -/
example : {sig : Bytes | sig.length = 27 ∧ os2ip sig < Ex.key.pub.n.val ∧
    pss.Pss.verify ⟨false, DigestState.new Ex.hash4, 3⟩ Ex.key.pub [1, 2, 3, 4] sig = .ok ()}.ncard = 256 ^ 3 := by
  have h := C99_pss_signatures Ex.key_wf (by decide) false Ex.hash4 (by decide) 3 (by decide) [1, 2, 3, 4] rfl
    (by decide +kernel)
  rw [if_neg (by decide +kernel), add_zero] at h
  exact h

/-- A key of 25 bits and the one salt of no octets: two signatures. -/
example : {sig : Bytes | sig.length = 4 ∧ os2ip sig < Ex.key25.pub.n.val ∧
    pss.Pss.verify ⟨false, DigestState.new Ex.hash1, 0⟩ Ex.key25.pub [1] sig = .ok ()}.ncard = 2 := by
  have h := C99_pss_signatures Ex.key25_wf (by decide) false Ex.hash1 (by decide) 0 (by decide) [1] rfl
    (by decide +kernel)
  rw [if_pos (by decide +kernel)] at h
  refine h.trans ?_
  rw [pow_zero, show ∀ S : Set Bytes, S = {[]} → 1 + S.ncard = 2 from fun S hS => by rw [hS, Set.ncard_singleton]]
  ext salt
  simp only [Set.mem_ofPred_eq, List.length_eq_zero_iff, Set.mem_singleton_iff, and_iff_left_iff_imp]
  rintro rfl
  exact ⟨_, rfl, by decide +kernel⟩

/-- The typed decryption, the digest of a wrong length, and the typed verifying key. -/
example := C99_oaep_typed Ex.countingRng 0 none (k := Ex.key) (by decide +kernel) Ex.hash4 Ex.hash4 (some [108]) (by decide) [7]
example := C99_pss_none Ex.key_wf (by decide) true Ex.hash4 (by decide) 3 (by decide) [1, 2, 3] (List.replicate 27 7)
  (by decide) (Or.inl (by decide))
example : {sg : pss.Signature | pss.VerifyingKey.verifyPrehash (D := Ex.hash4) ⟨Ex.key.pub, 3⟩ [1, 2, 3, 4] sg =
    .ok ()}.ncard = 256 ^ 3 := by
  have h := C99_pss_typed Ex.key_wf (by decide) Ex.hash4 (by decide) 3 (by decide) [1, 2, 3, 4] rfl (by decide +kernel)
  rw [if_neg (by decide +kernel), add_zero] at h
  exact h

end RSA
