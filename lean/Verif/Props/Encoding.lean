import Verif.Props.Keys
import Verif.Proof.EncodingReturns

/-
C36 - C39, C55 - C57: PKCS#8 / SPKI encodings of keys (src/encoding.rs).
-/
namespace RSA
open BoxedUint Spec

/-! ### C36, C55: private keys -/

theorem checkPublic_of_validate {k : PrivateKey} (h : k.validate = .ok ()) : checkPublic k.pub = .ok () := by
  unfold PrivateKey.validate at h
  rw [Res.bind_eq_ok] at h
  obtain ⟨_, h, _⟩ := h
  exact h

theorem small_of_validate {k : PrivateKey} (h : k.validate = .ok ()) :
    k.pub.n.val % 2 = 1 ∧ octetLen k.pub.n.val ≤ 512 ∧ Small k.pub.e.val := by
  obtain ⟨c1, c2, c3, c4, c5, c6⟩ := (checkPublic_ok _).mp (checkPublic_of_validate h)
  refine ⟨c3, octetLen_le ?_, Small.of_lt (len := 5) (by norm_num) (by omega)⟩
  rw [pow256]
  exact lt_of_lt_of_le k.pub.n.isLt (Nat.pow_le_pow_right (by norm_num) (by unfold prec at c1; omega))

theorem qinv_exists {p q : BoxedUint} (hp1 : 1 < p.val) (hco : Nat.Coprime q.val p.val) :
    ∃ qi, q.invMod p = some qi ∧ qi.val < p.val ∧ qi.val * q.val % p.val = 1 := by
  obtain ⟨r, hr⟩ := natInvMod_isSome (by omega) hco
  obtain ⟨_, hlt, _, heq⟩ := natInvMod_some hr
  have hv : (wrap p.nlimbs r).val = r := wrap_val_of_lt (lt_trans hlt p.isLt)
  refine ⟨wrap p.nlimbs r, by unfold invMod; rw [hr]; rfl, by rw [hv]; exact hlt, ?_⟩
  rw [hv, mul_comm, heq, Nat.mod_eq_of_lt hp1]

/-- C55: the encoding of a private key is, byte for byte, the RFC 8017 `RSAPrivateKey` (version 0) inside the RFC 5208
`PrivateKeyInfo` for rsaEncryption, carrying `n`, `e`, `d`, `p`, `q`, `d mod (p-1)`, `d mod (q-1)` and the inverse of `q`
modulo `p`. -/
theorem C55_private_encoding_exact (k : PrivateKey) (p q : BoxedUint) (hv : k.validate = .ok ()) (hps : k.primes = [p, q])
    (hpw : p.prec ≤ k.d.prec) (hqw : q.prec ≤ k.d.prec) (hd : k.d.prec < 2 ^ 23) (hco : Nat.Coprime q.val p.val) :
    ∃ qi, qi < p.val ∧ qi * q.val % p.val = 1 ∧
      k.toPkcs8Der = .ok (privateKeyInfo rsaEncryptionAlg (rsaPrivateKey k.pub.n.val k.pub.e.val k.d.val p.val q.val
        (k.d.val % (p.val - 1)) (k.d.val % (q.val - 1)) qi)) := by
  obtain ⟨hodd, hn, he⟩ := small_of_validate hv
  have hl : 1 ≤ k.pub.n.nlimbs := nlimbs_pos_of_val_pos _ (by omega)
  obtain ⟨_, _, hx⟩ := (PrivateKey.validate_ok_iff k hl).mp hv
  rw [hps] at hx
  have hp1 := (hx p (by simp)).2.1
  have hq1 := (hx q (by simp)).2.1
  obtain ⟨qi, h1, h2, h3⟩ := qinv_exists hp1 hco
  have sm : ∀ v, v < 2 ^ k.d.prec → Small v := by
    intro v hv
    refine Small.of_lt (len := 8 * k.d.nlimbs) (by unfold prec at hd; omega) ?_
    rw [pow256]; rwa [show 8 * (8 * k.d.nlimbs) = k.d.prec by unfold prec; ring]
  have lp : p.val < 2 ^ k.d.prec := lt_of_lt_of_le p.isLt (Nat.pow_le_pow_right (by norm_num) hpw)
  have lq : q.val < 2 ^ k.d.prec := lt_of_lt_of_le q.isLt (Nat.pow_le_pow_right (by norm_num) hqw)
  refine ⟨qi.val, h2, h3, toPkcs8Der_eq k hps hpw hqw hp1 hq1 h1 (Small.of_lt (by omega) (lt_octetLen _)) he
    (sm _ k.d.isLt) (sm _ lp) (sm _ lq) (sm _ ?_) (sm _ ?_) (sm _ (by omega))⟩
  · exact lt_of_le_of_lt (Nat.mod_le _ _) k.d.isLt
  · exact lt_of_le_of_lt (Nat.mod_le _ _) k.d.isLt

/-- C55: a two-prime key whose second prime has no inverse modulo the first is refused, and so is every key with more than
two primes. -/
theorem C55_refused (k : PrivateKey) :
    (2 < k.primes.length → k.toPkcs8Der = .err .pkcs8) ∧
    (∀ p q, k.primes = [p, q] → 1 < p.val → 1 < q.val → p.prec ≤ k.d.prec → q.prec ≤ k.d.prec →
      ¬ Nat.Coprime q.val p.val → k.toPkcs8Der = .err .pkcs8) := by
  refine ⟨fun h => ?_, fun p q hps hp1 hq1 hpw hqw hco => ?_⟩
  · unfold PrivateKey.toPkcs8Der; rw [if_pos h]
  · obtain ⟨x1, hx1, _⟩ := crtExponent_eq hpw hp1
    obtain ⟨x2, hx2, _⟩ := crtExponent_eq hqw hq1
    unfold PrivateKey.toPkcs8Der
    rw [hps, if_neg (by simp)]
    have hp0 : primeAt [p, q] 0 = .ok p := rfl
    have hp1' : primeAt [p, q] 1 = .ok q := rfl
    have hc : k.crtCoefficient = .ok none := by
      unfold PrivateKey.crtCoefficient
      rw [hps, hp0, Res.ok_bind, hp1', Res.ok_bind]
      unfold invMod
      rw [(natInvMod_none (by omega)).mpr hco]; rfl
    simp only
    rw [hp0, Res.ok_bind, hp1', Res.ok_bind, hx1, Res.ok_bind, hx2, Res.ok_bind, hc, Res.ok_bind]

/-- C36 (full statement: every valid two-prime key round trips). Proved: exactly those validated two-prime keys round trip
whose `d` and primes are no longer, in octets, than the modulus, and whose primes are coprime; the decoded key is equal,
validates, and is well-formed if the original was. Missing: the other validated keys, for which it is false
(`C36_long_exponent_fails`, `C55_refused`). -/
theorem C36_private_round_trip_partial (k : PrivateKey) (p q : BoxedUint) (hv : k.validate = .ok ())
    (hps : k.primes = [p, q]) (hpw : p.prec ≤ k.d.prec) (hqw : q.prec ≤ k.d.prec) (hd : k.d.prec < 2 ^ 23) :
    ((∃ b k', k.toPkcs8Der = .ok b ∧ PrivateKey.fromPkcs8Der b = .ok k' ∧ k'.eq k = true) ↔
      Nat.Coprime q.val p.val ∧ k.d.val < 256 ^ octetLen k.pub.n.val ∧ p.val < 256 ^ octetLen k.pub.n.val ∧
        q.val < 256 ^ octetLen k.pub.n.val) ∧
    (∀ b k', k.toPkcs8Der = .ok b → PrivateKey.fromPkcs8Der b = .ok k' →
      k'.eq k = true ∧ k'.validate = .ok () ∧ k'.pub.Coherent ∧ k'.precomputed ≠ none ∧
        (WellFormed k → WellFormed k')) := by
  obtain ⟨hodd, hn, he⟩ := small_of_validate hv
  have h0 : k.pub.n.val ≠ 0 := by omega
  have hl : 1 ≤ k.pub.n.nlimbs := nlimbs_pos_of_val_pos _ (by omega)
  obtain ⟨_, hprod, hx⟩ := (PrivateKey.validate_ok_iff k hl).mp hv
  rw [hps] at hx hprod
  have hp1 := (hx p (by simp)).2.1
  have hq1 := (hx q (by simp)).2.1
  -- the encoder only works on coprime primes
  have henc : ∀ b, k.toPkcs8Der = .ok b → Nat.Coprime q.val p.val := by
    intro b hb
    by_contra hco
    rw [(C55_refused k).2 p q hps hp1 hq1 hpw hqw hco] at hb
    cases hb
  have sm : ∀ v, v < 2 ^ k.d.prec → Small v := by
    intro v hv
    refine Small.of_lt (len := 8 * k.d.nlimbs) (by unfold prec at hd; omega) ?_
    rw [pow256]; rwa [show 8 * (8 * k.d.nlimbs) = k.d.prec by unfold prec; ring]
  have lp : p.val < 2 ^ k.d.prec := lt_of_lt_of_le p.isLt (Nat.pow_le_pow_right (by norm_num) hpw)
  have lq : q.val < 2 ^ k.d.prec := lt_of_lt_of_le q.isLt (Nat.pow_le_pow_right (by norm_num) hqw)
  have hodd' : (stored k.pub.n.val).val % 2 = 1 := by rw [stored_val]; exact hodd
  -- what decoding gives
  have hdec : ∀ b, k.toPkcs8Der = .ok b →
      (k.d.val < 256 ^ octetLen k.pub.n.val ∧ p.val < 256 ^ octetLen k.pub.n.val ∧ q.val < 256 ^ octetLen k.pub.n.val ∧
        PrivateKey.fromPkcs8Der b = mapErrMalformed (PrivateKey.fromComponents ⟨stored k.pub.n.val, hodd'⟩
          (stored k.pub.e.val) (wrap (stored k.pub.n.val).nlimbs k.d.val)
          [wrap (stored k.pub.n.val).nlimbs p.val, wrap (stored k.pub.n.val).nlimbs q.val])) ∨
      (¬ (k.d.val < 256 ^ octetLen k.pub.n.val ∧ p.val < 256 ^ octetLen k.pub.n.val ∧
        q.val < 256 ^ octetLen k.pub.n.val) ∧ PrivateKey.fromPkcs8Der b = .err .pkcs8) := by
    intro b hb
    obtain ⟨qi, hq1', _, hb'⟩ := C55_private_encoding_exact k p q hv hps hpw hqw hd (henc b hb)
    rw [hb] at hb'
    obtain rfl := Res.ok.inj hb'
    have s1 : Small (k.d.val % (p.val - 1)) := sm _ (lt_of_le_of_lt (Nat.mod_le _ _) k.d.isLt)
    have s2 : Small (k.d.val % (q.val - 1)) := sm _ (lt_of_le_of_lt (Nat.mod_le _ _) k.d.isLt)
    have s3 : Small qi := sm _ (by omega)
    by_cases hfit : k.d.val < 256 ^ octetLen k.pub.n.val ∧ p.val < 256 ^ octetLen k.pub.n.val ∧
        q.val < 256 ^ octetLen k.pub.n.val
    · obtain ⟨f1, f2, f3⟩ := hfit
      exact Or.inl ⟨f1, f2, f3, fromPkcs8Der_fits GoodAlg.rsa hodd (by omega) he s1 s2 s3 f1 f2 f3⟩
    · refine Or.inr ⟨hfit, ?_⟩
      rw [fromPkcs8Der_eq GoodAlg.rsa (Small.of_lt (by omega) (lt_octetLen _)) he (sm _ k.d.isLt) (sm _ lp) (sm _ lq)
        s1 s2 s3]
      have ho : OddUint.new (stored k.pub.n.val) = some ⟨stored k.pub.n.val, hodd'⟩ := by
        unfold OddUint.new; rw [dif_pos hodd']
      rw [ho]
      simp only
      have hlen := octetLen_pos h0
      rw [uintBytes_length h0]
      have long : ∀ v, 256 ^ octetLen k.pub.n.val ≤ v →
          uintFromSlice (uintBytes v) (octetLen k.pub.n.val * 8) = .err .pkcs8 := by
        intro v hv
        apply uintFromSlice_too_long
        have h2 := (Nat.pow_lt_pow_iff_right (by norm_num : 1 < 256)).mp (lt_of_le_of_lt hv (uintBytes_lt v))
        unfold divCeil; omega
      by_cases f1 : k.d.val < 256 ^ octetLen k.pub.n.val
      · rw [uintFromSlice_uintBytes hlen f1, Res.ok_bind]
        by_cases f2 : p.val < 256 ^ octetLen k.pub.n.val
        · rw [uintFromSlice_uintBytes hlen f2, Res.ok_bind]
          have f3 : ¬ q.val < 256 ^ octetLen k.pub.n.val := fun f3 => hfit ⟨f1, f2, f3⟩
          rw [long _ (not_lt.mp f3)]; rfl
        · rw [long _ (not_lt.mp f2)]; rfl
      · rw [long _ (not_lt.mp f1)]; rfl
  have heq : ∀ {k'}, k.d.val < 256 ^ octetLen k.pub.n.val → p.val < 256 ^ octetLen k.pub.n.val →
      q.val < 256 ^ octetLen k.pub.n.val → PrivateKey.fromComponents ⟨stored k.pub.n.val, hodd'⟩
        (stored k.pub.e.val) (wrap (stored k.pub.n.val).nlimbs k.d.val)
        [wrap (stored k.pub.n.val).nlimbs p.val, wrap (stored k.pub.n.val).nlimbs q.val] = .ok k' → k'.eq k = true := by
    intro k' f1 f2 f3 h
    obtain ⟨g1, g2, _, g4, g5, _⟩ := PrivateKey.fromComponents_ok (by simp) h
    rw [C33_eq_distinguishes, g1, g2, g4, g5, hps]
    simp only [stored_val, List.map_cons, List.map_nil, wrap_val_of_lt (lt_stored h0 f1), wrap_val_of_lt (lt_stored h0 f2),
      wrap_val_of_lt (lt_stored h0 f3), and_self]
  refine ⟨⟨?_, ?_⟩, ?_⟩
  · rintro ⟨b, k', hb, hk', _⟩
    refine ⟨henc b hb, ?_⟩
    rcases hdec b hb with ⟨f1, f2, f3, _⟩ | ⟨_, h⟩
    · exact ⟨f1, f2, f3⟩
    · rw [h] at hk'; cases hk'
  · rintro ⟨hco, f1, f2, f3⟩
    obtain ⟨qi, _, _, hb⟩ := C55_private_encoding_exact k p q hv hps hpw hqw hd hco
    obtain ⟨k', hk', _⟩ := fromComponents_stored k hv hps f1 f2 f3 hodd'
    refine ⟨_, k', hb, ?_, heq f1 f2 f3 hk'⟩
    rcases hdec _ hb with ⟨_, _, _, h⟩ | ⟨h, _⟩
    · rw [h, hk']; rfl
    · exact absurd ⟨f1, f2, f3⟩ h
  · intro b k' hb hk'
    rcases hdec b hb with ⟨f1, f2, f3, h⟩ | ⟨_, h⟩
    · rw [h, mapErrMalformed_ok] at hk'
      have hE := heq f1 f2 f3 hk'
      obtain ⟨g1, g2, g3, g4, g5, _, g7, g8, g9⟩ := PrivateKey.fromComponents_ok (by simp) hk'
      have hpo : p.val % 2 = 1 ∧ q.val % 2 = 1 := by
        simp only [List.map_cons, List.map_nil, List.prod_cons, List.prod_nil, mul_one] at hprod
        have h2 : (2 : Nat) ∣ 2 ^ k.pub.n.prec := dvd_pow_self 2 (by unfold prec; omega)
        have h3 : p.val * q.val % 2 = 1 := by
          rw [← hodd, ← hprod, Nat.mod_mod_of_dvd _ h2]
        rw [Nat.mul_mod] at h3
        rcases Nat.mod_two_eq_zero_or_one p.val with a | a <;> rcases Nat.mod_two_eq_zero_or_one q.val with b | b <;>
          simp [a, b] at h3; exact ⟨a, b⟩
      have vp := wrap_val_of_lt (lt_stored h0 f2)
      have vq := wrap_val_of_lt (lt_stored h0 f3)
      obtain ⟨pre, hpre⟩ := precomputeValues_exists (d := wrap (stored k.pub.n.val).nlimbs k.d.val)
        (p := wrap (stored k.pub.n.val).nlimbs p.val) (q := wrap (stored k.pub.n.val).nlimbs q.val) (rest := [])
        (stored_nlimbs_pos _) le_rfl le_rfl (by rw [vp]; exact hpo.1) (by rw [vq]; exact hpo.2) (by rw [vp]; exact hp1)
        (by rw [vq]; exact hq1) (by rw [vp, vq]; exact henc b hb)
      refine ⟨hE, g7, by unfold PublicKey.Coherent; rw [g3, g1], ?_, ?_⟩
      · intro hnone
        obtain ⟨er, her⟩ := g9 hnone
        rw [hpre] at her; cases her
      · intro hwf
        have hN := hwf.numbers
        rw [hps] at hN
        refine PrivateKey.fromComponents_wf hk' ?_ ?_ (by simp) ?_ le_rfl
        · intro r hr
          simp only [List.mem_cons, List.not_mem_nil, or_false] at hr
          rcases hr with rfl | rfl
          · rw [vp]; exact hN.prime _ (by simp)
          · rw [vq]; exact hN.prime _ (by simp)
        · simpa only [List.map_cons, List.map_nil, vp, vq] using hN.nodup
        · simpa only [List.map_cons, List.map_nil, vp, vq, stored_val] using hN.prod
    · rw [h] at hk'; cases hk'

example : Ex.key.validate = .ok () ∧ Nat.Coprime (2 ^ 127 - 1) (2 ^ 89 - 1) ∧
    Ex.key.d.val < 256 ^ octetLen Ex.key.pub.n.val ∧ (wrap 2 (2 ^ 127 - 1)).prec ≤ Ex.key.d.prec ∧
    Ex.key.d.prec < 2 ^ 23 := by
  decide +kernel

/-- C36: in particular well-formed keys with `d` no longer than the modulus always round trip. -/
theorem C36_well_formed_round_trip (k : PrivateKey) (p q : BoxedUint) (hwf : WellFormed k) (hv : k.validate = .ok ())
    (hps : k.primes = [p, q]) (hpw : p.prec ≤ k.d.prec) (hqw : q.prec ≤ k.d.prec) (hd : k.d.prec < 2 ^ 23)
    (hd' : k.d.val < k.pub.n.val) :
    ∃ b k', k.toPkcs8Der = .ok b ∧ PrivateKey.fromPkcs8Der b = .ok k' ∧ k'.eq k = true ∧ WellFormed k' ∧
      k'.precomputed ≠ none := by
  have hN := hwf.numbers
  rw [hps] at hN
  have hpp := hN.prime p.val (by simp)
  have hqp := hN.prime q.val (by simp)
  have hne : p.val ≠ q.val := by
    have := hN.nodup
    simp only [List.map_cons, List.map_nil, List.nodup_cons, List.mem_singleton] at this
    exact this.1
  have hprod : p.val * q.val = k.pub.n.val := by simpa using hN.prod
  have hL := lt_octetLen k.pub.n.val
  have h1 : p.val ≤ k.pub.n.val := by rw [← hprod]; exact Nat.le_mul_of_pos_right _ hqp.pos
  have h2 : q.val ≤ k.pub.n.val := by rw [← hprod]; exact Nat.le_mul_of_pos_left _ hpp.pos
  obtain ⟨hiff, hall⟩ := C36_private_round_trip_partial k p q hv hps hpw hqw hd
  obtain ⟨b, k', hb, hk', hE⟩ := hiff.mpr ⟨((Nat.coprime_primes hqp hpp).mpr (Ne.symm hne)), by omega, by omega, by omega⟩
  obtain ⟨_, _, _, h4, h5⟩ := hall b k' hb hk'
  exact ⟨b, k', hb, hk', hE, h5 hwf, h4⟩

example : WellFormed Ex.key ∧ Ex.key.d.val < Ex.key.pub.n.val := ⟨Ex.key_wf, by decide +kernel⟩

theorem fromPQ_components {p q e : BoxedUint} {k : PrivateKey} (h : PrivateKey.fromPQ p q e = .ok k) :
    ∃ n d, computePrivateExponentCarmichael p q e = .ok d ∧ computeModulus [p, q] = .ok n ∧
      PrivateKey.fromComponents n e d [p, q] = .ok k := by
  unfold PrivateKey.fromPQ at h
  by_cases hb : p.beq q = true
  · rw [if_pos hb] at h; cases h
  rw [if_neg hb, Res.bind_eq_ok] at h
  obtain ⟨d, hd, h⟩ := h
  simp only at h
  rw [Res.bind_eq_ok] at h
  obtain ⟨n, hn, h⟩ := h
  exact ⟨n, d, hd, hn, h⟩

/-- C36: every key `from_p_q` makes from two primes survives encoding and decoding. -/
theorem C36_from_p_q_round_trip (p q e : BoxedUint) (k : PrivateKey) (hp : p.val.Prime) (hq : q.val.Prime)
    (h : PrivateKey.fromPQ p q e = .ok k) :
    ∃ b k', k.toPkcs8Der = .ok b ∧ PrivateKey.fromPkcs8Der b = .ok k' ∧ k'.eq k = true ∧ WellFormed k' ∧
      k'.precomputed ≠ none := by
  obtain ⟨hwf, hn, _, hps, _, hlt, _⟩ := (C29_from_p_q p q e).2.1 hp hq k h
  obtain ⟨n, d, hd, hm, hf⟩ := fromPQ_components h
  obtain ⟨g1, _, _, g4, _, _, g7, _, _⟩ := PrivateKey.fromComponents_ok (by simp) hf
  have hdl := ((carmichael_spec (e := e) hp.one_lt hq.one_lt).1 d hd).2.2
  have hnl := (computeModulus_ok hm).2
  obtain ⟨c1, _⟩ := (checkPublic_ok _).mp (checkPublic_of_validate g7)
  have hnl' : n.toBoxedUint.nlimbs = p.nlimbs + q.nlimbs := by simpa using hnl
  rw [g1] at c1
  unfold prec at c1
  refine C36_well_formed_round_trip k p q hwf g7 hps ?_ ?_ ?_ ?_
  · rw [g4]; unfold prec; omega
  · rw [g4]; unfold prec; omega
  · rw [g4]; unfold prec; omega
  · rw [hn]
    refine lt_of_lt_of_le hlt (le_trans (Nat.lcm_le_mul ?_ ?_) (Nat.mul_le_mul (by omega) (by omega)))
    · have := hp.one_lt; omega
    · have := hq.one_lt; omega

example : PrivateKey.fromPQ (wrap 2 (2 ^ 89 - 1)) (wrap 2 (2 ^ 127 - 1)) (wrap 1 65537) = .ok Ex.key := by decide +kernel

/-- C36 fails for a well-formed, validated key whose private exponent has more octets than the modulus: it is accepted by
`from_components`, encoded, and its encoding is refused. -/
theorem C36_long_exponent_fails :
    ∃ k b, PrivateKey.fromComponents Ex.nOdd (wrap 1 65537)
        (wrap 4 122932634104783324673996229618378242951842556222229880719029196293) [wrap 2 (2 ^ 89 - 1), wrap 2 (2 ^ 127 - 1)] = .ok k ∧
      WellFormed k ∧ k.toPkcs8Der = .ok b ∧ PrivateKey.fromPkcs8Der b = .err .pkcs8 := by
  have hex : (match PrivateKey.fromComponents Ex.nOdd (wrap 1 65537)
        (wrap 4 122932634104783324673996229618378242951842556222229880719029196293) [wrap 2 (2 ^ 89 - 1), wrap 2 (2 ^ 127 - 1)] with
      | .ok k => (match k.toPkcs8Der with
        | .ok b => decide (PrivateKey.fromPkcs8Der b = .err .pkcs8)
        | _ => false)
      | _ => false) = true := by decide +kernel
  cases hk : PrivateKey.fromComponents Ex.nOdd (wrap 1 65537)
      (wrap 4 122932634104783324673996229618378242951842556222229880719029196293) [wrap 2 (2 ^ 89 - 1), wrap 2 (2 ^ 127 - 1)] with
  | ok k =>
    rw [hk] at hex
    simp only at hex
    cases hb : k.toPkcs8Der with
    | ok b =>
      rw [hb] at hex
      refine ⟨k, b, rfl, ?_, hb, by simpa using hex⟩
      refine PrivateKey.fromComponents_wf hk ?_ (by decide +kernel) (by simp) (by decide +kernel) (by decide +kernel)
      intro r hr
      simp only [List.mem_cons, List.not_mem_nil, or_false] at hr
      rcases hr with rfl | rfl
      · have : (wrap 2 (2 ^ 89 - 1)).val = 2 ^ 89 - 1 := by decide +kernel
        rw [this]; exact Ex.prime89
      · have : (wrap 2 (2 ^ 127 - 1)).val = 2 ^ 127 - 1 := by decide +kernel
        rw [this]; exact Ex.prime127
    | err e => rw [hb] at hex; cases hex
    | panic e => rw [hb] at hex; cases hex
    | loop => rw [hb] at hex; cases hex
  | err e => rw [hk] at hex; cases hex
  | panic e => rw [hk] at hex; cases hex
  | loop => rw [hk] at hex; cases hex

/-! ### C38 -/

/-- C38: two private key encodings that differ only in exponent1, exponent2 and coefficient decode to the same result, be
it a key (with its own CRT values), an error or a panic. -/
theorem C38_crt_fields_ignored {alg : Bytes} (ha : alg = rsaEncryptionAlg ∨ alg = rsassaPssAlg)
    (n e d p q dp dq qi dp' dq' qi' : Nat)
    (hs : ∀ v ∈ [n, e, d, p, q, dp, dq, qi, dp', dq', qi'], v < 256 ^ (2 ^ 20 - 1)) :
    PrivateKey.fromPkcs8Der (privateKeyInfo alg (rsaPrivateKey n e d p q dp dq qi)) =
      PrivateKey.fromPkcs8Der (privateKeyInfo alg (rsaPrivateKey n e d p q dp' dq' qi')) := by
  have sm : ∀ v ∈ [n, e, d, p, q, dp, dq, qi, dp', dq', qi'], Small v := fun v hv =>
    Small.of_lt (by norm_num) (hs v hv)
  have ha' : ∃ a, GoodAlg a alg := by
    rcases ha with rfl | rfl
    · exact ⟨_, GoodAlg.rsa⟩
    · exact ⟨_, GoodAlg.pss⟩
  obtain ⟨a, ha'⟩ := ha'
  rw [fromPkcs8Der_eq ha' (sm n (by simp)) (sm e (by simp)) (sm d (by simp)) (sm p (by simp)) (sm q (by simp))
      (sm dp (by simp)) (sm dq (by simp)) (sm qi (by simp)),
    fromPkcs8Der_eq ha' (sm n (by simp)) (sm e (by simp)) (sm d (by simp)) (sm p (by simp)) (sm q (by simp))
      (sm dp' (by simp)) (sm dq' (by simp)) (sm qi' (by simp))]

/-- C38, without any size bound: for every two inputs whose parsed structures agree on all other fields. -/
theorem C38_crt_fields_ignored_parsed (i i' : der.PrivateKeyInfo) (r r' : der.RsaPrivateKey)
    (ha : i.algorithm = i'.algorithm) (h : der.decodeRsaPrivateKey i.privateKey = .ok r)
    (h' : der.decodeRsaPrivateKey i'.privateKey = .ok r') (hm : r.multi = r'.multi) (hn : r.modulus = r'.modulus)
    (he : r.publicExponent = r'.publicExponent) (hd : r.privateExponent = r'.privateExponent)
    (hp : r.prime1 = r'.prime1) (hq : r.prime2 = r'.prime2) :
    PrivateKey.tryFromInfo i = PrivateKey.tryFromInfo i' := by
  unfold PrivateKey.tryFromInfo
  rw [h, h', ha]
  simp only [Res.ok_bind, hm, hn, he, hd, hp, hq]

/-- A decoded key whose stored CRT values were nonsense has the right ones. -/
example : (match PrivateKey.fromPkcs8Der (privateKeyInfo rsaEncryptionAlg
      (rsaPrivateKey ((2 ^ 89 - 1) * (2 ^ 127 - 1)) 65537 Ex.dVal (2 ^ 89 - 1) (2 ^ 127 - 1) 7 0 12345)) with
    | .ok k => decide (k.precomputed.map (fun pre => (pre.dp.val, pre.dq.val, pre.qinv.res)) =
        Ex.key.precomputed.map (fun pre => (pre.dp.val, pre.dq.val, pre.qinv.res)))
    | _ => false) = true := by decide +kernel

/-! ### C37, C56: public keys -/

theorem public_small {k : PublicKey} (h : checkPublic k = .ok ()) :
    (intOctets k.n.val).length ≤ 2 ^ 20 ∧ (intOctets k.e.val).length ≤ 2 ^ 20 := by
  obtain ⟨c1, c2, c3, c4, c5, c6⟩ := (checkPublic_ok _).mp h
  have h1 : Small k.n.val := by
    refine Small.of_lt (len := 512) (by norm_num) ?_
    rw [pow256]
    exact lt_of_lt_of_le k.n.isLt (Nat.pow_le_pow_right (by norm_num) (by unfold prec at c1; omega))
  have h2 : Small k.e.val := Small.of_lt (len := 5) (by norm_num) (by omega)
  exact ⟨h1, h2⟩

theorem publicKey_new_ok (n e : BoxedUint) (hodd : n.val % 2 = 1) (h : checkPublicWithMaxSize n e maxSize = .ok ()) :
    PublicKey.new n e = .ok ⟨n, e, ⟨⟨n, hodd⟩⟩⟩ := by
  unfold PublicKey.new PublicKey.newWithMaxSize
  rw [h, Res.ok_bind]
  simp only [OddUint.new, hodd, dif_pos]
  rw [expectNonZero_of_ne (by omega)]
  rfl

theorem publicKey_new_some {n e : BoxedUint} {k : PublicKey} (h : PublicKey.new n e = .ok k) :
    checkPublic k = .ok () ∧ k.n = n ∧ k.e = e ∧ k.Coherent := by
  obtain ⟨hx, h1, h2, h3⟩ := ((C26_public_key_acceptance n e 4096).1 k).mp h
  refine ⟨?_, h1, h2, h3⟩
  rw [checkPublic_ok, h1, h2]
  exact hx

/-- C37: the encoding of a valid public key is the RFC 5280 `SubjectPublicKeyInfo` around the RFC 8017 `RSAPublicKey`, and
decoding it gives an equal valid key; the identical one if modulus and exponent were stored without spare limbs. -/
theorem C37_public_round_trip (k : PublicKey) (hc : k.Coherent) (hv : checkPublic k = .ok ()) :
    k.toPublicKeyDer = .ok (subjectPublicKeyInfo rsaEncryptionAlg (rsaPublicKey k.n.val k.e.val)) ∧
    ∃ k', PublicKey.fromPublicKeyDer (subjectPublicKeyInfo rsaEncryptionAlg (rsaPublicKey k.n.val k.e.val)) = .ok k' ∧
      k'.eq k = true ∧ k'.Coherent ∧ checkPublic k' = .ok () ∧
      (k.n.nlimbs = (k.n.val.size + 63) / 64 → k.e.nlimbs = (k.e.val.size + 63) / 64 → k' = k) := by
  obtain ⟨hn, he⟩ := public_small hv
  refine ⟨toPublicKeyDer_eq k hn he, ?_⟩
  obtain ⟨c1, c2, c3, c4, c5, c6⟩ := (checkPublic_ok _).mp hv
  have h0 : k.n.val ≠ 0 := by omega
  have hodd : (stored k.n.val).val % 2 = 1 := by rw [stored_val]; exact c3
  have hchk : checkPublicWithMaxSize (stored k.n.val) (stored k.e.val) maxSize = .ok () := by
    rw [checkPublicWithMaxSize_ok]
    simp only [stored_val]
    refine ⟨?_, c2, c3, c4, c5, c6⟩
    have := stored_nlimbs_le k.n h0
    have : (stored k.n.val).prec ≤ k.n.prec := by unfold prec; omega
    unfold maxSize; omega
  refine ⟨⟨stored k.n.val, stored k.e.val, ⟨⟨stored k.n.val, hodd⟩⟩⟩, ?_, ?_, rfl, hchk, ?_⟩
  · rw [fromPublicKeyDer_eq GoodAlg.rsa hn he, publicKey_new_ok _ _ hodd hchk]; rfl
  · unfold PublicKey.eq beq; simp [stored_val]
  · intro h1 h2
    have e0 : k.e.val ≠ 0 := by omega
    have s : ∀ x : BoxedUint, x.val ≠ 0 → x.nlimbs = (x.val.size + 63) / 64 → stored x.val = x := by
      intro x hx hl
      refine ext_val ?_ (stored_val _)
      rw [stored_nlimbs hx, limbsFor_octets, hl]
      have := Nat.size_pos.mpr (Nat.pos_of_ne_zero hx)
      omega
    have hn' := s k.n h0 h1
    have he' := s k.e e0 h2
    obtain ⟨n, e, ⟨⟨m, hm⟩⟩⟩ := k
    obtain rfl : m = n := hc
    simp only at hn' he'
    simp only [hn', he']

example : Ex.pub.Coherent ∧ checkPublic Ex.pub = .ok () ∧ Ex.pub.n.nlimbs = (Ex.pub.n.val.size + 63) / 64 :=
  ⟨rfl, by decide +kernel, by decide +kernel⟩

/-- C37: the encoding determines modulus and exponent, also for keys outside the accepted ranges. -/
theorem C37_encoding_injective (a b : PublicKey) (ha : a.n.prec < 2 ^ 23 ∧ a.e.prec < 2 ^ 23)
    (hb : b.n.prec < 2 ^ 23 ∧ b.e.prec < 2 ^ 23) (h : a.toPublicKeyDer = b.toPublicKeyDer) : a.eq b = true := by
  have sm : ∀ x : BoxedUint, x.prec < 2 ^ 23 → (intOctets x.val).length ≤ 2 ^ 20 := by
    intro x hx
    refine Small.of_lt (len := 8 * x.nlimbs) (by unfold prec at hx; omega) ?_
    rw [pow256, show 8 * (8 * x.nlimbs) = 64 * x.nlimbs by ring]; exact x.isLt
  rw [toPublicKeyDer_eq a (sm _ ha.1) (sm _ ha.2), toPublicKeyDer_eq b (sm _ hb.1) (sm _ hb.2)] at h
  have h := Res.ok.inj h
  have d1 := decodeSpki_eq GoodAlg.rsa (rsaPublicKey_length (sm _ ha.1) (sm _ ha.2))
  rw [h, decodeSpki_eq GoodAlg.rsa (rsaPublicKey_length (sm _ hb.1) (sm _ hb.2))] at d1
  have h2 : rsaPublicKey b.n.val b.e.val = rsaPublicKey a.n.val a.e.val := by injection (Res.ok.inj d1)
  have d2 := decodeRsaPublicKey_eq (sm _ ha.1) (sm _ ha.2)
  rw [← h2, decodeRsaPublicKey_eq (sm _ hb.1) (sm _ hb.2)] at d2
  have h3 := Res.ok.inj d2
  injection h3 with h4 h5
  have h4 := congrArg beVal h4
  have h5 := congrArg beVal h5
  rw [uintBytes_beVal, uintBytes_beVal] at h4 h5
  unfold PublicKey.eq beq; simp [h4, h5]

/-- C56: decoding a public key always returns, and a byte string is accepted exactly if it is the strict DER encoding of an
acceptable modulus and exponent under one of the two algorithm identifiers; the key holds these numbers, and encoding a
decoded key and decoding again gives the identical key. -/
theorem C56_public_decoding_strict (b : Bytes) :
    (PublicKey.fromPublicKeyDer b).Returns ∧
    ((∃ k, PublicKey.fromPublicKeyDer b = .ok k) ↔
      ∃ n e alg, b = subjectPublicKeyInfo alg (rsaPublicKey n e) ∧ (alg = rsaEncryptionAlg ∨ alg = rsassaPssAlg) ∧
        n < 2 ^ 4096 ∧ e < n ∧ n % 2 = 1 ∧ e % 2 = 1 ∧ 2 ≤ e ∧ e ≤ 2 ^ 33 - 1) ∧
    (∀ k, PublicKey.fromPublicKeyDer b = .ok k →
      (b = subjectPublicKeyInfo rsaEncryptionAlg (rsaPublicKey k.n.val k.e.val) ∨
        b = subjectPublicKeyInfo rsassaPssAlg (rsaPublicKey k.n.val k.e.val)) ∧
      k.Coherent ∧ checkPublic k = .ok () ∧
      ∃ b', k.toPublicKeyDer = .ok b' ∧ PublicKey.fromPublicKeyDer b' = .ok k) := by
  have main : ∀ k, PublicKey.fromPublicKeyDer b = .ok k →
      (b = subjectPublicKeyInfo rsaEncryptionAlg (rsaPublicKey k.n.val k.e.val) ∨
        b = subjectPublicKeyInfo rsassaPssAlg (rsaPublicKey k.n.val k.e.val)) ∧
      k.Coherent ∧ checkPublic k = .ok () ∧
      ∃ b', k.toPublicKeyDer = .ok b' ∧ PublicKey.fromPublicKeyDer b' = .ok k := by
    intro k h
    obtain ⟨a, alg, n, e, ha, rfl, hk⟩ := fromPublicKeyDer_ok h
    obtain ⟨hv, h1, h2, hc⟩ := publicKey_new_some hk
    have hn : k.n.val = n := by rw [h1, stored_val]
    have he : k.e.val = e := by rw [h2, stored_val]
    subst hn he
    refine ⟨?_, hc, hv, ?_⟩
    · cases ha
      · exact Or.inl rfl
      · exact Or.inr rfl
    · obtain ⟨hn, he⟩ := public_small hv
      refine ⟨_, toPublicKeyDer_eq k hn he, ?_⟩
      rw [fromPublicKeyDer_eq GoodAlg.rsa hn he, hk]
      rfl
  refine ⟨fromPublicKeyDer_ret b, ⟨?_, ?_⟩, main⟩
  · rintro ⟨k, h⟩
    obtain ⟨hb, _, hv, _⟩ := main k h
    obtain ⟨c1, c2⟩ := (checkPublic_ok _).mp hv
    have hlt : k.n.val < 2 ^ 4096 := lt_of_lt_of_le k.n.isLt (Nat.pow_le_pow_right (by norm_num) c1)
    rcases hb with rfl | rfl
    · exact ⟨k.n.val, k.e.val, _, rfl, Or.inl rfl, hlt, c2⟩
    · exact ⟨k.n.val, k.e.val, _, rfl, Or.inr rfl, hlt, c2⟩
  · rintro ⟨n, e, alg, rfl, halg, hn, h1, h2, h3, h4, h5⟩
    have ha' : ∃ a, GoodAlg a alg := by
      rcases halg with rfl | rfl
      · exact ⟨_, GoodAlg.rsa⟩
      · exact ⟨_, GoodAlg.pss⟩
    obtain ⟨a, ha'⟩ := ha'
    have s1 : Small n := Small.of_lt (len := 512) (by norm_num) (by rw [pow256]; exact hn)
    have s2 : Small e := Small.of_lt (len := 5) (by norm_num) (by omega)
    rw [fromPublicKeyDer_eq ha' s1 s2, publicKey_new_ok _ _ (by rw [stored_val]; exact h2) ?_]
    · exact ⟨_, rfl⟩
    · rw [checkPublicWithMaxSize_ok]
      simp only [stored_val]
      exact ⟨stored_prec_le (by omega) hn, h1, h2, h3, h4, h5⟩

example : (2 ^ 89 - 1) * (2 ^ 127 - 1) < 2 ^ 4096 ∧ (2 ^ 89 - 1) * (2 ^ 127 - 1) % 2 = 1 := by decide +kernel

/-- The encoding of the smallest acceptable key, `n = 5`, `e = 3`; appending a byte, a non-minimal integer or a long-form
length is refused. -/
example : subjectPublicKeyInfo rsaEncryptionAlg (rsaPublicKey 5 3) =
      [0x30, 0x1a, 0x30, 0x0d, 0x06, 0x09, 0x2a, 0x86, 0x48, 0x86, 0xf7, 0x0d, 0x01, 0x01, 0x01, 0x05, 0x00, 0x03, 0x09,
        0x00, 0x30, 0x06, 0x02, 0x01, 0x05, 0x02, 0x01, 0x03] ∧
    (∃ k, PublicKey.fromPublicKeyDer (subjectPublicKeyInfo rsaEncryptionAlg (rsaPublicKey 5 3)) = .ok k) ∧
    PublicKey.fromPublicKeyDer (subjectPublicKeyInfo rsaEncryptionAlg (rsaPublicKey 5 3) ++ [0]) = .err .pkcs8 ∧
    PublicKey.fromPublicKeyDer
      [0x30, 0x1b, 0x30, 0x0d, 0x06, 0x09, 0x2a, 0x86, 0x48, 0x86, 0xf7, 0x0d, 0x01, 0x01, 0x01, 0x05, 0x00, 0x03, 0x0a,
        0x00, 0x30, 0x07, 0x02, 0x02, 0x00, 0x05, 0x02, 0x01, 0x03] = .err .pkcs8 := by
  refine ⟨by decide +kernel, ⟨⟨wrap 1 5, wrap 1 3, ⟨⟨wrap 1 5, by decide⟩⟩⟩, by decide +kernel⟩, by decide +kernel,
    by decide +kernel⟩

/-! ### C57, C58: what private key decoding accepts -/

/-- C57: whatever PKCS#8 input is accepted, the key is validated, holds exactly the numbers of the version 0 RFC 8017
structure inside, has two primes, and was declared under one of the two algorithm identifiers. If its primes are coprime
it encodes, and decoding that gives back the identical key, cached values included. -/
theorem C57_private_decoding_sound (b : Bytes) (k : PrivateKey) (h : PrivateKey.fromPkcs8Der b = .ok k) :
    k.validate = .ok () ∧ k.pub.Coherent ∧
    (∃ i p q dp dq qi, der.decodePrivateKeyInfo b = .ok i ∧ k.primes = [p, q] ∧
      i.privateKey = rsaPrivateKey k.pub.n.val k.pub.e.val k.d.val p.val q.val dp dq qi ∧
      ((i.algorithm.oid = oidOctets 1 2 [840, 113549, 1, 1, 1] ∧ i.algorithm.parameters = some (0x05, [])) ∨
        (i.algorithm.oid = oidOctets 1 2 [840, 113549, 1, 1, 10] ∧ i.algorithm.parameters = none)) ∧
      (Nat.Coprime q.val p.val → ∃ b', k.toPkcs8Der = .ok b' ∧ PrivateKey.fromPkcs8Der b' = .ok k)) := by
  obtain ⟨i, hi, h⟩ := fromPkcs8Der_ok h
  obtain ⟨hv, n, e, d, p, q, dp, dq, qi, nOdd, hpk, hno, h0, hd, hp, hq, hk⟩ := tryFromInfo_ok h
  obtain ⟨g1, g2, g3, g4, g5, _, g7, _, _⟩ := PrivateKey.fromComponents_ok (by simp) hk
  refine ⟨g7, by unfold PublicKey.Coherent; rw [g3, g1], i, _, _, dp, dq, qi, hi, g5, ?_, ?_, ?_⟩
  · rw [hpk, g1, g2, g4, hno, stored_val, stored_val, wrap_val_of_lt (lt_stored h0 hd), wrap_val_of_lt (lt_stored h0 hp),
      wrap_val_of_lt (lt_stored h0 hq)]
  · rcases (verifyAlgorithmId_ok _).mp hv with h | h
    · rw [h]; exact Or.inl ⟨rsaEncryptionOid_eq, rfl⟩
    · rw [h]; exact Or.inr ⟨rsassaPssOid_eq, rfl⟩
  · intro hco
    have hn : k.pub.n.val = n := by rw [g1, hno, stored_val]
    have he : k.pub.e.val = e := by rw [g2, stored_val]
    have hdv : k.d.val = d := by rw [g4, wrap_val_of_lt (lt_stored h0 hd)]
    have hpv := wrap_val_of_lt (lt_stored h0 hp)
    have hqv := wrap_val_of_lt (lt_stored h0 hq)
    obtain ⟨c1, _⟩ := (checkPublic_ok _).mp (checkPublic_of_validate g7)
    have hodd := nOdd.odd
    rw [hno, stored_val] at hodd
    have hdp : k.d.prec = (stored n).prec := by rw [g4]; rfl
    obtain ⟨qi', q1, _, hb⟩ := C55_private_encoding_exact k _ _ g7 g5 (by rw [hdp]; exact le_rfl) (by rw [hdp]; exact le_rfl)
      (by rw [hdp]; rw [g1, hno] at c1; omega) hco
    refine ⟨_, hb, ?_⟩
    obtain ⟨_, hs, hes⟩ := small_of_validate g7
    rw [hpv, hqv] at hb ⊢
    rw [hpv] at q1
    rw [hn, he, hdv] at hb ⊢
    rw [he] at hes
    rw [hn] at hs
    have sm : ∀ v, v < 256 ^ octetLen n → Small v := fun v hv => Small.of_lt (by omega) hv
    rw [fromPkcs8Der_fits GoodAlg.rsa hodd (by omega) hes (sm _ (lt_of_le_of_lt (Nat.mod_le _ _) hd))
      (sm _ (lt_of_le_of_lt (Nat.mod_le _ _) hd)) (sm _ (by omega)) hd hp hq]
    have : nOdd = ⟨stored n, by rw [stored_val]; exact hodd⟩ := by
      obtain ⟨m, hm⟩ := nOdd
      simp only at hno
      subst hno
      rfl
    rw [← this, hk]
    rfl

example : (match PrivateKey.fromPkcs8Der (privateKeyInfo rsassaPssAlg
      (rsaPrivateKey ((2 ^ 89 - 1) * (2 ^ 127 - 1)) 65537 Ex.dVal (2 ^ 89 - 1) (2 ^ 127 - 1) 1 2 3)) with
    | .ok k => decide (k.d.val = Ex.dVal)
    | _ => false) = true := by decide +kernel

/-- C58 (full statement: decoding a private key never panics). Proved: for every byte string, decoding returns unless the
parsed `RSAPrivateKey` has a prime equal to 1. Missing: inputs with a prime equal to 1, for which it is false
(`C58_prime_one_panics`). -/
theorem C58_private_decoding_returns_partial (b : Bytes)
    (h : ∀ i r, der.decodePrivateKeyInfo b = .ok i → der.decodeRsaPrivateKey i.privateKey = .ok r →
      beVal r.prime1 ≠ 1 ∧ beVal r.prime2 ≠ 1) :
    (PrivateKey.fromPkcs8Der b).Returns := by
  unfold PrivateKey.fromPkcs8Der
  exact (decodePrivateKeyInfo_ret b).bind fun i hi => tryFromInfo_ret i (fun r hr => h i r hi hr)
    C28_returns_partial.2.1

example : ∀ i r, der.decodePrivateKeyInfo [0x30, 0x00] = .ok i → der.decodeRsaPrivateKey i.privateKey = .ok r →
    beVal r.prime1 ≠ 1 ∧ beVal r.prime2 ≠ 1 := by
  intro i r h; exact absurd h (by
    have : der.decodePrivateKeyInfo [0x30, 0x00] = .err .pkcs8 := by decide +kernel
    rw [this]; simp)

/-- C58 fails: for every acceptable public key, the private key encoding with primes 1 and `n` makes the decoder panic. -/
theorem C58_prime_one_panics (n e d : Nat) (hn : n < 2 ^ 4096) (h1 : e < n) (h2 : n % 2 = 1) (h3 : e % 2 = 1) (h4 : 2 ≤ e)
    (h5 : e ≤ 2 ^ 33 - 1) (hd : d < 256 ^ octetLen n) :
    (PrivateKey.fromPkcs8Der (privateKeyInfo rsaEncryptionAlg (rsaPrivateKey n e d 1 n 0 0 0))).Panics := by
  have h0 : n ≠ 0 := by omega
  have hL : octetLen n ≤ 512 := octetLen_le (by rw [pow256]; exact hn)
  have z : Small 0 := Small.of_lt (len := 1) (by norm_num) (by norm_num)
  have hone : 1 < 256 ^ octetLen n := Nat.one_lt_pow (by have := octetLen_pos h0; omega) (by norm_num)
  rw [fromPkcs8Der_fits GoodAlg.rsa h2 (by omega) (Small.of_lt (len := 5) (by norm_num) (by omega)) z z z hd hone
    (lt_octetLen n)]
  have hnz : (stored n).nonZero = some (stored n) := by unfold nonZero; rw [if_neg (by rw [stored_val]; exact h0)]
  unfold PrivateKey.fromComponents
  simp only [hnz, Res.ok_bind]
  have hc : checkPublicWithMaxSize (stored n) (stored e) maxSize = .ok () := by
    rw [checkPublicWithMaxSize_ok]
    simp only [stored_val]
    exact ⟨stored_prec_le h0 hn, h1, h2, h3, h4, h5⟩
  have v1 : (wrap (stored n).nlimbs 1).val = 1 := wrap_val_of_lt (lt_stored h0 hone)
  have vn : (wrap (stored n).nlimbs n).val = n := wrap_val_of_lt (lt_stored h0 (lt_octetLen n))
  unfold PrivateKey.validate checkPublic
  simp only
  rw [hc, Res.ok_bind, PrivateKey.validateProduct_eq, if_pos (by
    intro r hr
    simp only [List.mem_cons, List.not_mem_nil, or_false] at hr
    rcases hr with rfl | rfl
    · rw [v1]
    · rw [vn]; omega), Res.ok_bind]
  have hs := stored_nlimbs_pos n
  have hone' : (oneWithPrecision (stored n).prec).val = 1 := by
    unfold oneWithPrecision
    rw [limbsFor_prec _ hs]
    exact wrap_val_of_lt (Nat.one_lt_two_pow (by omega))
  have hbeq : (wrap (oneWithPrecision (stored n).prec).nlimbs ((oneWithPrecision (stored n).prec).val *
      (List.map BoxedUint.val [wrap (stored n).nlimbs 1, wrap (stored n).nlimbs n]).prod)).beq (stored n) = true := by
    have hl : (oneWithPrecision (stored n).prec).nlimbs = (stored n).nlimbs := limbsFor_prec _ hs
    rw [hone', hl]
    simp only [List.map_cons, List.map_nil, List.prod_cons, List.prod_nil, v1, vn, one_mul, mul_one]
    unfold beq; rw [vn, stored_val]; simp
  rw [hbeq]
  simp only [Bool.not_true, Bool.false_eq_true, if_false]
  obtain ⟨d', h6, h7, _⟩ := PrivateKey.de_val (wrap (stored n).nlimbs d) (stored e) (by rw [stored_val]; exact h5)
  rw [h6, Res.ok_bind]
  unfold PrivateKey.validateExponents
  have hw : (wrap (stored n).nlimbs 1).prec ≤ d'.prec := by
    rw [h7]; unfold prec limbsFor; simp only [wrap_nlimbs]; omega
  rw [widen_of_le hw, Res.ok_bind, expectNonZero_of_eq (by
    rw [wrappingSub_one_val _ (by rw [widen_val hw, v1]; omega), widen_val hw, v1])]
  trivial

example : (15 : Nat) < 2 ^ 4096 ∧ 3 < 15 ∧ (PrivateKey.fromPkcs8Der
    (privateKeyInfo rsaEncryptionAlg (rsaPrivateKey 15 3 3 1 15 0 0 0))).Panics := by decide +kernel

/-! ### C39 -/

/-- C39: the algorithm check accepts rsaEncryption with NULL parameters and id-RSASSA-PSS without parameters and nothing
else, and never panics. -/
theorem C39_algorithm_identifiers (a : der.AlgorithmId) :
    (verifyAlgorithmId a = .ok () ↔
      (a.oid = oidOctets 1 2 [840, 113549, 1, 1, 1] ∧ a.parameters = some (0x05, [])) ∨
      (a.oid = oidOctets 1 2 [840, 113549, 1, 1, 10] ∧ a.parameters = none)) ∧
    (verifyAlgorithmId a = .ok () ∨ verifyAlgorithmId a = .err .pkcs8) := by
  refine ⟨?_, verifyAlgorithmId_cases a⟩
  rw [verifyAlgorithmId_ok, ← rsaEncryptionOid_eq, ← rsassaPssOid_eq]
  obtain ⟨o, p⟩ := a
  constructor
  · rintro (h | h)
    · injection h with h1 h2; exact Or.inl ⟨h1, h2⟩
    · injection h with h1 h2; exact Or.inr ⟨h1, h2⟩
  · rintro (⟨h1, h2⟩ | ⟨h1, h2⟩)
    · left; simp only at h1 h2; rw [h1, h2]; rfl
    · right; simp only at h1 h2; rw [h1, h2]

/-- C39: every key decoder refuses what `verify_algorithm_id` refuses; PKCS#1 v1.5 keys further require rsaEncryption, and
under it decode like the plain key; PSS keys take both identifiers and decode like the plain key. -/
theorem C39_key_decoders {D : HashFn} (oid : Bytes) (i : der.PrivateKeyInfo) (s : der.SubjectPublicKeyInfo) :
    (verifyAlgorithmId i.algorithm ≠ .ok () → PrivateKey.tryFromInfo i = .err .pkcs8 ∧
      pkcs1v15.SigningKey.tryFromInfo (D := D) oid i = .err .pkcs8 ∧
      pss.SigningKey.tryFromInfo (D := D) i = .err .pkcs8 ∧ pss.BlindedSigningKey.tryFromInfo (D := D) i = .err .pkcs8) ∧
    (verifyAlgorithmId s.algorithm ≠ .ok () → PublicKey.tryFromSpki s = .err .pkcs8 ∧
      pkcs1v15.VerifyingKey.tryFromSpki (D := D) oid s = .err .pkcs8 ∧
      pss.VerifyingKey.tryFromSpki (D := D) s = .err .pkcs8) ∧
    (i.algorithm.oid ≠ oidOctets 1 2 [840, 113549, 1, 1, 1] →
      pkcs1v15.SigningKey.tryFromInfo (D := D) oid i = .err .pkcs8) ∧
    (s.algorithm.oid ≠ oidOctets 1 2 [840, 113549, 1, 1, 1] →
      pkcs1v15.VerifyingKey.tryFromSpki (D := D) oid s = .err .pkcs8) ∧
    (∀ k, PrivateKey.tryFromInfo i = .ok k →
      pss.SigningKey.tryFromInfo (D := D) i = .ok ⟨k, D.outLen⟩ ∧
      pss.BlindedSigningKey.tryFromInfo (D := D) i = .ok ⟨k, D.outLen⟩ ∧
      (i.algorithm.oid = oidOctets 1 2 [840, 113549, 1, 1, 1] →
        pkcs1v15.SigningKey.tryFromInfo (D := D) oid i = pkcs1v15.SigningKey.new oid k)) ∧
    (∀ k, PublicKey.tryFromSpki s = .ok k →
      pss.VerifyingKey.tryFromSpki (D := D) s = .ok ⟨k, D.outLen⟩ ∧
      (s.algorithm.oid = oidOctets 1 2 [840, 113549, 1, 1, 1] →
        pkcs1v15.VerifyingKey.tryFromSpki (D := D) oid s = pkcs1v15.VerifyingKey.new oid k)) := by
  have bad : ∀ {a : der.AlgorithmId}, verifyAlgorithmId a ≠ .ok () → verifyAlgorithmId a = .err .pkcs8 := by
    intro a h
    rcases verifyAlgorithmId_cases a with h' | h'
    · exact absurd h' h
    · exact h'
  have t1 : ∀ {i : der.PrivateKeyInfo}, verifyAlgorithmId i.algorithm ≠ .ok () → PrivateKey.tryFromInfo i = .err .pkcs8 := by
    intro i h; unfold PrivateKey.tryFromInfo; rw [bad h]; rfl
  have t2 : ∀ {s : der.SubjectPublicKeyInfo}, verifyAlgorithmId s.algorithm ≠ .ok () →
      PublicKey.tryFromSpki s = .err .pkcs8 := by
    intro s h; unfold PublicKey.tryFromSpki; rw [bad h]; rfl
  have o1 : ∀ {a : der.AlgorithmId}, a.oid ≠ der.rsaEncryptionOid →
      assertAlgorithmOid a der.rsaEncryptionOid = .err .pkcs8 := by
    intro a h; unfold assertAlgorithmOid; rw [if_neg h]
  have o2 : ∀ {a : der.AlgorithmId}, a.oid = der.rsaEncryptionOid → assertAlgorithmOid a der.rsaEncryptionOid = .ok () := by
    intro a h; unfold assertAlgorithmOid; rw [if_pos h]
  rw [← rsaEncryptionOid_eq]
  refine ⟨fun h => ⟨t1 h, ?_, ?_, ?_⟩, fun h => ⟨t2 h, ?_, ?_⟩, fun h => ?_, fun h => ?_, fun k hk => ⟨?_, ?_, fun ho => ?_⟩,
    fun k hk => ⟨?_, fun ho => ?_⟩⟩
  · unfold pkcs1v15.SigningKey.tryFromInfo
    by_cases ho : i.algorithm.oid = der.rsaEncryptionOid
    · rw [o2 ho, Res.ok_bind, t1 h]; rfl
    · rw [o1 ho]; rfl
  · unfold pss.SigningKey.tryFromInfo; rw [bad h]; rfl
  · unfold pss.BlindedSigningKey.tryFromInfo; rw [t1 h]; rfl
  · unfold pkcs1v15.VerifyingKey.tryFromSpki
    by_cases ho : s.algorithm.oid = der.rsaEncryptionOid
    · rw [o2 ho, Res.ok_bind, t2 h]; rfl
    · rw [o1 ho]; rfl
  · unfold pss.VerifyingKey.tryFromSpki
    split
    · rw [t2 h]; rfl
    · rfl
  · unfold pkcs1v15.SigningKey.tryFromInfo; rw [o1 h]; rfl
  · unfold pkcs1v15.VerifyingKey.tryFromSpki; rw [o1 h]; rfl
  · unfold pss.SigningKey.tryFromInfo
    have hv : verifyAlgorithmId i.algorithm = .ok () := by
      by_contra h; rw [t1 h] at hk; cases hk
    rw [hv, Res.ok_bind, hk]; rfl
  · unfold pss.BlindedSigningKey.tryFromInfo; rw [hk]; rfl
  · unfold pkcs1v15.SigningKey.tryFromInfo; rw [o2 ho, Res.ok_bind, hk]; rfl
  · unfold pss.VerifyingKey.tryFromSpki
    have hv : verifyAlgorithmId s.algorithm = .ok () := by
      by_contra h; rw [t2 h] at hk; cases hk
    rw [if_pos, hk]
    · rfl
    · rcases (verifyAlgorithmId_ok _).mp hv with h | h
      · rw [h]; exact Or.inr rfl
      · rw [h]; exact Or.inl rfl
  · unfold pkcs1v15.VerifyingKey.tryFromSpki; rw [o2 ho, Res.ok_bind, hk]; rfl

/-- rsaEncryption without parameters, id-RSASSA-PSS with NULL and another identifier are all refused. -/
example : verifyAlgorithmId ⟨oidOctets 1 2 [840, 113549, 1, 1, 1], none⟩ = .err .pkcs8 ∧
    verifyAlgorithmId ⟨oidOctets 1 2 [840, 113549, 1, 1, 10], some (0x05, [])⟩ = .err .pkcs8 ∧
    verifyAlgorithmId ⟨oidOctets 1 2 [840, 113549, 1, 1, 7], some (0x05, [])⟩ = .err .pkcs8 ∧
    verifyAlgorithmId ⟨oidOctets 1 2 [840, 113549, 1, 1, 10], none⟩ = .ok () := by decide +kernel

example := C55_private_encoding_exact Ex.key (wrap 2 (2 ^ 89 - 1)) (wrap 2 (2 ^ 127 - 1)) (by decide +kernel) rfl (by decide)
  (by decide) (by decide) (by decide +kernel)

end RSA
