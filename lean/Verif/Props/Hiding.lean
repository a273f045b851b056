import Verif.Props.Binding
import Verif.Props.Oaep
import Verif.Props.Raw
import Mathlib.Data.Nat.Totient

/-
C68: ciphertexts determine the randomness they were made with. C69: blinding hides the ciphertext.
-/
namespace RSA
open BoxedUint

/-! ### C68 -/

theorem emeOaep_inj_msg {p p' : Bytes} {g : Bytes → Nat → Bytes} {hLen k : Nat} {s s' m m' : Bytes}
    (hg : ∀ z l, (g z l).length = l) (hp : p.length = hLen) (hp' : p'.length = hLen) (hs : s.length = hLen)
    (hs' : s'.length = hLen) (hm : m.length + 2 * hLen + 2 ≤ k) (hm' : m'.length + 2 * hLen + 2 ≤ k)
    (h : Spec.emeOaep p g hLen k s m = Spec.emeOaep p' g hLen k s' m') : p = p' ∧ s = s' ∧ m = m' := by
  obtain ⟨rfl, rfl⟩ := emeOaep_inj hg hp hp' hs hs' hm hm' h
  refine ⟨rfl, rfl, ?_⟩
  unfold Spec.emeOaep at h
  simp only at h
  set db := p ++ List.replicate (k - m.length - 2 * hLen - 2) 0x00 ++ [0x01] ++ m with hdb
  set db' := p ++ List.replicate (k - m'.length - 2 * hLen - 2) 0x00 ++ [0x01] ++ m' with hdb'
  have hl : db.length = k - hLen - 1 := by rw [hdb]; simp; omega
  have hl' : db'.length = k - hLen - 1 := by rw [hdb']; simp; omega
  rw [List.append_assoc, List.append_assoc] at h
  have h1 := List.append_cancel_left h
  obtain ⟨-, e2⟩ := List.append_inj h1 (by simp [hg])
  have ed : db = db' := by
    have := congrArg (fun x => Spec.xorBytes x (g s (k - hLen - 1))) e2
    rwa [xorBytes_cancel _ _ (by rw [hg]; omega), xorBytes_cancel _ _ (by rw [hg]; omega)] at this
  rw [hdb, hdb', List.append_assoc, List.append_assoc, List.append_assoc, List.append_assoc] at ed
  have := List.append_cancel_left ed
  rw [List.singleton_append, List.singleton_append] at this
  exact (run_inj (by decide) this).2

/-- Encoded blocks starting with a zero octet are below `n`, so the public operation is injective on them. -/
theorem block_inj {k : PrivateKey} (hk : Spec.WellFormed k) {a b : Bytes} (la : a.length = k.pub.size)
    (lb : b.length = k.pub.size) (ha : a.head? = some 0) (hb : b.head? = some 0)
    (h : beBytes k.pub.size (beVal a ^ k.pub.e.val % k.pub.n.val) =
      beBytes k.pub.size (beVal b ^ k.pub.e.val % k.pub.n.val)) : a = b := by
  have hn := coherent_pos hk.coherent
  have h3 := congrArg beVal h
  rw [beVal_beBytes, beVal_beBytes, Nat.mod_eq_of_lt (mod_lt_pow_size _ hn _),
    Nat.mod_eq_of_lt (mod_lt_pow_size _ hn _)] at h3
  have hv := wf_inj hk (block_lt k.pub hn la ha) (block_lt k.pub hn lb hb) h3
  exact beVal_inj (la.trans lb.symm) hv

/-- C68, OAEP: two encryptions, by any two generators, that give the same ciphertext under a well-formed key used the same
seed, message and label hash. So different seeds give different ciphertexts. -/
theorem C68_oaep {σ τ : Type} (R : RngImpl σ) (s s' : σ) (R' : RngImpl τ) (t t' : τ) {k : PrivateKey}
    (hk : Spec.WellFormed k) (D MGD : HashFn) (hpos : 0 < MGD.outLen) (label label' : Option Bytes)
    (msg msg' ct : Bytes)
    (h : oaep.encrypt R s k.pub msg (DigestState.new D) (DigestState.new MGD) label = .ok (ct, s'))
    (h' : oaep.encrypt R' t k.pub msg' (DigestState.new D) (DigestState.new MGD) label' = .ok (ct, t')) :
    (R.fill s D.outLen).1 = (R'.fill t D.outLen).1 ∧ msg = msg' ∧
      D.hash (label.getD []) = D.hash (label'.getD []) := by
  have hc : checkPublic k.pub = .ok () := by
    unfold oaep.encrypt at h
    rw [Res.bind_eq_ok] at h
    exact h.choose_spec.1
  have hlab : ∀ {υ : Type} (Q : RngImpl υ) (u u' : υ) (l : Option Bytes) (m : Bytes),
      oaep.encrypt Q u k.pub m (DigestState.new D) (DigestState.new MGD) l = .ok (ct, u') →
      ∃ seed : Bytes, (Q.fill u D.outLen).1 = some seed ∧ m.length + 2 * D.outLen + 2 ≤ k.pub.size ∧
        ct = beBytes k.pub.size (beVal (Spec.emeOaep (D.hash (l.getD [])) MGD.mgf D.outLen k.pub.size seed m)
          ^ k.pub.e.val % k.pub.n.val) := by
    intro υ Q u u' l m hq
    by_cases hl : (l.getD []).length < maxLabelLen
    · rw [oaep.encrypt_eq Q u k.pub hk.coherent hc m D MGD hpos l hl] at hq
      split at hq
      · cases hq
      · rw [Res.bind_eq_ok] at hq
        obtain ⟨⟨seed, u1⟩, h1, h2⟩ := hq
        obtain ⟨e, -⟩ := Prod.mk.inj (Res.ok.inj h2)
        refine ⟨seed, ?_, by omega, e.symm⟩
        unfold RngImpl.tryFill at h1
        rcases hf : Q.fill u D.outLen with ⟨_ | b, u2⟩
        · rw [hf] at h1; cases h1
        · rw [hf] at h1
          rw [(Prod.mk.inj (Res.ok.inj h1)).1]
    · have := C17_oaep_label_limit Q u k.pub hc D MGD l (by unfold maxLabelLen at hl; omega) m
      rw [this] at hq; cases hq
  obtain ⟨e, f1, l1, c1⟩ := hlab R s s' label msg h
  obtain ⟨e', f2, l2, c2⟩ := hlab R' t t' label' msg' h'
  have le := R.fill_len _ _ _ f1
  have le' := R'.fill_len _ _ _ f2
  have hem := block_inj hk
    (emeOaep_length _ _ _ _ _ _ (D.hash_len _) le (MGD.mgf_length hpos) (by omega))
    (emeOaep_length _ _ _ _ _ _ (D.hash_len _) le' (MGD.mgf_length hpos) (by omega))
    (oaep.emeOaep_head _ _ _ _ _ _) (oaep.emeOaep_head _ _ _ _ _ _) (c1.symm.trans c2)
  obtain ⟨a, rfl, c⟩ := emeOaep_inj_msg (MGD.mgf_length hpos) (D.hash_len _) (D.hash_len _) le le' l1 l2 hem
  exact ⟨f1.trans f2.symm, c, a⟩

theorem nonzero_prefix_inj : ∀ {a b s t : Bytes}, (∀ x ∈ a, x ≠ 0) → (∀ x ∈ b, x ≠ 0) → a ++ 0 :: s = b ++ 0 :: t →
    a = b ∧ s = t
  | [], [], s, t, _, _, h => ⟨rfl, (List.cons.inj h).2⟩
  | [], y :: b, s, t, _, hb, h => absurd (List.cons.inj h).1.symm (hb y (by simp))
  | x :: a, [], s, t, ha, _, h => absurd (List.cons.inj h).1 (ha x (by simp))
  | x :: a, y :: b, s, t, ha, hb, h => by
    obtain ⟨h1, h2⟩ := nonzero_prefix_inj (fun z hz => ha z (by simp [hz])) (fun z hz => hb z (by simp [hz]))
      (List.cons.inj h).2
    exact ⟨by rw [(List.cons.inj h).1, h1], h2⟩

theorem fixZeros_keeps {υ : Type} (Q : RngImpl υ) (f : Nat) : ∀ (l : Bytes) (u u' : υ) (x : Bytes),
    fixZeros Q f l u = .ok (x, u') → ∀ (i : Nat) (b : UInt8), l[i]? = some b → b ≠ 0 → x[i]? = some b
  | [], _, _, _, _, i, b, hb, _ => by simp at hb
  | y :: ys, u, u', x, h, i, b, hb, h0 => by
    have step : ∀ (y' : UInt8) (u1 : υ), (fixZeros Q f ys u1 >>= fun z => (Res.ok (y' :: z.1, z.2) : Res (Bytes × υ))) =
        .ok (x, u') → (y ≠ 0 → y' = y) → x[i]? = some b := by
      intro y' u1 h hy
      rw [Res.bind_eq_ok] at h
      obtain ⟨⟨ys', u2⟩, h3, h4⟩ := h
      obtain ⟨rfl, -⟩ := Prod.mk.inj (Res.ok.inj h4)
      cases i with
      | zero =>
        simp only [List.getElem?_cons_zero, Option.some.injEq] at hb ⊢
        subst hb
        exact hy h0
      | succ j =>
        simp only [List.getElem?_cons_succ] at hb ⊢
        exact fixZeros_keeps Q f ys _ _ _ h3 j b hb h0
    rw [fixZeros] at h
    by_cases hy : y = 0
    · simp only [hy, if_true] at h
      rw [Res.bind_eq_ok] at h
      obtain ⟨⟨y', u1⟩, -, h2⟩ := h
      exact step y' u1 h2 (fun h => absurd hy h)
    · simp only [hy, if_false] at h
      exact step y u h (fun _ => rfl)

/-- C68, PKCS#1 v1.5: two encryptions that give the same ciphertext under a well-formed key have the same message, and the
octets they first drew for the padding agree wherever both are non-zero (a zero octet is drawn again). So encryptions with
different non-zero padding octets give different ciphertexts. -/
theorem C68_pkcs1v15 {σ τ : Type} (R : RngImpl σ) (fuel : Nat) (s s' : σ) (R' : RngImpl τ) (fuel' : Nat) (t t' : τ)
    {k : PrivateKey} (hk : Spec.WellFormed k) (msg msg' ct : Bytes)
    (h : pkcs1v15.encrypt R fuel s k.pub msg = .ok (ct, s'))
    (h' : pkcs1v15.encrypt R' fuel' t k.pub msg' = .ok (ct, t')) :
    msg = msg' ∧ ∃ ps ps' : Bytes, (R.fill s (Spec.octetLen k.pub.n.val - msg.length - 3)).1 = some ps ∧
      (R'.fill t (Spec.octetLen k.pub.n.val - msg.length - 3)).1 = some ps' ∧
      ∀ (i : Nat) (b b' : UInt8), ps[i]? = some b → ps'[i]? = some b' → b ≠ 0 → b' ≠ 0 → b = b' := by
  have hc : checkPublic k.pub = .ok () := by
    unfold pkcs1v15.encrypt at h
    rw [Res.bind_eq_ok] at h
    exact h.choose_spec.1
  have hrun : ∀ {υ : Type} (Q : RngImpl υ) (f : Nat) (u u' : υ) (m : Bytes),
      pkcs1v15.encrypt Q f u k.pub m = .ok (ct, u') →
      m.length + 11 ≤ k.pub.size ∧ ∃ d p : Bytes, (Q.fill u (k.pub.size - m.length - 3)).1 = some d ∧
        (∀ (i : Nat) (b : UInt8), d[i]? = some b → b ≠ 0 → p[i]? = some b) ∧ p.length = k.pub.size - m.length - 3 ∧ (∀ b ∈ p, b ≠ 0) ∧
        ct = beBytes k.pub.size (beVal ([0x00, 0x02] ++ p ++ [0x00] ++ m) ^ k.pub.e.val % k.pub.n.val) := by
    intro υ Q f u u' m hq
    rw [pkcs1v15.encrypt_eq Q f u k.pub hk.coherent hc m] at hq
    split at hq
    · cases hq
    · next hl =>
      refine ⟨by omega, ?_⟩
      rw [Res.bind_eq_ok] at hq
      obtain ⟨⟨p, u1⟩, h1, h2⟩ := hq
      have h1' := h1
      unfold nonZeroRandomBytes RngImpl.tryFill at h1'
      rcases hf : Q.fill u (k.pub.size - m.length - 3) with ⟨_ | d, u2⟩
      · rw [hf] at h1'; cases h1'
      · rw [hf, Res.ok_bind] at h1'
        have hk := fixZeros_keeps Q f d u2 u1 p h1'
        obtain ⟨hlen, hnz⟩ : p.length = k.pub.size - m.length - 3 ∧ ∀ b ∈ p, b ≠ 0 := by
          rcases nonZeroRandomBytes_cases Q f u (k.pub.size - m.length - 3) with ⟨p', s2, h3, a, b⟩ | h3 | h3
          · rw [h1] at h3
            obtain ⟨rfl, -⟩ := Prod.mk.inj (Res.ok.inj h3)
            exact ⟨a, b⟩
          · rw [h1] at h3; cases h3
          · rw [h1] at h3; cases h3
        exact ⟨d, p, rfl, hk, hlen, hnz, (Prod.mk.inj (Res.ok.inj h2)).1.symm⟩
  obtain ⟨l1, d1, p1, f1, k1, n1, z1, c1⟩ := hrun R fuel s s' msg h
  obtain ⟨l2, d2, p2, f2, k2, n2, z2, c2⟩ := hrun R' fuel' t t' msg' h'
  have hem := block_inj hk (by simp; omega) (by simp; omega) rfl rfl (c1.symm.trans c2)
  simp only [List.append_assoc, List.cons_append, List.nil_append, List.cons.injEq, true_and] at hem
  obtain ⟨rfl, rfl⟩ := nonzero_prefix_inj z1 z2 hem
  refine ⟨rfl, d1, d2, ?_, ?_, fun i b b' hb hb' h0 h0' => ?_⟩
  · rw [← size_eq_octetLen]; exact f1
  · rw [← size_eq_octetLen]; exact f2
  · exact Option.some.inj ((k1 i b hb h0).symm.trans (k2 i b' hb' h0'))

/-! ### C69 -/

/-- C69: what one draw does. A usable draw `r` (coprime to `n`; 0 stands for 1) ends the loop, and what is exponentiated is
`c r^e mod n`; any other draw is thrown away. -/
theorem C69_draw {σ : Type} (R : RngImpl σ) (fuel : Nat) (s : σ) (k : PublicKey) (hk : k.Coherent) (c : BoxedUint)
    (hc : c.nlimbs = k.n.nlimbs) (r : Nat) (hr : (R.randMod s k.n.val).1 = some r) :
    ((r = 0 ∨ r.Coprime k.n.val) → ∃ x ir, blind R (fuel + 1) s k c k.nParams = .ok ((x, ir), (R.randMod s k.n.val).2) ∧
      x.val = c.val * (if r = 0 then 1 else r) ^ k.e.val % k.n.val ∧
      (if r = 0 then 1 else r) * ir.val % k.n.val = 1 % k.n.val) ∧
    (¬ (r = 0 ∨ r.Coprime k.n.val) →
      blind R (fuel + 1) s k c k.nParams = blind R fuel (R.randMod s k.n.val).2 k c k.nParams) := by
  have hn := coherent_pos hk
  have hprec : c.prec = k.n.prec := by unfold prec; rw [hc]
  have hlt := R.randMod_lt s k.n.val r hr hn
  have hval := wrap_ite_val k.n hlt
  rw [blind_eq R _ s k hk c hprec, blind_eq R fuel _ k hk c hprec]
  simp only [blindLoop]
  rcases hR : R.randMod s k.n.val with ⟨o, s1⟩
  rw [hR] at hr
  simp only at hr
  subst hr
  simp only
  refine ⟨fun hu => ?_, fun hu => ?_⟩
  · have hcop : Nat.Coprime (if r = 0 then 1 else r) k.n.val := by
      split
      · exact Nat.coprime_one_left _
      · next h0 => exact hu.resolve_left h0
    obtain ⟨iv, hiv⟩ := natInvMod_isSome hn hcop
    obtain ⟨_, hivlt, _, hmul⟩ := natInvMod_some hiv
    have : invMod (if (wrap k.n.nlimbs r).isZero = true then oneWithPrecision k.n.prec else wrap k.n.nlimbs r) k.n
        = some (wrap k.n.nlimbs iv) := by
      unfold invMod; rw [hval, hiv]; rfl
    rw [this]
    refine ⟨_, _, rfl, ?_, ?_⟩
    · rw [wrap_mod_val k.n hn, hval, Nat.mul_mod_mod]
    · rw [wrap_lt_val hivlt]; exact hmul
  · have hnone : invMod (if (wrap k.n.nlimbs r).isZero = true then oneWithPrecision k.n.prec else wrap k.n.nlimbs r) k.n
        = none := by
      unfold invMod
      rw [hval, if_neg (fun h => hu (Or.inl h)), (natInvMod_none hn).mpr (fun h => hu (Or.inr h))]; rfl
    rw [hnone]

theorem wf_one_lt {k : PrivateKey} (hk : Spec.WellFormed k) : 1 < k.pub.n.val := by
  have hn := coherent_pos hk.coherent
  have h2 := hk.numbers.two
  rcases hp : k.primes.map BoxedUint.val with _ | ⟨p, ps⟩
  · rw [hp] at h2; simp at h2
  · have hpm : p ∈ k.primes.map BoxedUint.val := by rw [hp]; simp
    have hd : p ∣ k.pub.n.val := by rw [← hk.numbers.prod]; exact List.dvd_prod hpm
    exact lt_of_lt_of_le (hk.numbers.prime p hpm).one_lt (Nat.le_of_dvd hn hd)

/-- C69: for a ciphertext `c` and a value `t`, both coprime to `n`, exactly one draw `r` in `1 .. n-1` makes `t` the
blinded value (besides, the draw 0 gives `c` itself). So with uniform draws, given that the draw is usable and not 0, every
`t` is equally likely, whatever `c` is. -/
theorem C69_uniform {k : PrivateKey} (hk : Spec.WellFormed k) (c t : Nat) (hc : c.Coprime k.pub.n.val)
    (ht : t.Coprime k.pub.n.val) (htn : t < k.pub.n.val) :
    ∃! r : Nat, 0 < r ∧ r < k.pub.n.val ∧ r.Coprime k.pub.n.val ∧ c * r ^ k.pub.e.val % k.pub.n.val = t := by
  have hn := coherent_pos hk.coherent
  have hn1 : 1 < k.pub.n.val := wf_one_lt hk
  obtain ⟨ci, hci⟩ := natInvMod_isSome hn hc
  obtain ⟨_, -, _, hmul⟩ := natInvMod_some hci
  have hmul' : c * ci ≡ 1 [MOD k.pub.n.val] := hmul
  have hcic : ci.Coprime k.pub.n.val := by
    have : (c * ci).Coprime k.pub.n.val := by
      rw [Nat.Coprime, hmul'.gcd_eq]; exact Nat.gcd_one_left _
    exact this.coprime_mul_left
  refine ⟨(ci * t) ^ k.d.val % k.pub.n.val, ⟨?_, Nat.mod_lt _ hn, ?_, ?_⟩, ?_⟩
  · apply Nat.pos_of_ne_zero
    intro h0
    have h1 : ((ci * t) ^ k.d.val).Coprime k.pub.n.val := Nat.Coprime.pow_left _ (hcic.mul_left ht)
    have h2 : k.pub.n.val ∣ (ci * t) ^ k.d.val := Nat.dvd_of_mod_eq_zero h0
    have h3 := Nat.dvd_gcd h2 (dvd_refl _)
    rw [h1, Nat.dvd_one] at h3
    omega
  · have h1 : ((ci * t) ^ k.d.val).Coprime k.pub.n.val := Nat.Coprime.pow_left _ (hcic.mul_left ht)
    rw [Nat.Coprime, (Nat.mod_modEq _ _).gcd_eq]; exact h1
  · have h1 : ((ci * t) ^ k.d.val % k.pub.n.val) ^ k.pub.e.val ≡ ci * t [MOD k.pub.n.val] := by
      refine ((Nat.mod_modEq _ _).pow _).trans ?_
      rw [← pow_mul]; exact wf_rsa hk _
    have h2 := (Nat.ModEq.refl c).mul h1
    rw [← mul_assoc] at h2
    have h3 := h2.trans (hmul'.mul (Nat.ModEq.refl t))
    rw [one_mul] at h3
    exact Eq.trans h3 (Nat.mod_eq_of_lt htn)
  · rintro r ⟨-, hr, -, hrt⟩
    apply wf_inj hk hr (Nat.mod_lt _ hn)
    have h1 : ((ci * t) ^ k.d.val % k.pub.n.val) ^ k.pub.e.val ≡ ci * t [MOD k.pub.n.val] := by
      refine ((Nat.mod_modEq _ _).pow _).trans ?_
      rw [← pow_mul]; exact wf_rsa hk _
    have h2 : c * r ^ k.pub.e.val ≡ t [MOD k.pub.n.val] := by
      unfold Nat.ModEq; rw [hrt, Nat.mod_eq_of_lt htn]
    have h3 := (Nat.ModEq.refl ci).mul h2
    rw [← mul_assoc, mul_comm ci c] at h3
    have h4 := (hmul'.mul (Nat.ModEq.refl (r ^ k.pub.e.val))).symm.trans h3
    rw [one_mul] at h4
    exact h4.trans h1.symm

/-- C69: whatever the draw, the blinded value has the same greatest common divisor with `n` as the ciphertext; a
ciphertext that shares a factor with `n` is therefore not hidden. -/
theorem C69_gcd_kept {σ : Type} (R : RngImpl σ) (fuel : Nat) (s s' : σ) (k : PublicKey) (hk : k.Coherent) (c x ir : BoxedUint)
    (hc : c.nlimbs = k.n.nlimbs) (h : blind R fuel s k c k.nParams = .ok ((x, ir), s')) :
    Nat.gcd x.val k.n.val = Nat.gcd c.val k.n.val := by
  have hprec : c.prec = k.n.prec := by unfold prec; rw [hc]
  induction fuel generalizing s with
  | zero => rw [blind_eq R _ s k hk c hprec] at h; cases h
  | succ f ih =>
    rcases hr : (R.randMod s k.n.val).1 with _ | r
    · rw [blind_eq R _ s k hk c hprec] at h
      simp only [blindLoop] at h
      rcases hR : R.randMod s k.n.val with ⟨o, s1⟩
      rw [hR] at h hr
      simp only at hr
      subst hr
      cases h
    · obtain ⟨h1, h2⟩ := C69_draw R f s k hk c hc r hr
      by_cases hu : r = 0 ∨ r.Coprime k.n.val
      · obtain ⟨x', ir', e, hx, -⟩ := h1 hu
        rw [e] at h
        obtain ⟨h3, -⟩ := Prod.mk.inj (Res.ok.inj h)
        rw [← (Prod.mk.inj h3).1, hx, (Nat.mod_modEq _ _).gcd_eq]
        have hcop : Nat.Coprime (if r = 0 then 1 else r) k.n.val := by
          split
          · exact Nat.coprime_one_left _
          · next h0 => exact hu.resolve_left h0
        exact (Nat.Coprime.pow_left _ hcop).gcd_mul_right_cancel _
      · rw [h2 hu] at h
        exact ih _ h

/-! ### Examples -/

/-- The same message from two generator states: both encryptions succeed, with different ciphertexts (both schemes). -/
example : (match pkcs1v15.encrypt Ex.countingRng 3 5 Ex.key.pub [1, 2, 3], pkcs1v15.encrypt Ex.countingRng 3 6 Ex.key.pub [1, 2, 3],
      oaep.encrypt Ex.countingRng 5 Ex.key.pub (List.replicate 17 1) (DigestState.new Ex.hash4) (DigestState.new Ex.hash4) none,
      oaep.encrypt Ex.countingRng 6 Ex.key.pub (List.replicate 17 1) (DigestState.new Ex.hash4) (DigestState.new Ex.hash4) none with
    | .ok (a, _), .ok (b, _), .ok (c, _), .ok (d, _) => decide (a ≠ b ∧ c ≠ d)
    | _, _, _, _ => false) = true := by decide +kernel

/-- The first draw of the counting generator from state 7 is 7, which is usable; from state `p` it is `p`, which is not. -/
example : (Ex.countingRng.randMod 7 Ex.key.pub.n.val).1 = some 7 ∧ Nat.Coprime 7 Ex.key.pub.n.val ∧
    (Ex.countingRng.randMod (2 ^ 89 - 1) Ex.key.pub.n.val).1 = some (2 ^ 89 - 1) ∧
    ¬ ((2 ^ 89 - 1 : Nat) = 0 ∨ Nat.Coprime (2 ^ 89 - 1) Ex.key.pub.n.val) := by decide +kernel

example : (wrap 4 123456789).nlimbs = Ex.key.pub.n.nlimbs ∧ Nat.Coprime 123456789 Ex.key.pub.n.val ∧
    Nat.Coprime 987654321 Ex.key.pub.n.val ∧ 987654321 < Ex.key.pub.n.val := by decide +kernel

/-- A ciphertext that is a multiple of `p` is blinded to another multiple of `p`. -/
example : (match blind Ex.countingRng 5 7 Ex.key.pub (wrap 4 (3 * (2 ^ 89 - 1))) Ex.key.pub.nParams with
    | .ok ((x, _), _) => decide (Nat.gcd x.val Ex.key.pub.n.val = 2 ^ 89 - 1 ∧ x.val ≠ 3 * (2 ^ 89 - 1))
    | _ => false) = true := by decide +kernel

/-- A draw that is used and a draw that is thrown away. -/
example := (C69_draw Ex.countingRng 3 7 Ex.key.pub Ex.key_wf.coherent (wrap 4 123456789) rfl 7 (by decide +kernel)).1
  (Or.inr (by decide +kernel))
example := (C69_draw Ex.countingRng 3 (2 ^ 89 - 1) Ex.key.pub Ex.key_wf.coherent (wrap 4 123456789) rfl (2 ^ 89 - 1)
  (by decide +kernel)).2 (by decide +kernel)
example := C69_uniform Ex.key_wf 123456789 987654321 (by decide +kernel) (by decide +kernel) (by decide +kernel)
/-- One ciphertext reached from generators in different states: the message was the same. -/
example := C68_pkcs1v15 Ex.countingRng 5 7 8 Ex.countingRng 2 7 8 Ex.key_wf [1, 2, 3] [1, 2, 3]
  [224, 56, 52, 73, 141, 57, 228, 72, 27, 241, 1, 6, 215, 119, 211, 126, 208, 90, 227, 45, 236, 238, 143, 230, 243, 188, 176]
  (by decide +kernel) (by decide +kernel)
example := C68_oaep Ex.countingRng 5 6 Ex.countingRng 5 6 Ex.key_wf Ex.hash4 Ex.tailHash (by decide) (some [8]) (some [8])
  [1, 2, 3] [1, 2, 3]
  [173, 218, 110, 164, 22, 64, 213, 100, 53, 13, 181, 116, 133, 130, 202, 255, 136, 22, 165, 79, 223, 182, 201, 154, 65, 63,
    111] (by decide +kernel) (by decide +kernel)

end RSA
