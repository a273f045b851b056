import Verif.Proof.Release
import Verif.Props.Panics

/- C102: a build without overflow checks and debug assertions. -/
namespace RSA
open BoxedUint Spec

namespace rel

theorem Same.of_not_panics {α : Type} {r s : Res α} (h : SameUnlessStopped r s) (hr : ¬ r.Panics) : s = r := by
  rcases h with h | h | h
  · exact h.symm
  · subst h; exact absurd trivial hr
  · subst h; exact absurd trivial hr

theorem Same.of_returns {α : Type} {r s : Res α} (h : SameUnlessStopped r s) (hr : r.Returns) : s = r :=
  Same.of_not_panics h (by cases r <;> simp_all [Res.Returns, Res.Panics])

theorem Same.of_ok {α : Type} {r s : Res α} {a : α} (h : SameUnlessStopped r s) (hr : r = .ok a) : s = .ok a := by
  rw [← hr]; exact Same.of_returns h (by rw [hr]; trivial)

/-- With a salt length that overflows, the separator is looked for past the end. -/
theorem salt_overflow {db : Bytes} {emLen sLen hLen : Nat} (hdb : db.length + hLen + 1 = emLen) (h1 : 1 ≤ db.length)
    (he : emLen < 2 ^ 63) (hs : sLen < 2 ^ 64) (hov : 2 ^ 64 ≤ hLen + sLen + 2) :
    emsaPssVerifySalt db emLen sLen hLen = .panic .bounds := by
  unfold emsaPssVerifySalt subU
  simp only [Res.ok_bind]
  rw [if_pos (show hLen ≤ emLen by omega), if_neg (show ¬ sLen ≤ emLen - hLen by omega),
    Nat.mod_eq_of_lt (show sLen - (emLen - hLen) < 2 ^ 64 by omega),
    Nat.mod_eq_of_lt (show 2 ^ 64 - (sLen - (emLen - hLen)) < 2 ^ 64 by omega),
    if_pos (show 2 ≤ 2 ^ 64 - (sLen - (emLen - hLen)) by omega)]
  unfold splitAt
  by_cases hc : 2 ^ 64 - (sLen - (emLen - hLen)) - 2 ≤ db.length
  · rw [if_pos hc, Res.ok_bind]
    have : db.drop (2 ^ 64 - (sLen - (emLen - hLen)) - 2) = [] := List.drop_eq_nil_of_le (by omega)
    simp only [this]
    rfl
  · rw [if_neg hc]; rfl

/-- What the first checks do with a salt length that overflows. -/
theorem pre_overflow {mHash em : Bytes} {emBits sLen hLen : Nat} (he : em.length < 2 ^ 63) (hh : hLen < 2 ^ 63)
    (hs : sLen < 2 ^ 64) (hov : 2 ^ 64 ≤ hLen + sLen + 2) :
    emsaPssVerifyPre mHash em emBits sLen hLen = .err .verification ∨
    emsaPssVerifyPre mHash em emBits sLen hLen = .panic .bounds ∨
    ∃ db h, emsaPssVerifyPre mHash em emBits sLen hLen = .ok (db, h) ∧ db.length + hLen + 1 = em.length ∧
      1 ≤ db.length := by
  unfold emsaPssVerifyPre subU addU
  simp only [Res.ok_bind]
  by_cases h1 : mHash.length ≠ hLen
  · rw [if_pos h1]; exact Or.inl rfl
  rw [if_neg h1]
  by_cases h2 : em.length < ((hLen + sLen) % 2 ^ 64 + 2) % 2 ^ 64
  · rw [if_pos h2]; exact Or.inl rfl
  rw [if_neg h2]
  unfold idx
  cases hl : em[if 1 ≤ em.length then em.length - 1 else (2 ^ 64 - (1 - em.length) % 2 ^ 64) % 2 ^ 64]? with
  | none => exact Or.inr (Or.inl rfl)
  | some last =>
    simp only [Res.ok_bind]
    by_cases h3 : last ≠ 0xBC
    · rw [if_pos h3]; exact Or.inl rfl
    rw [if_neg h3]
    have hne : 1 ≤ em.length := by
      by_contra hc
      have : em = [] := List.eq_nil_of_length_eq_zero (by omega)
      subst this
      simp at hl
    by_cases h4 : hLen + 2 ≤ em.length
    · rw [if_pos (show hLen ≤ em.length by omega), if_pos (show 1 ≤ em.length - hLen by omega)]
      unfold splitAt slice
      rw [if_pos (show em.length - hLen - 1 ≤ em.length by omega), Res.ok_bind]
      dsimp only
      rw [if_pos ⟨Nat.zero_le _, by rw [List.length_drop]; omega⟩, Res.ok_bind]
      have hdl : (em.take (em.length - hLen - 1)).length = em.length - hLen - 1 := by
        rw [List.length_take]; omega
      cases h5 : (em.take (em.length - hLen - 1))[0]? with
      | none => exact Or.inr (Or.inl rfl)
      | some d0 =>
        simp only [Res.ok_bind]
        generalize checkedShlFF _ = m
        by_cases h6 : d0 &&& m ≠ 0
        · rw [if_pos h6]; exact Or.inl rfl
        · rw [if_neg h6]; exact Or.inr (Or.inr ⟨_, _, rfl, by rw [hdl]; omega, by rw [hdl]; omega⟩)
    · refine Or.inr (Or.inl ?_)
      by_cases h5 : em.length = hLen + 1
      · rw [if_pos (show hLen ≤ em.length by omega), if_pos (show 1 ≤ em.length - hLen by omega)]
        unfold splitAt slice
        rw [if_pos (show em.length - hLen - 1 ≤ em.length by omega), Res.ok_bind]
        dsimp only
        rw [if_pos ⟨Nat.zero_le _, by rw [List.length_drop]; omega⟩, Res.ok_bind]
        have : em.take (em.length - hLen - 1) = [] := by rw [show em.length - hLen - 1 = 0 by omega]; rfl
        rw [this]
        rfl
      · have hb : ∀ c, em.length < c → splitAt em c = .panic .bounds := by
          intro c hc; unfold splitAt; rw [if_neg (by omega)]
        rw [hb _ (by split <;> split <;> omega)]
        rfl

/-- A block that passes the first checks with some salt length passes them with one that overflows. -/
theorem pre_ok {mHash em db h : Bytes} {emBits s₀ sLen hLen : Nat} (he : em.length < 2 ^ 63) (hs : sLen < 2 ^ 64)
    (hov : 2 ^ 64 ≤ hLen + sLen + 2) (hok : RSA.emsaPssVerifyPre mHash em emBits s₀ hLen = .ok (db, h)) :
    emsaPssVerifyPre mHash em emBits sLen hLen = .ok (db, h) := by
  have hr := Same.of_ok (emsaPssVerifyPre_same _ _ _ _ _) hok
  unfold RSA.emsaPssVerifyPre at hok
  split at hok
  · cases hok
  next h1 =>
  obtain ⟨x, hx, hok⟩ := Res.bind_eq_ok.mp hok
  obtain ⟨y, hy, hok⟩ := Res.bind_eq_ok.mp hok
  split at hok
  · cases hok
  next h2 =>
  have hx' : x = hLen + s₀ ∧ hLen + s₀ < 2 ^ 64 := by
    unfold RSA.addU at hx
    split at hx
    · next h => exact ⟨(Res.ok.inj hx).symm, h⟩
    · cases hx
  have hy' : y = x + 2 ∧ x + 2 < 2 ^ 64 := by
    unfold RSA.addU at hy
    split at hy
    · next h => exact ⟨(Res.ok.inj hy).symm, h⟩
    · cases hy
  unfold emsaPssVerifyPre addU at hr ⊢
  simp only [Res.ok_bind] at hr ⊢
  rw [if_neg h1, if_neg (by omega)] at hr ⊢
  exact hr

/-- The whole check with a salt length that overflows: whatever passes the first checks panics. -/
theorem emsa_overflow {mHash em : Bytes} {sLen keyBits : Nat} {hash : DigestState} (hk : 1 ≤ keyBits)
    (hk' : keyBits < 2 ^ 32) (hem : em.length = divCeil keyBits 8) (hpos : 0 < hash.fn.outLen)
    (hh : hash.fn.outLen < 2 ^ 63) (hs : sLen < 2 ^ 64) (hov : 2 ^ 64 ≤ hash.fn.outLen + sLen + 2) :
    emsaPssVerify mHash em sLen hash keyBits =
      (emsaPssVerifyPre mHash (em.drop (divCeil keyBits 8 - divCeil (keyBits - 1) 8)) (keyBits - 1) sLen
        hash.fn.outLen >>= fun _ => .panic .bounds) := by
  have hdc : ∀ n, divCeil n 8 = (n + 7) / 8 := fun _ => rfl
  have hsub : ∀ {a b : Nat}, b ≤ a → subU a b = .ok (a - b) := by
    intro a b h; unfold subU; rw [if_pos h]
  unfold emsaPssVerify
  rw [hsub hk, Res.ok_bind]
  dsimp only [DigestState.outputSize]
  rw [hsub (by rw [hdc, hdc]; omega), Res.ok_bind, sliceFrom_of_le (by rw [hem]; omega), Res.ok_bind]
  have hl : (em.drop (divCeil keyBits 8 - divCeil (keyBits - 1) 8)).length = divCeil (keyBits - 1) 8 := by
    rw [List.length_drop, hem, hdc, hdc]; omega
  have hl63 : divCeil (keyBits - 1) 8 < 2 ^ 32 := by rw [hdc]; omega
  generalize em.drop (divCeil keyBits 8 - divCeil (keyBits - 1) 8) = em' at hl ⊢
  rcases pre_overflow (mHash := mHash) (em := em') (emBits := keyBits - 1) (hLen := hash.fn.outLen)
    (by rw [hl]; omega) hh hs hov with h | h | ⟨db, h', h, hdb, h1⟩
  · rw [h]; rfl
  · rw [h]; rfl
  · rw [h, Res.ok_bind, Res.ok_bind]
    dsimp only
    obtain ⟨x, dg, hm, hxl, _⟩ := mgf1Xor_any db hash h' hpos (by omega)
    rw [hm, Res.ok_bind]
    dsimp only
    rw [hsub (by rw [hdc]; omega), Res.ok_bind]
    unfold shrFF
    rw [Res.ok_bind]
    cases x with
    | nil => simp at hxl; omega
    | cons d0 xs =>
      have e1 : ∀ b : UInt8, setIdx (d0 :: xs) 0 b = .ok (b :: xs) := fun b => by simp [setIdx]
      rw [show idx (d0 :: xs) 0 = .ok d0 from rfl, Res.ok_bind, e1, Res.ok_bind,
        salt_overflow (db := _ :: xs) (by rw [← hl, ← hdb, ← hxl]; rfl) (by simp) (by omega) hs hov]
      rfl

theorem padded {k : PublicKey} (hk : k.Coherent) (v : Nat) :
    RSA.uintToBePad (wrap k.n.nlimbs (v % k.n.val)) k.size = .ok (beBytes k.size (wrap k.n.nlimbs (v % k.n.val)).val) :=
  (uintToBePad_eq _ k.size).trans (if_pos (by
    rw [wrap_mod_val k.n (coherent_pos hk)]
    exact lt_trans (Nat.mod_lt _ (coherent_pos hk)) (lt_pow_size k)))

theorem bind_congr {α β : Type} {r : Res α} {f g : α → Res β} (h : ∀ a, r = .ok a → f a = g a) :
    (r >>= f) = (r >>= g) := by
  cases r with
  | ok a => exact h a rfl
  | err e => rfl
  | panic k => rfl
  | loop => rfl

theorem odd_eq {x : BoxedUint} {o : OddUint} (h : PrivateKey.oddOrInvalid x = .ok o) :
    o.toBoxedUint = x ∧ x.val % 2 = 1 := by
  unfold PrivateKey.oddOrInvalid OddUint.new at h
  by_cases hx : x.val % 2 = 1
  · rw [dif_pos hx] at h; exact ⟨(congrArg OddUint.toBoxedUint (Res.ok.inj h)).symm, hx⟩
  · rw [dif_neg hx] at h; cases h

theorem nonZero_eq {x y : BoxedUint} (h : PrivateKey.nonZeroOrInvalid x = .ok y) : y = x := by
  unfold PrivateKey.nonZeroOrInvalid BoxedUint.nonZero at h
  split at h
  · next h' =>
    split at h'
    · cases h'
    · rw [← Res.ok.inj h, Option.some.inj h']
  · cases h

/-- The assertions at the end of `precompute` hold for all numbers. -/
theorem precomputeValues_eq (d : BoxedUint) (primes : List BoxedUint) :
    precomputeValues d primes = PrivateKey.precomputeValues d primes := by
  unfold precomputeValues PrivateKey.precomputeValues
  refine bind_congr fun a _ => bind_congr fun p hp => bind_congr fun b _ => bind_congr fun q hq =>
    bind_congr fun pO hpO => bind_congr fun qO hqO => bind_congr fun x hx => bind_congr fun y hy =>
    bind_congr fun qm hqm => ?_
  obtain ⟨hp1, hodd⟩ := odd_eq hpO
  obtain ⟨hq1, -⟩ := odd_eq hqO
  obtain rfl := nonZero_eq hx
  obtain rfl := nonZero_eq hy
  have wid : ∀ {z w : BoxedUint}, z.widen d.prec = .ok w → z.prec ≤ d.prec ∧ w = wrap (limbsFor d.prec) z.val := by
    intro z w h
    unfold BoxedUint.widen at h
    split at h
    · next hz => exact ⟨hz, (Res.ok.inj h).symm⟩
    · cases h
  obtain ⟨hap, hpw⟩ := wid hp
  obtain ⟨-, hqw⟩ := wid hq
  have hd : 1 ≤ d.nlimbs := by
    by_contra hc
    have h0 : d.prec = 0 := by show 64 * d.nlimbs = 0; omega
    have ha0 : a.nlimbs = 0 := by
      have : 64 * a.nlimbs ≤ d.prec := hap
      omega
    have hav : a.val = 0 := by
      by_contra hv
      have := nlimbs_pos_of_val_pos a (by omega)
      omega
    rw [hpw, hav] at hodd
    simp [wrap] at hodd
  have hlf : limbsFor d.prec = d.nlimbs := limbsFor_prec d hd
  have hpn : p.nlimbs = d.nlimbs := by rw [hpw, hlf]; rfl
  have hqn : q.nlimbs = d.nlimbs := by rw [hqw, hlf]; rfl
  have hqp : qm.params = ⟨pO⟩ := by
    unfold MontyForm.new at hqm
    split at hqm
    · rw [← Res.ok.inj hqm]
    · cases hqm
  cases hi : qm.invert with
  | none => rfl
  | some qi =>
    have hqi : qi.params = ⟨pO⟩ := by
      unfold MontyForm.invert at hi
      obtain ⟨r, -, hr⟩ := Option.map_eq_some_iff.mp hi
      rw [← hr]; exact hqp
    refine (if_neg ?_).symm
    rintro (h | h | h | h | h)
    · exact h (show 64 * p.nlimbs = 64 * d.nlimbs by rw [hpn])
    · exact h (show 64 * q.nlimbs = 64 * d.nlimbs by rw [hqn])
    · rw [hqi] at h
      exact h (show 64 * pO.toBoxedUint.nlimbs = 64 * d.nlimbs by rw [hp1, hpn])
    · exact h (show 64 * pO.toBoxedUint.nlimbs = 64 * d.nlimbs by rw [hp1, hpn])
    · exact h (show 64 * qO.toBoxedUint.nlimbs = 64 * d.nlimbs by rw [hq1, hqn])

theorem precompute_eq : precompute = PrivateKey.precompute := by
  funext k
  unfold precompute PrivateKey.precompute
  rw [precomputeValues_eq]

theorem fromComponents_eq : fromComponents = PrivateKey.fromComponents := by
  have h : tryPrecompute = PrivateKey.tryPrecompute := by
    funext k
    unfold tryPrecompute PrivateKey.tryPrecompute
    rw [precompute_eq]
    rfl
  funext n e d primes
  unfold fromComponents PrivateKey.fromComponents
  rw [h]
  rfl

theorem fromPkcs8Der_eq : fromPkcs8Der = PrivateKey.fromPkcs8Der := by
  have hb : ∀ n, n < der.maxLen → lenBitsChecked n = RSA.lenBitsChecked n := fun n h =>
    Same.of_returns (lenBitsChecked_same n) (by rw [lenBitsChecked_eq h]; trivial)
  funext b
  refine bind_congr fun i _ => ?_
  unfold tryFromInfo PrivateKey.tryFromInfo
  rw [fromComponents_eq]
  refine bind_congr fun _ _ => bind_congr fun k hk => ?_
  obtain ⟨h1, h2⟩ := decodeRsaPrivateKey_len hk
  rw [hb _ h1, hb _ h2]
  rfl

theorem fromPublicKeyDer_eq : fromPublicKeyDer = PublicKey.fromPublicKeyDer := by
  have hb : ∀ n, n < der.maxLen → lenBitsChecked n = RSA.lenBitsChecked n := fun n h =>
    Same.of_returns (lenBitsChecked_same n) (by rw [lenBitsChecked_eq h]; trivial)
  funext b
  refine bind_congr fun i _ => bind_congr fun _ _ => ?_
  by_cases hu : i.unusedBits ≠ 0
  · rw [if_pos hu, if_pos hu]
  · rw [if_neg hu, if_neg hu]
    refine bind_congr fun k hk => ?_
    obtain ⟨h1, h2⟩ := decodeRsaPublicKey_len hk
    rw [hb _ h1, hb _ h2]

end rel

/-! ### The two builds agree unless a check stops the one that has it -/

/-- C102: the PKCS#1 v1.5 functions. -/
theorem C102_pkcs1v15 {σ : Type} (R : RngImpl σ) (fuel : Nat) :
    (∀ s k msg, SameUnlessStopped (pkcs1v15.encrypt R fuel s k msg) (rel.pkcs1v15.encrypt R fuel s k msg)) ∧
    (∀ rng k ct, SameUnlessStopped (pkcs1v15.decrypt R fuel rng k ct) (rel.pkcs1v15.decrypt R fuel rng k ct)) ∧
    (∀ D oid, SameUnlessStopped (pkcs1v15.Pkcs1v15Sign.new D oid) (rel.pkcs1v15.schemeNew D oid)) ∧
    (∀ (S : pkcs1v15.Pkcs1v15Sign) rng k hashed,
      SameUnlessStopped (S.sign R fuel rng k hashed) (rel.pkcs1v15.schemeSign S R fuel rng k hashed)) ∧
    (∀ (S : pkcs1v15.Pkcs1v15Sign) k hashed sig,
      SameUnlessStopped (S.verify k hashed sig) (rel.pkcs1v15.schemeVerify S k hashed sig)) ∧
    (∀ k pfx hashed sig, SameUnlessStopped (pkcs1v15.verify k pfx hashed sig) (rel.pkcs1v15.verify k pfx hashed sig)) ∧
    (∀ b, SameUnlessStopped (pkcs1v15.Signature.tryFrom b) (rel.pkcs1v15.signatureTryFrom b)) := by
  refine ⟨rel.pkcs1v15.encrypt_same R fuel, rel.pkcs1v15.decrypt_same R fuel, ?_, ?_, ?_, rel.pkcs1v15.verify_same, ?_⟩
  · exact fun D oid => rel.Same.bind (rel.pkcs1v15GeneratePrefix_same _ _) fun _ => rel.Same.rfl' _
  · exact fun S rng k hashed => rel.Same.bind (rel.Same.rfl' _) fun _ => rel.pkcs1v15.sign_same _ _ _ _ _ _
  · exact fun S k hashed sig => rel.Same.bind (rel.Same.rfl' _) fun _ => rel.Same.bind (rel.lenBitsU32_same _) fun _ =>
      rel.Same.bind (rel.Same.rfl' _) fun _ => rel.pkcs1v15.verify_same _ _ _ _
  · exact fun b => rel.Same.bind (rel.lenBitsU32_same _) fun _ => rel.Same.rfl' _

/-- C102: the PSS functions. -/
theorem C102_pss {σ : Type} (R : RngImpl σ) (fuel : Nat) :
    (∀ (P : pss.Pss) rng k hashed,
      SameUnlessStopped (P.sign R fuel rng k hashed) (rel.pss.schemeSign P R fuel rng k hashed)) ∧
    (∀ D s blind k hashed saltLen, SameUnlessStopped (pss.signDigest R fuel D s blind k hashed saltLen)
      (rel.pss.signDigest R fuel D s blind k hashed saltLen)) ∧
    (∀ (P : pss.Pss) k hashed sig, SameUnlessStopped (P.verify k hashed sig) (rel.pss.schemeVerify P k hashed sig)) ∧
    (∀ D k hashed sig saltLen, SameUnlessStopped (pss.verifyDigest D k hashed sig saltLen)
      (rel.pss.verifyDigest D k hashed sig saltLen)) ∧
    (∀ b, SameUnlessStopped (pss.Signature.tryFrom b) (rel.pss.signatureTryFrom b)) := by
  refine ⟨?_, rel.pss.signDigest_same R fuel, ?_, rel.pss.verifyDigest_same, ?_⟩
  · intro P rng k hashed
    cases rng with
    | none => exact rel.Same.rfl' _
    | some s => exact rel.pss.sign_same _ _ _ _ _ _ _ _
  · exact fun P k hashed sig => rel.Same.bind (rel.lenBitsU32_same _) fun _ => rel.Same.bind (rel.Same.rfl' _) fun _ =>
      rel.pss.verify_same _ _ _ _ _ _
  · exact fun b => rel.Same.bind (rel.lenBitsU32_same _) fun _ => rel.Same.rfl' _

/-- C102: the OAEP functions. -/
theorem C102_oaep {σ : Type} (R : RngImpl σ) (fuel : Nat) :
    (∀ (P : oaep.Oaep) s k msg, SameUnlessStopped (P.encrypt R s k msg) (rel.oaep.schemeEncrypt P R s k msg)) ∧
    (∀ D MGD s k msg label, SameUnlessStopped (oaep.encryptDigest R D MGD s k msg label)
      (rel.oaep.encryptDigest R D MGD s k msg label)) ∧
    (∀ (P : oaep.Oaep) rng k ct,
      SameUnlessStopped (P.decrypt R fuel rng k ct) (rel.oaep.schemeDecrypt P R fuel rng k ct)) ∧
    (∀ D MGD rng k ct label, SameUnlessStopped (oaep.decryptDigest R fuel D MGD rng k ct label)
      (rel.oaep.decryptDigest R fuel D MGD rng k ct label)) :=
  ⟨fun _ _ _ _ => rel.oaep.encrypt_same _ _ _ _ _ _ _, fun _ _ _ _ _ _ => rel.oaep.encryptDigest_same _ _ _ _ _ _ _,
    fun _ _ _ _ => rel.oaep.decrypt_same _ _ _ _ _ _ _ _,
    fun _ _ _ _ _ _ => rel.oaep.decryptDigest_same _ _ _ _ _ _ _ _⟩

/-- C102: the raw private operation, and generating keys. -/
theorem C102_generated {σ τ : Type} (R : RngImpl σ) (G : PrimeGen τ) (fuel : Nat) :
    (∀ rng k c, SameUnlessStopped (rsaDecryptAndCheck R fuel k rng c) (rel.rsaDecryptAndCheck R fuel k rng c)) ∧
    (∀ s bitSize, SameUnlessStopped (PrivateKey.new G fuel s bitSize) (rel.new G fuel s bitSize)) ∧
    (∀ s bitSize e, SameUnlessStopped (PrivateKey.newWithExp G fuel s bitSize e) (rel.newWithExp G fuel s bitSize e)) ∧
    (∀ s n bitSize e, SameUnlessStopped (generateMultiPrimeKeyWithExp G fuel s n bitSize e)
      (rel.generateMultiPrimeKeyWithExp G fuel s n bitSize e)) :=
  ⟨fun _ _ _ => rel.rsaDecryptAndCheck_same _ _ _ _ _, fun _ _ => rel.newWithExp_same _ _ _ _ _,
    fun _ _ _ => rel.newWithExp_same _ _ _ _ _, fun _ _ _ _ => rel.generateMultiPrimeKeyWithExp_same _ _ _ _ _ _⟩

/-! ### Where they agree outright -/

/-- C102: making a key from its components or its primes, computing the cached values and reading key documents are the
same in both builds, for all numbers and all byte strings: none of their checks can fail alone. -/
theorem C102_keys :
    (∀ k : PrivateKey, rel.precompute k = k.precompute) ∧
    (∀ n e d primes, rel.fromComponents n e d primes = PrivateKey.fromComponents n e d primes) ∧
    (∀ p q e, rel.fromPQ p q e = PrivateKey.fromPQ p q e) ∧
    (∀ primes e, rel.fromPrimes primes e = PrivateKey.fromPrimes primes e) ∧
    (∀ b, rel.fromPkcs8Der b = PrivateKey.fromPkcs8Der b) ∧
    (∀ b, rel.fromPublicKeyDer b = PublicKey.fromPublicKeyDer b) := by
  refine ⟨fun k => by rw [rel.precompute_eq], fun n e d primes => by rw [rel.fromComponents_eq], fun p q e => ?_,
    fun primes e => ?_, fun b => by rw [rel.fromPkcs8Der_eq], fun b => by rw [rel.fromPublicKeyDer_eq]⟩
  · unfold rel.fromPQ PrivateKey.fromPQ; rw [rel.fromComponents_eq]
  · unfold rel.fromPrimes PrivateKey.fromPrimes; rw [rel.fromComponents_eq]

/-- C102: checking signatures, for every key in use, every input shorter than 2^29 octets and every salt length for
which `h_len + s_len + 2` does not overflow. -/
theorem C102_verify (k : PublicKey) (hk : k.Coherent) (hp : k.n.prec < 2 ^ 32) :
    (∀ (S : pkcs1v15.Pkcs1v15Sign) (hashed sig : Bytes), sig.length < 2 ^ 29 →
      rel.pkcs1v15.schemeVerify S k hashed sig = S.verify k hashed sig) ∧
    (∀ (P : pss.Pss) (hashed sig : Bytes), 0 < P.digest.fn.outLen → P.digest.fn.outLen + P.saltLen + 2 < 2 ^ 64 →
      sig.length < 2 ^ 29 → rel.pss.schemeVerify P k hashed sig = P.verify k hashed sig) ∧
    (∀ (pfx hashed : Bytes) (sg : BoxedUint),
      rel.pkcs1v15.verify k pfx hashed sg = pkcs1v15.verify k pfx hashed sg) ∧
    (∀ (D : HashFn) (saltLen : Nat) (hashed : Bytes) (sg : BoxedUint), 0 < D.outLen → D.outLen + saltLen + 2 < 2 ^ 64 →
      rel.pss.verifyDigest D k hashed sg saltLen = pss.verifyDigest D k hashed sg saltLen) ∧
    (∀ sig : Bytes, sig.length < 2 ^ 29 → rel.pkcs1v15.signatureTryFrom sig = pkcs1v15.Signature.tryFrom sig ∧
      rel.pss.signatureTryFrom sig = pss.Signature.tryFrom sig) := by
  obtain ⟨h1, h2, h3, h4, h5⟩ := C43_verify_returns_partial k hk hp
  obtain ⟨-, -, -, -, s1, s2, s3⟩ := C102_pkcs1v15 dummyRng 0
  obtain ⟨-, -, t1, t2, t3⟩ := C102_pss dummyRng 0
  exact ⟨fun S hashed sig hl => rel.Same.of_returns (s1 S k hashed sig) (h1 S hashed sig hl),
    fun P hashed sig a b c => rel.Same.of_returns (t1 P k hashed sig) (h2 P hashed sig a b c),
    fun pfx hashed sg => rel.Same.of_returns (s2 k pfx hashed sg) (h3 Ex.hash4 pfx hashed [] ⟨sg⟩).2.2,
    fun D saltLen hashed sg a b => rel.Same.of_returns (t2 D k hashed sg saltLen) (h4 D saltLen hashed [] ⟨sg⟩ a b).2.2,
    fun sig hl => ⟨rel.Same.of_returns (s3 sig) (h5 sig hl).1, rel.Same.of_returns (t3 sig) (h5 sig hl).2⟩⟩

/-- C102: the private operations, for every key that can be made. -/
theorem C102_private {σ : Type} (R : RngImpl σ) (fuel : Nat) {k : PrivateKey} (hk : Sized k)
    (hp : k.pub.n.prec < 2 ^ 32) :
    (∀ (S : pkcs1v15.Pkcs1v15Sign) rng hashed, rel.pkcs1v15.schemeSign S R fuel rng k hashed = S.sign R fuel rng k hashed) ∧
    (∀ (P : pss.Pss) rng hashed, 0 < P.digest.fn.outLen → P.digest.fn.outLen + P.saltLen + 2 < 2 ^ 64 →
      rel.pss.schemeSign P R fuel rng k hashed = P.sign R fuel rng k hashed) ∧
    (∀ rng ct, rel.pkcs1v15.decrypt R fuel rng k ct = pkcs1v15.decrypt R fuel rng k ct) ∧
    (∀ D MGD label rng ct, 0 < MGD.outLen →
      rel.oaep.decryptDigest R fuel D MGD rng k ct label = oaep.decryptDigest R fuel D MGD rng k ct label) ∧
    (∀ (P : oaep.Oaep) rng ct, 0 < P.mgfDigest.fn.outLen →
      rel.oaep.schemeDecrypt P R fuel rng k ct = P.decrypt R fuel rng k ct) := by
  obtain ⟨h1, h2, -, -, -⟩ := C62_sign_returns R fuel hk hp
  obtain ⟨-, s1, -, s2, -, -, -⟩ := C102_pkcs1v15 R fuel
  obtain ⟨t1, -, -, -, -⟩ := C102_pss R fuel
  obtain ⟨-, -, u1, u2⟩ := C102_oaep R fuel
  refine ⟨fun S rng hashed => rel.Same.of_not_panics (s2 S rng k hashed) (h1 S rng hashed).1,
    fun P rng hashed a b => rel.Same.of_not_panics (t1 P rng k hashed) (h2 P rng hashed a b).1, ?_, ?_, ?_⟩
  · exact fun rng ct => rel.Same.of_not_panics (s1 rng k ct) (C44_decrypt_returns R fuel rng hk ct).1.1
  · exact fun D MGD label rng ct a => rel.Same.of_not_panics (u2 D MGD rng k ct label)
      ((C44_decrypt_returns R fuel rng hk ct).2.1 D MGD label a).1
  · exact fun P rng ct a => rel.Same.of_not_panics (u1 P rng k ct)
      ((C44_decrypt_returns R fuel rng hk ct).2.2.1 P.digest P.mgfDigest P.label a hp).1

/-- C102: encryption. -/
theorem C102_encrypt {σ : Type} (R : RngImpl σ) (fuel : Nat) (s : σ) (k : PublicKey) (hk : k.Coherent) (msg : Bytes) :
    rel.pkcs1v15.encrypt R fuel s k msg = pkcs1v15.encrypt R fuel s k msg ∧
    (∀ P : oaep.Oaep, 0 < P.mgfDigest.fn.outLen → rel.oaep.schemeEncrypt P R s k msg = P.encrypt R s k msg) ∧
    (∀ D MGD label, 0 < MGD.outLen →
      rel.oaep.encryptDigest R D MGD s k msg label = oaep.encryptDigest R D MGD s k msg label) := by
  obtain ⟨h1, -, h2, h3⟩ := C62_encrypt_returns R fuel s k hk msg
  exact ⟨rel.Same.of_not_panics ((C102_pkcs1v15 R fuel).1 s k msg) h1,
    fun P a => rel.Same.of_returns ((C102_oaep R fuel).1 P s k msg) (h2 P.digest P.mgfDigest P.label a),
    fun D MGD label a => rel.Same.of_returns ((C102_oaep R fuel).2.1 D MGD s k msg label) (h3 D MGD label a)⟩

example : Sized Ex.key ∧ Ex.key.pub.n.prec < 2 ^ 32 ∧ Ex.key.pub.Coherent ∧ 0 < Ex.hash4.outLen ∧
    Ex.hash4.outLen + 4 + 2 < 2 ^ 64 := ⟨WellFormed.sized Ex.key_wf, by decide, rfl, by decide, by decide⟩

/-! ### Where they differ -/

/-- C102: without the checks a signature of 2^29 octets or more is refused as too long for the precision that its wrapped
bit count asks for; with them the same call panics (`C43_long_signature_panics`). -/
theorem C102_long_signature (sig : Bytes) (h : 2 ^ 29 ≤ sig.length) :
    rel.pkcs1v15.signatureTryFrom sig = .err (.decode .inputSize) ∧
    rel.pss.signatureTryFrom sig = .err (.decode .inputSize) ∧
    (∀ (P : pss.Pss) k hashed, rel.pss.schemeVerify P k hashed sig = .err (.decode .inputSize)) ∧
    (∀ (S : pkcs1v15.Pkcs1v15Sign) k hashed, (∀ l, S.hashLen = some l → hashed.length = l) →
      rel.pkcs1v15.schemeVerify S k hashed sig = .err (.decode .inputSize)) := by
  have hb : (rel.lenBitsU32 sig.length >>= fun bits => fromBeSlice sig bits) = .err (.decode .inputSize) := by
    unfold rel.lenBitsU32 fromBeSlice divCeil
    rw [Res.ok_bind, if_pos (by omega)]
  have hb' : ∀ {α : Type} (f : BoxedUint → Res α),
      (rel.lenBitsU32 sig.length >>= fun bits => fromBeSlice sig bits >>= f) = .err (.decode .inputSize) := by
    intro α f
    have : fromBeSlice sig (sig.length % 2 ^ 32 * 8 % 2 ^ 32) = .err (.decode .inputSize) := hb
    unfold rel.lenBitsU32
    rw [Res.ok_bind, this]
    rfl
  refine ⟨hb' _, hb' _, fun P k hashed => hb' _, fun S k hashed hh => ?_⟩
  unfold rel.pkcs1v15.schemeVerify
  have : S.checkHashLen hashed = .ok () := by
    unfold pkcs1v15.Pkcs1v15Sign.checkHashLen
    split
    · next l hl => rw [if_neg (by simp [hh l hl])]
    · rfl
  rw [this, Res.ok_bind]
  exact hb' _

example : 2 ^ 29 ≤ (List.replicate (2 ^ 29) (0 : UInt8)).length := by rw [List.length_replicate]

/-- C102: a PSS check whose salt length overflows accepts nothing without the checks either: it refuses, or panics at the
bounds of a slice. -/
theorem C102_salt_overflow (k : PublicKey) (hk : k.Coherent) (hp : k.n.prec < 2 ^ 32) (P : pss.Pss)
    (hpos : 0 < P.digest.fn.outLen) (hh : P.digest.fn.outLen < 2 ^ 63) (hs : P.saltLen < 2 ^ 64)
    (hov : 2 ^ 64 ≤ P.digest.fn.outLen + P.saltLen + 2) (hashed sig : Bytes) (h29 : sig.length < 2 ^ 29) :
    rel.pss.schemeVerify P k hashed sig = .err .verification ∨ rel.pss.schemeVerify P k hashed sig = .panic .bounds := by
  have hbits : 0 < k.n.bits := RSA.bits_pos (coherent_pos hk)
  have hbits32 : k.n.bits < 2 ^ 32 := lt_of_le_of_lt (bits_le_prec k.n) hp
  unfold rel.pss.schemeVerify
  rw [rel.Same.of_ok (rel.lenBitsU32_same _) (pkcs1v15.lenBitsU32_eq h29), Res.ok_bind, fromBeSlice_full, Res.ok_bind]
  unfold rel.pss.verify
  by_cases hl : sig.length ≠ k.size
  · rw [if_pos hl]; exact Or.inl rfl
  rw [if_neg hl, rsaEncrypt_eq k hk, Res.ok_bind]
  rw [rel.Same.of_ok (rel.uintToBePad_same _ _) (rel.padded hk _), Res.ok_bind,
    rel.emsa_overflow (by omega) hbits32 (by rw [beBytes_length]; exact size_eq k) hpos hh hs hov]
  have hsz := size_lt32 k hp
  generalize hem : beBytes k.size _ = em
  have heml : em.length = k.size := by rw [← hem, beBytes_length]
  generalize hem' : em.drop _ = em'
  have h63 : em'.length < 2 ^ 63 := by rw [← hem', List.length_drop]; omega
  rcases rel.pre_overflow (mHash := hashed) (emBits := k.n.bits - 1) h63 hh hs hov with h | h | ⟨_, _, h, -⟩
  · rw [h]; exact Or.inl rfl
  · rw [h]; exact Or.inr rfl
  · rw [h]; exact Or.inr rfl

/-- C102: and a genuine signature, accepted under some salt length, panics under every salt length that overflows. -/
theorem C102_salt_overflow_genuine (k : PublicKey) (hk : k.Coherent) (hp : k.n.prec < 2 ^ 32) (P : pss.Pss)
    (hpos : 0 < P.digest.fn.outLen) (hh : P.digest.fn.outLen < 2 ^ 63) (hashed sig : Bytes) (h29 : sig.length < 2 ^ 29)
    (hok : P.verify k hashed sig = .ok ()) (saltLen : Nat) (hs : saltLen < 2 ^ 64)
    (hov : 2 ^ 64 ≤ P.digest.fn.outLen + saltLen + 2) :
    rel.pss.schemeVerify { P with saltLen := saltLen } k hashed sig = .panic .bounds := by
  have hbits : 0 < k.n.bits := RSA.bits_pos (coherent_pos hk)
  have hbits32 : k.n.bits < 2 ^ 32 := lt_of_le_of_lt (bits_le_prec k.n) hp
  have hdc : ∀ n, divCeil n 8 = (n + 7) / 8 := fun _ => rfl
  unfold pss.Pss.verify at hok
  rw [pkcs1v15.lenBitsU32_eq h29, Res.ok_bind, fromBeSlice_full, Res.ok_bind] at hok
  unfold pss.verify at hok
  unfold rel.pss.schemeVerify
  rw [rel.Same.of_ok (rel.lenBitsU32_same _) (pkcs1v15.lenBitsU32_eq h29), Res.ok_bind, fromBeSlice_full, Res.ok_bind]
  unfold rel.pss.verify
  by_cases hl : sig.length ≠ k.size
  · rw [if_pos hl] at hok; cases hok
  rw [if_neg hl, rsaEncrypt_eq k hk, Res.ok_bind] at hok ⊢
  rw [rel.padded hk, Res.ok_bind] at hok
  rw [rel.Same.of_ok (rel.uintToBePad_same _ _) (rel.padded hk _), Res.ok_bind,
    rel.emsa_overflow (by omega) hbits32 (by rw [beBytes_length]; exact size_eq k) hpos hh hs hov]
  generalize hem : beBytes k.size _ = em at hok ⊢
  have heml : em.length = k.size := by rw [← hem, beBytes_length]
  have hsz := size_lt32 k hp
  unfold emsaPssVerify at hok
  dsimp only [DigestState.outputSize] at hok
  rw [subU_of_le (by omega), Res.ok_bind, subU_of_le (by rw [hdc, hdc]; omega), Res.ok_bind,
    sliceFrom_of_le (by rw [heml, size_eq, hdc, hdc]; omega), Res.ok_bind] at hok
  obtain ⟨⟨db, h⟩, hpre, -⟩ := Res.bind_eq_ok.mp hok
  rw [rel.pre_ok (by rw [List.length_drop]; omega) hs hov hpre]
  rfl

/-- The signature used below, made with a salt of three octets. -/
def Ex.saltySig : Bytes :=
  match pss.Pss.sign ⟨false, DigestState.new Ex.hash4, 3⟩ Ex.countingRng 0 (some 0) Ex.key [1, 2, 3, 4] with
  | .ok s => s
  | _ => []

example : pss.Pss.verify ⟨false, DigestState.new Ex.hash4, 3⟩ Ex.key.pub [1, 2, 3, 4] Ex.saltySig = .ok () ∧
    Ex.saltySig.length = 27 ∧
    rel.pss.schemeVerify ⟨false, DigestState.new Ex.hash4, 2 ^ 64 - 1⟩ Ex.key.pub [1, 2, 3, 4] Ex.saltySig =
      .panic .bounds ∧
    rel.pss.schemeVerify ⟨false, DigestState.new Ex.hash4, 2 ^ 64 - 5⟩ Ex.key.pub [1, 2, 3, 4] Ex.saltySig =
      .panic .bounds ∧
    pss.Pss.verify ⟨false, DigestState.new Ex.hash4, 2 ^ 64 - 5⟩ Ex.key.pub [1, 2, 3, 4] Ex.saltySig = .panic .arith ∧
    rel.pss.schemeVerify ⟨false, DigestState.new Ex.hash4, 2 ^ 64 - 5⟩ Ex.key.pub [1, 2, 3, 4] (List.replicate 27 0) =
      .err .verification := by
  decide +kernel

/-- A `DigestInfo` beyond short lengths takes more than one octet for the outermost length. -/
theorem digestInfo_longer (oid digest : Bytes) (hc : 128 ≤ oid.length + digest.length + 8) :
    (Spec.digestInfo oid digest).length ≠ oid.length + digest.length + 10 := by
  intro hlen
  have dl : ∀ n, 1 ≤ (Spec.derLen n).length ∧ (128 ≤ n → 2 ≤ (Spec.derLen n).length) := by
    intro n
    unfold Spec.derLen
    split
    · simp; omega
    · next hn =>
      have : 1 ≤ (Spec.natOctets n).length := by
        rw [Spec.natOctets]
        split
        · omega
        · simp
      simp; omega
  unfold Spec.digestInfo at hlen
  have d5 : (Spec.der 5 []).length = 2 := rfl
  have dlen : ∀ (t : UInt8) (x : Bytes), (Spec.der t x).length = 1 + (Spec.derLen x.length).length + x.length := by
    intro t x; simp [Spec.der]; omega
  have h1 := dlen 6 oid
  have h2 := dlen 4 digest
  have h3 := dlen 0x30 (Spec.der 6 oid ++ Spec.der 5 [])
  have h4 := dlen 0x30 (Spec.der 0x30 (Spec.der 6 oid ++ Spec.der 5 []) ++ Spec.der 4 digest)
  rw [h4] at hlen
  simp only [List.length_append, d5] at hlen h3
  have k1 := (dl oid.length).1
  have k2 := (dl digest.length).1
  have k3 := (dl ((Spec.der 6 oid).length + 2)).1
  have k4 := dl ((Spec.der 0x30 (Spec.der 6 oid ++ Spec.der 5 [])).length + (Spec.der 4 digest).length)
  have k5 := k4.1
  have k6 := k4.2 (by omega)
  omega

/-- C102: the prefix is made from the lengths modulo 256 without the checks, and never fails; unless both length octets
of the enclosing sequences are the true ones it is not the start of any `DigestInfo`, and it is only if the whole fits
short lengths. -/
theorem C102_prefix (oid digest : Bytes) :
    rel.pkcs1v15GeneratePrefix oid digest.length =
      .ok ([0x30, UInt8.ofNat (oid.length + 8 + digest.length), 0x30, UInt8.ofNat (oid.length + 4), 0x06,
        UInt8.ofNat oid.length] ++ oid ++ [0x05, 0x00, 0x04, UInt8.ofNat digest.length]) ∧
    (∀ pfx, rel.pkcs1v15GeneratePrefix oid digest.length = .ok pfx →
      (pfx ++ digest = Spec.digestInfo oid digest ↔ oid.length + digest.length + 8 < 128)) := by
  have h1 : rel.pkcs1v15GeneratePrefix oid digest.length =
      .ok ([0x30, UInt8.ofNat (oid.length + 8 + digest.length), 0x30, UInt8.ofNat (oid.length + 4), 0x06,
        UInt8.ofNat oid.length] ++ oid ++ [0x05, 0x00, 0x04, UInt8.ofNat digest.length]) := by
    unfold rel.pkcs1v15GeneratePrefix rel.addU8
    simp only [Res.ok_bind]
    rw [show UInt8.ofNat oid.length + 8 + UInt8.ofNat digest.length = UInt8.ofNat (oid.length + 8 + digest.length) by
      rw [UInt8.ofNat_add, UInt8.ofNat_add]; rfl, show UInt8.ofNat oid.length + 4 = UInt8.ofNat (oid.length + 4) by
      rw [UInt8.ofNat_add]; rfl]
  refine ⟨h1, fun pfx hp => ⟨fun hd => ?_, fun hl => ?_⟩⟩
  · by_contra hc
    rw [h1] at hp
    obtain rfl := Res.ok.inj hp
    exact digestInfo_longer oid digest (by omega) (by rw [← hd]; simp; omega)
  · obtain ⟨pfx', h', hd⟩ := C13_digest_info oid digest hl
    have := rel.Same.of_ok (rel.pkcs1v15GeneratePrefix_same _ _) h'
    rw [hp] at this
    rw [Res.ok.inj this]; exact hd

/-- Where the checks stop the function, the other build goes on with lengths reduced modulo 256. -/
example : pkcs1v15GeneratePrefix (List.replicate 9 1) 240 = .panic .arith ∧
    (rel.pkcs1v15GeneratePrefix (List.replicate 9 1) 240).Returns ∧
    rel.pkcs1v15GeneratePrefix [1, 2, 3] 250 = .ok [0x30, 5, 0x30, 7, 6, 3, 1, 2, 3, 5, 0, 4, 250] := by decide

end RSA
