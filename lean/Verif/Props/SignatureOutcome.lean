import Verif.Spec.SignatureOutcome
import Verif.Props.Documents
import Verif.Props.Outcome

/-
C87: exact outcome of reading and verifying every signature string, object and document, for every salt length.
-/
namespace RSA
open BoxedUint

/-! ### The PSS check for salt lengths that overflow -/

namespace pss

theorem emsaPssVerify_badHash (mHash em : Bytes) (sLen : Nat) (D : HashFn) (keyBits : Nat) (hkb : 0 < keyBits)
    (hem : em.length = (keyBits + 7) / 8) (h : mHash.length ≠ D.outLen) :
    emsaPssVerify mHash em sLen (DigestState.new D) keyBits = .err .verification := by
  have hdc : ∀ x, divCeil x 8 = (x + 7) / 8 := fun _ => rfl
  unfold emsaPssVerify
  rw [subU_of_le (by omega), Res.ok_bind]
  dsimp only
  rw [hdc, hdc, subU_of_le (by omega), Res.ok_bind, sliceFrom_of_le (by omega), Res.ok_bind]
  have hos : (DigestState.new D).outputSize = D.outLen := rfl
  rw [hos]
  unfold emsaPssVerifyPre
  rw [if_pos h]; rfl

theorem emsaPssVerify_overflow (mHash em : Bytes) (sLen : Nat) (D : HashFn) (keyBits : Nat) (hkb : 0 < keyBits)
    (hem : em.length = (keyBits + 7) / 8) (hh : mHash.length = D.outLen) (h : 2 ^ 64 ≤ D.outLen + sLen + 2) :
    emsaPssVerify mHash em sLen (DigestState.new D) keyBits = .panic .arith := by
  have hdc : ∀ x, divCeil x 8 = (x + 7) / 8 := fun _ => rfl
  unfold emsaPssVerify
  rw [subU_of_le (by omega), Res.ok_bind]
  dsimp only
  rw [hdc, hdc, subU_of_le (by omega), Res.ok_bind, sliceFrom_of_le (by omega), Res.ok_bind]
  have hos : (DigestState.new D).outputSize = D.outLen := rfl
  rw [hos]
  unfold emsaPssVerifyPre
  rw [if_neg (by simpa using hh)]
  dsimp only
  by_cases h1 : D.outLen + sLen < 2 ^ 64
  · rw [addU_of_lt h1, Res.ok_bind]
    unfold addU
    rw [if_neg (by omega)]; rfl
  · unfold addU
    rw [if_neg h1]; rfl

/-- The block check for every digest and salt length. -/
theorem block_total (k : PublicKey) (hk : k.Coherent) (hp : k.n.prec < 2 ^ 32) (hashed : Bytes) (s : Nat) (D : HashFn)
    (hpos : 0 < D.outLen) (saltLen : Nat) :
    let c := emsaPssVerify hashed (beBytes k.size (s ^ k.e.val % k.n.val)) saltLen (DigestState.new D) k.n.bits
    (hashed.length ≠ D.outLen → c = .err .verification) ∧
    (hashed.length = D.outLen → 2 ^ 64 ≤ D.outLen + saltLen + 2 → c = .panic .arith) ∧
    (Spec.NumberOpensPss k.n.val k.e.val D saltLen hashed s → c = .ok () ∧ D.outLen + saltLen + 2 < 2 ^ 64) ∧
    (D.outLen + saltLen + 2 < 2 ^ 64 → ¬ Spec.NumberOpensPss k.n.val k.e.val D saltLen hashed s →
      c = .err .verification) := by
  have hn := coherent_pos hk
  have hlen : (beBytes k.size (s ^ k.e.val % k.n.val)).length = (k.n.bits + 7) / 8 := by rw [beBytes_length, size_eq]
  have hbc := block_check k hk hp hashed s D hpos saltLen
  have hnum : Spec.NumberOpensPss k.n.val k.e.val D saltLen hashed s ↔
      (hashed.length = D.outLen ∧ ∃ salt, salt.length = saltLen ∧
        Spec.emsaPss D.hash D.mgf D.outLen hashed salt (k.n.bits - 1) =
          some ((beBytes k.size (s ^ k.e.val % k.n.val)).drop (if k.n.bits % 8 = 1 then 1 else 0))) := by
    unfold Spec.NumberOpensPss
    rw [← size_eq_octetLen, i2osp_eq _ _ (mod_lt_pow_size _ hn _), bits_eq_size]
    constructor
    · rintro ⟨h1, em, h2, h3⟩
      obtain rfl := Option.some.inj h2
      exact ⟨h1, h3⟩
    · rintro ⟨h1, h3⟩
      exact ⟨h1, _, rfl, h3⟩
  refine ⟨fun h => emsaPssVerify_badHash _ _ _ _ _ (bits_pos hn) hlen h,
    fun h h' => emsaPssVerify_overflow _ _ _ _ _ (bits_pos hn) hlen h h', fun h => ?_, fun hadd h => ?_⟩
  · have hadd : D.outLen + saltLen + 2 < 2 ^ 64 := by
      obtain ⟨-, salt, hs, he⟩ := hnum.mp h
      have h2 := (emsaPss_length hpos he).2
      have h3 := bits_le_prec k.n
      omega
    rcases hbc hadd with ⟨h1, -⟩ | ⟨-, h2⟩
    · exact ⟨h1, hadd⟩
    · exact absurd (hnum.mp h) h2
  · rcases hbc hadd with ⟨-, h2⟩ | ⟨h1, -⟩
    · exact absurd (hnum.mpr h2) h
    · exact h1

end pss

/-! ### C87 -/

theorem boxed_ext {x y : BoxedUint} (h1 : x.nlimbs = y.nlimbs) (h2 : x.val = y.val) : x = y := by
  cases x; cases y; cases h1; cases h2; rfl

/-- Reading a signature string in terms of the number. -/
theorem parse_iff {α : Type} (num : α → BoxedUint) (mk : BoxedUint → α) (hmk : ∀ x, num (mk x) = x)
    (hmk' : ∀ a, mk (num a) = a) (b : Bytes) (r : Res α) :
    (lenBitsU32 b.length >>= fun bits => fromBeSlice b bits >>= fun x => Res.ok (mk x)) = r ↔
      Spec.ParsesSignature num b r := by
  obtain ⟨h1, h2, h3, h4⟩ := sigString_total b (fun x => Res.ok (mk x))
  have hval : b.length < 2 ^ 29 → (wrap (limbsFor (8 * b.length)) (beVal b)).val = Spec.os2ip b := by
    intro _
    rw [← beVal_eq_os2ip]
    refine Nat.mod_eq_of_lt (lt_of_lt_of_le (beVal_lt b) ?_)
    rw [pow256]
    refine Nat.pow_le_pow_right (by norm_num) ?_
    unfold limbsFor; omega
  have hlim : (wrap (limbsFor (8 * b.length)) (beVal b)).nlimbs = max 1 ((b.length + 7) / 8) := by
    show limbsFor (8 * b.length) = _
    unfold limbsFor; omega
  refine graph_iff ?_ ?_ r
  · rcases h4 with h | ⟨h, h'⟩ | h
    · exact ⟨_, .overflow h⟩
    · exact ⟨_, .huge h h'⟩
    · exact ⟨_, .ok h (mk _) (by rw [hmk]; exact hval h) (by rw [hmk]; exact hlim)⟩
  · intro r h
    cases h with
    | overflow h => exact h1 h
    | huge h hs => exact h2 h hs
    | ok h sg hv hl =>
      rw [h3 h]
      congr 1
      rw [← hmk' sg]
      congr 1
      exact boxed_ext (by rw [hlim, hl]) (by rw [hval h, hv])

/-- C87, signature strings: both signature types are made from every octet string with exactly the outcome described by
`Spec.ParsesSignature`. -/
theorem C87_parse (b : Bytes) :
    (∀ r, pkcs1v15.Signature.tryFrom b = r ↔ Spec.ParsesSignature pkcs1v15.Signature.inner b r) ∧
    (∀ r, pss.Signature.tryFrom b = r ↔ Spec.ParsesSignature pss.Signature.inner b r) :=
  ⟨fun r => parse_iff _ pkcs1v15.Signature.mk (fun _ => rfl) (fun _ => rfl) b r,
    fun r => parse_iff _ pss.Signature.mk (fun _ => rfl) (fun _ => rfl) b r⟩

/- Leading zeros widen the number; `2 ^ 29` octets panic and `2 ^ 32` are refused. -/
example : (∃ sg, Spec.ParsesSignature pss.Signature.inner [0, 0, 0, 0, 0, 0, 0, 1, 2] (.ok sg) ∧ sg.inner.nlimbs = 2 ∧
      sg.inner.val = 258) ∧
    (∀ b : Bytes, b.length = 2 ^ 29 → pss.Signature.tryFrom b = .panic .arith) ∧
    (∀ b : Bytes, b.length = 2 ^ 32 → pkcs1v15.Signature.tryFrom b = .err (.decode .inputSize)) :=
  ⟨⟨⟨wrap 2 258⟩, .ok (by decide) _ (by decide +kernel) (by decide +kernel), by decide +kernel, by decide +kernel⟩,
    fun b h => ((C87_parse b).2 _).mpr (.overflow (by omega)),
    fun b h => ((C87_parse b).1 _).mpr (.huge (by omega) (by omega))⟩

/-- C87, PKCS#1 v1.5 signature objects of every width: all three verification calls. -/
theorem C87_pkcs1v15 {D : HashFn} (vk : pkcs1v15.VerifyingKey D) (hk : vk.inner.Coherent) (sg : pkcs1v15.Signature) :
    (∀ hashed r, vk.verifyPrehash hashed sg = r ↔
      Spec.ChecksPkcs1v15 vk.inner.n.nlimbs sg.inner.nlimbs vk.inner.n.val vk.inner.e.val vk.pfx hashed sg.inner.val r) ∧
    (∀ msg r, vk.verify msg sg = r ↔ Spec.ChecksPkcs1v15 vk.inner.n.nlimbs sg.inner.nlimbs vk.inner.n.val vk.inner.e.val
      vk.pfx (D.hash msg) sg.inner.val r) ∧
    (∀ msg r, vk.verifyDigest msg sg = r ↔ Spec.ChecksPkcs1v15 vk.inner.n.nlimbs sg.inner.nlimbs vk.inner.n.val
      vk.inner.e.val vk.pfx (D.hash msg) sg.inner.val r) := by
  have hn := coherent_pos hk
  have main : ∀ hashed r, pkcs1v15.verify vk.inner vk.pfx hashed sg.inner = r ↔
      Spec.ChecksPkcs1v15 vk.inner.n.nlimbs sg.inner.nlimbs vk.inner.n.val vk.inner.e.val vk.pfx hashed sg.inner.val r := by
    intro hashed r
    rw [pkcs1v15.verify_eq _ hk]
    have hnum : Spec.NumberOpensPkcs1v15 vk.inner.n.val vk.inner.e.val vk.pfx hashed sg.inner.val ↔
        sg.inner.val < vk.inner.n.val ∧ Spec.emsaPkcs1v15 (vk.pfx ++ hashed) vk.inner.size =
          some (beBytes vk.inner.size (sg.inner.val ^ vk.inner.e.val % vk.inner.n.val)) := by
      unfold Spec.NumberOpensPkcs1v15
      rw [← size_eq_octetLen, i2osp_eq _ _ (mod_lt_pow_size _ hn _)]
      constructor
      · rintro ⟨h1, em, h2, h3⟩
        exact ⟨h1, by rw [h2, h3]⟩
      · rintro ⟨h1, h2⟩
        exact ⟨h1, _, h2, rfl⟩
    refine graph_iff ?_ ?_ r
    · by_cases hv : sg.inner.nlimbs = vk.inner.n.nlimbs ∧
          Spec.NumberOpensPkcs1v15 vk.inner.n.val vk.inner.e.val vk.pfx hashed sg.inner.val
      · exact ⟨_, .valid hv.1 hv.2⟩
      · exact ⟨_, .invalid (by tauto)⟩
    · intro r h
      cases h with
      | valid hw h => rw [if_pos ⟨(hnum.mp h).1, hw, (hnum.mp h).2⟩]
      | invalid h =>
        rw [if_neg]
        rintro ⟨h1, h2, h3⟩
        rcases h with h | h
        · exact h h2
        · exact h (hnum.mpr ⟨h1, h3⟩)
  exact ⟨main, fun msg => main _, fun msg => main _⟩

/- A signature object of the key's width is accepted; the same number one limb wider is refused. -/
example :
    let s := Spec.os2ip [209, 168, 54, 190, 224, 67, 39, 138, 167, 205, 225, 75, 195, 246, 62, 183, 107, 240, 150, 31, 31,
        92, 73, 125, 246, 61, 244]
    Spec.ChecksPkcs1v15 4 4 Ex.pub.n.val 65537 [] [1, 2, 3] s (.ok ()) ∧
    Spec.ChecksPkcs1v15 4 5 Ex.pub.n.val 65537 [] [1, 2, 3] s (.err .verification) :=
  ⟨((C87_pkcs1v15 (D := Ex.hash4) ⟨Ex.pub, []⟩ rfl ⟨wrap 4 (Spec.os2ip [209, 168, 54, 190, 224, 67, 39, 138, 167, 205, 225, 75, 195, 246, 62, 183, 107, 240, 150, 31, 31,
        92, 73, 125, 246, 61, 244])⟩).1 _ _).mp (by decide +kernel),
    .invalid (.inl (by decide))⟩

/-- C87, PSS signature objects of every width and verifying keys of every salt length: all three verification calls. -/
theorem C87_pss {D : HashFn} (vk : pss.VerifyingKey D) (hk : vk.inner.Coherent) (hp : vk.inner.n.prec < 2 ^ 32)
    (hpos : 0 < D.outLen) (sg : pss.Signature) :
    (∀ hashed r, vk.verifyPrehash hashed sg = r ↔ Spec.ChecksPss vk.inner.n.nlimbs sg.inner.nlimbs vk.inner.n.val
      vk.inner.e.val D vk.saltLen hashed sg.inner.val r) ∧
    (∀ msg r, vk.verify msg sg = r ↔ Spec.ChecksPss vk.inner.n.nlimbs sg.inner.nlimbs vk.inner.n.val
      vk.inner.e.val D vk.saltLen (D.hash msg) sg.inner.val r) ∧
    (∀ msg r, vk.verifyDigest msg sg = r ↔ Spec.ChecksPss vk.inner.n.nlimbs sg.inner.nlimbs vk.inner.n.val
      vk.inner.e.val D vk.saltLen (D.hash msg) sg.inner.val r) := by
  have main : ∀ hashed r, pss.verifyDigest D vk.inner hashed sg.inner vk.saltLen = r ↔
      Spec.ChecksPss vk.inner.n.nlimbs sg.inner.nlimbs vk.inner.n.val vk.inner.e.val D vk.saltLen hashed sg.inner.val r := by
    intro hashed r
    obtain ⟨b1, b2, b3, b4⟩ := pss.block_total vk.inner hk hp hashed sg.inner.val D hpos vk.saltLen
    rw [pss.verifyDigest_core _ hk]
    refine graph_iff ?_ ?_ r
    · by_cases ho : vk.inner.n.val ≤ sg.inner.val ∨ sg.inner.nlimbs ≠ vk.inner.n.nlimbs ∨ hashed.length ≠ D.outLen
      · exact ⟨_, .outside ho⟩
      · simp only [not_or, not_le, not_not] at ho
        obtain ⟨o1, o2, o3⟩ := ho
        by_cases ha : D.outLen + vk.saltLen + 2 < 2 ^ 64
        · by_cases hv : Spec.NumberOpensPss vk.inner.n.val vk.inner.e.val D vk.saltLen hashed sg.inner.val
          · exact ⟨_, .valid o1 o2 hv⟩
          · exact ⟨_, .invalid o1 o2 o3 ha hv⟩
        · exact ⟨_, .salt o1 o2 o3 (by omega)⟩
    · intro r h
      cases h with
      | valid hs hw h => rw [if_pos ⟨hs, hw⟩]; exact (b3 h).1
      | salt hs hw hh h => rw [if_pos ⟨hs, hw⟩]; exact b2 hh h
      | outside h =>
        split
        · next hc =>
          rcases h with h | h | h
          · exact absurd hc.1 (by omega)
          · exact absurd hc.2 h
          · exact b1 h
        · rfl
      | invalid hs hw hh hl h => rw [if_pos ⟨hs, hw⟩]; exact b4 hl h
  exact ⟨main, fun msg => main _, fun msg => main _⟩

/- A salt length near the top of a machine word panics on a number in range, and not on one outside. -/
example :
    let vk : pss.VerifyingKey Ex.hash4 := ⟨Ex.pub, 2 ^ 64 - 6⟩
    vk.verify [1, 2, 3] ⟨wrap 4 5⟩ = .panic .arith ∧ vk.verify [1, 2, 3] ⟨wrap 5 5⟩ = .err .verification ∧
    vk.verifyPrehash [1, 2, 3] ⟨wrap 4 5⟩ = .err .verification ∧
    (pss.VerifyingKey.mk (D := Ex.hash4) Ex.pub (2 ^ 64 - 7)).verify [1, 2, 3] ⟨wrap 4 5⟩ = .err .verification ∧
    (pss.VerifyingKey.mk (D := Ex.hash4) Ex.pub 10).verify [1, 2, 3] ⟨wrap 4 (Spec.os2ip
      [116, 80, 41, 43, 182, 214, 152, 238, 177, 32, 128, 75, 220, 220, 164, 248, 127, 209, 160, 230, 109, 80,
        255, 89, 123, 61, 76])⟩ = .ok () := by
  decide +kernel

/-- C87, PSS signature strings of every length, for every salt length. -/
theorem C87_pss_string (k : PublicKey) (hk : k.Coherent) (hp : k.n.prec < 2 ^ 32) (blinded : Bool) (D : HashFn)
    (hpos : 0 < D.outLen) (saltLen : Nat) (hashed sig : Bytes) (r : Res Unit) :
    pss.Pss.verify ⟨blinded, DigestState.new D, saltLen⟩ k hashed sig = r ↔
      Spec.VerifiesPssAny k.n.val k.e.val D saltLen hashed sig r := by
  obtain ⟨h1, h2, h3, h4⟩ := sigString_total sig
    (fun s => pss.verify k hashed s sig.length (DigestState.new D) saltLen)
  obtain ⟨b1, b2, b3, b4⟩ := pss.block_total k hk hp hashed (Spec.os2ip sig) D hpos saltLen
  have h29 : sig.length = Spec.octetLen k.n.val → sig.length < 2 ^ 29 := by
    intro h; rw [h, ← size_eq_octetLen]; exact size_lt_29 hp
  have good : sig.length = Spec.octetLen k.n.val →
      pss.Pss.verify ⟨blinded, DigestState.new D, saltLen⟩ k hashed sig =
        emsaPssVerify hashed (beBytes k.size (Spec.os2ip sig ^ k.e.val % k.n.val)) saltLen (DigestState.new D) k.n.bits := by
    intro h
    have hl : sig.length = k.size := by rw [h, size_eq_octetLen]
    have hs : beVal sig < 2 ^ k.n.prec := by
      refine lt_of_lt_of_le (beVal_lt sig) ?_
      rw [pow256, hl]
      exact Nat.pow_le_pow_right (by norm_num) (by have := size_le_bytes k; unfold prec; omega)
    have hv : (wrap (limbsFor (8 * sig.length)) (beVal sig)).val = beVal sig := by
      show beVal sig % 2 ^ (64 * limbsFor (8 * sig.length)) = beVal sig
      refine Nat.mod_eq_of_lt (lt_of_lt_of_le (beVal_lt sig) ?_)
      rw [pow256]
      refine Nat.pow_le_pow_right (by norm_num) ?_
      unfold limbsFor; omega
    refine (h3 (h29 h)).trans ?_
    have := pss.verify_core k hk hashed (wrap (limbsFor (8 * sig.length)) (beVal sig)) D saltLen (by rw [hv]; exact hs)
    rw [hv, beVal_eq_os2ip] at this
    rw [← beVal_eq_os2ip] at this ⊢
    rw [hl] at this ⊢
    exact this
  refine graph_iff ?_ ?_ r
  · rcases h4 with h | ⟨h, h'⟩ | h
    · exact ⟨_, .overflow h⟩
    · exact ⟨_, .huge h h'⟩
    · by_cases ho : sig.length ≠ Spec.octetLen k.n.val ∨ hashed.length ≠ D.outLen
      · exact ⟨_, .outside h ho⟩
      · simp only [not_or, not_not] at ho
        by_cases ha : D.outLen + saltLen + 2 < 2 ^ 64
        · by_cases hv : Spec.NumberOpensPss k.n.val k.e.val D saltLen hashed (Spec.os2ip sig)
          · exact ⟨_, .valid ho.1 hv⟩
          · exact ⟨_, .invalid ho.1 ho.2 ha hv⟩
        · exact ⟨_, .salt ho.1 ho.2 (by omega)⟩
  · intro r h
    cases h with
    | overflow h => exact h1 h
    | huge h hs => exact h2 h hs
    | outside hs h =>
      by_cases hl : sig.length = Spec.octetLen k.n.val
      · rw [good hl]; exact b1 (h.resolve_left (fun hne => hne hl))
      · refine (h3 hs).trans ?_
        unfold pss.verify
        rw [if_pos (by rwa [size_eq_octetLen])]
    | salt hl hh h => rw [good hl]; exact b2 hh h
    | valid hl h => rw [good hl]; exact (b3 h).1
    | invalid hl hh hb h => rw [good hl]; exact b4 hb h

example : Spec.VerifiesPssAny Ex.pub.n.val 65537 Ex.hash4 (2 ^ 64 - 6) (Ex.hash4.hash [1, 2, 3]) [116, 80, 41, 43, 182, 214, 152, 238, 177, 32, 128, 75, 220, 220, 164, 248, 127, 209, 160, 230, 109, 80,
        255, 89, 123, 61, 76] (.panic .arith) ∧
    Spec.VerifiesPssAny Ex.pub.n.val 65537 Ex.hash4 (2 ^ 64 - 6) (Ex.hash4.hash [1, 2, 3]) [1] (.err .verification) :=
  ⟨(C87_pss_string Ex.pub rfl (by decide) false Ex.hash4 (by decide) _ _ _ _).mp (by decide +kernel),
    (C87_pss_string Ex.pub rfl (by decide) true Ex.hash4 (by decide) _ _ _ _).mp (by decide +kernel)⟩

/-- Reading through the byte layer, errors becoming one. -/
theorem serde_sig {α : Type} (num : α → BoxedUint) (hr : Bool) (d : SerdeData) (f : Bytes → Res α)
    (hf : ∀ b r, f b = r ↔ Spec.ParsesSignature num b r) (r : Res α) :
    (deserializeHexOrBin hr d >>= fun b => serdeErr (f b)) = r ↔ Spec.ReadsSignature num (Holds hr d) r := by
  refine graph_iff ?_ ?_ r
  · by_cases h : ∃ b, Holds hr d b
    · obtain ⟨b, hb⟩ := h
      have hp := (hf b _).mp rfl
      generalize f b = x at hp
      cases hp with
      | overflow h => exact ⟨_, .overflow b hb h⟩
      | huge h hs => exact ⟨_, .huge b hb h hs⟩
      | ok h sg hv hl => exact ⟨_, .ok b hb h sg hv hl⟩
    · exact ⟨_, .nothing (by simpa using h)⟩
  · intro r h
    cases h with
    | nothing h =>
      refine bind_err_of_mal ((C63_byte_layer hr).2.2.2.2.2.2 d) ?_ fun b hb =>
        absurd ((deserialize_holds hr d b).mp hb) (h b)
      intro er he
      cases hr <;> cases d <;> first | exact (Res.err.inj he).symm | cases he | skip
      exact orErr_mal _ er he
    | overflow b hb h =>
      rw [(deserialize_holds hr d b).mpr hb, Res.ok_bind, (hf b _).mpr (.overflow h)]; rfl
    | huge b hb h hs =>
      rw [(deserialize_holds hr d b).mpr hb, Res.ok_bind, (hf b _).mpr (.huge h hs)]; rfl
    | ok b hb h sg hv hl =>
      rw [(deserialize_holds hr d b).mpr hb, Res.ok_bind, (hf b _).mpr (.ok h sg hv hl)]; rfl

/-- C87, serde: both signature types are read from every document, in either kind of format, with exactly the outcome
described by `Spec.ReadsSignature`; writing always succeeds with the octets of the signature. -/
theorem C87_serde (hr : Bool) (d : SerdeData) :
    (∀ r, pkcs1v15.Signature.serdeDeserialize hr d = r ↔ Spec.ReadsSignature pkcs1v15.Signature.inner (Holds hr d) r) ∧
    (∀ r, pss.Signature.serdeDeserialize hr d = r ↔ Spec.ReadsSignature pss.Signature.inner (Holds hr d) r) ∧
    (∀ s : pkcs1v15.Signature, ∃ d', s.serdeSerialize hr = .ok d' ∧ Holds hr d' s.toBytes) ∧
    (∀ s : pss.Signature, ∃ d', s.serdeSerialize hr = .ok d' ∧ Holds hr d' s.toBytes) :=
  ⟨serde_sig _ hr d _ fun b => (C87_parse b).1, serde_sig _ hr d _ fun b => (C87_parse b).2,
    fun _ => ⟨_, rfl, holds_serialize hr _⟩, fun _ => ⟨_, rfl, holds_serialize hr _⟩⟩

example : (∃ sg : pss.Signature, pss.Signature.serdeDeserialize true (.str ['0', '1', 'f', 'F']) = .ok sg ∧ sg.inner.val = 511) ∧
    pkcs1v15.Signature.serdeDeserialize true (.str ['0', '1', 'f']) = .err .pkcs8 ∧
    pkcs1v15.Signature.serdeDeserialize true (.bytes [1]) = .err .pkcs8 ∧
    (∀ b : Bytes, b.length = 2 ^ 32 → pss.Signature.serdeDeserialize false (.bytes b) = .err .pkcs8) :=
  ⟨⟨⟨wrap 1 511⟩, by decide +kernel, by decide +kernel⟩, by decide +kernel, by decide +kernel,
    fun b h => ((C87_serde false (.bytes b)).2.1 _).mpr (.huge b (.inr ⟨rfl, rfl⟩) (by omega) (by omega))⟩

/-- C87, bit strings of signatures of every size; the octets are those of the stored number, all limbs included. -/
theorem C87_bitstring :
    (∀ (s : pkcs1v15.Signature) r, s.toBitstring = r ↔ Spec.MakesBitString s.toBytes r) ∧
    (∀ (s : pss.Signature) r, s.toBitstring = r ↔ Spec.MakesBitString s.toBytes r) ∧
    (∀ s : pkcs1v15.Signature, Spec.i2osp s.inner.val (8 * s.inner.nlimbs) = some s.toBytes) ∧
    (∀ s : pss.Signature, Spec.i2osp s.inner.val (8 * s.inner.nlimbs) = some s.toBytes) := by
  have main : ∀ (b : Bytes) r, (if b.length < der.maxLen then Res.ok (0, b) else .err .pkcs8) = r ↔
      Spec.MakesBitString b r := by
    intro b r
    have hm : der.maxLen = 2 ^ 28 := rfl
    rw [hm]
    refine graph_iff ?_ ?_ r
    · by_cases h : b.length < 2 ^ 28
      · exact ⟨_, .ok h⟩
      · exact ⟨_, .long (by omega)⟩
    · intro r h
      cases h with
      | ok h => rw [if_pos h]
      | long h => rw [if_neg (by omega)]
  have hb : ∀ x : BoxedUint, Spec.i2osp x.val (8 * x.nlimbs) = some x.toBeBytes := by
    intro x
    exact i2osp_eq _ _ (by rw [pow256, ← mul_assoc]; exact x.isLt)
  exact ⟨fun _ => main _, fun _ => main _, fun _ => hb _, fun _ => hb _⟩

/- A number of `2 ^ 25` limbs has no bit string. -/
example : (pkcs1v15.Signature.mk (wrap 1 258)).toBitstring = .ok (0, [0, 0, 0, 0, 0, 0, 1, 2]) ∧
    ∀ s : pss.Signature, s.inner.nlimbs = 2 ^ 25 → s.toBitstring = .err .pkcs8 :=
  ⟨by decide +kernel, fun s h => (C87_bitstring.2.1 s _).mpr (.long (by
    show 2 ^ 28 ≤ (beBytes (8 * s.inner.nlimbs) s.inner.val).length
    rw [beBytes_length, h]; norm_num))⟩

end RSA
