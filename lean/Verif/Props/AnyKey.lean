import Verif.Spec.AnyKey
import Verif.Props.RawPrivate

/-
C86: what decryption and signing give for any coherent key object, whether or not its numbers make a correct key.
-/
namespace RSA
open BoxedUint

theorem writes_iff (k : PublicKey) (x : BoxedUint) (r : Res Bytes) :
    uintToZeroizingBePad x k.size = r ↔ Spec.Writes k.n.val x.val r := by
  rw [uintToZeroizingBePad_eq, size_eq_octetLen]
  refine graph_iff ?_ ?_ r
  · rcases h : Spec.i2osp x.val (Spec.octetLen k.n.val) with _ | em
    · exact ⟨_, .wide h⟩
    · exact ⟨_, .fits em h⟩
  · intro r h
    by_cases hx : x.val < 256 ^ Spec.octetLen k.n.val
    · rw [if_pos hx]
      have hi := i2osp_eq x.val (Spec.octetLen k.n.val) hx
      cases h with
      | fits em h => rw [hi] at h; rw [Option.some.inj h]
      | wide h => rw [hi] at h; cases h
    · rw [if_neg hx]
      cases h with
      | fits em h => unfold Spec.i2osp at h; rw [if_neg hx] at h; cases h
      | wide h => rfl

/-- The private operation on an octet string of at most the width of the modulus, followed by anything. -/
theorem after_iff {σ α : Type} (R : RngImpl σ) (fuel : Nat) (rng : Option σ) {k : PrivateKey} (hco : k.pub.Coherent)
    (hd : 1 ≤ k.d.nlimbs) (hcache : ∀ pre, k.precomputed = some pre → Spec.CacheOk k pre) (b : Bytes)
    (hb : b.length ≤ 8 * k.pub.n.nlimbs) (g : BoxedUint → Res α) (f : Nat → Res α → Prop)
    (hg : ∀ x r, g x = r ↔ f x.val r) (r : Res α) :
    (fromBeSlice b k.pub.nBitsPrecision >>= fun c => rsaDecryptAndCheck R fuel k rng c >>= fun x => g x.1) = r ↔
      Spec.AfterPrivate R fuel rng k (Spec.os2ip b) f r := by
  rw [fromBeSlice_nprec _ hco, if_pos hb, Res.ok_bind]
  have hiff := C85_checked R fuel rng hco hd hcache
  have hcv : (wrap k.pub.n.nlimbs (beVal b)).val = Spec.os2ip b := by
    rw [wrap_val_of_lt (beVal_lt_limbs hb), beVal_eq_os2ip]
  have huniq : ∀ c : BoxedUint, c.prec = k.pub.n.prec → c.val = Spec.os2ip b → c = wrap k.pub.n.nlimbs (beVal b) := by
    intro c hw hv
    exact ext_val (by unfold prec at hw; rw [wrap_nlimbs]; omega) (by rw [hcv, hv])
  refine graph_iff ?_ ?_ r
  · have h := (hiff (wrap k.pub.n.nlimbs (beVal b)) _).mp rfl
    cases hr : rsaDecryptAndCheck R fuel k rng (wrap k.pub.n.nlimbs (beVal b)) with
    | ok a => rw [hr] at h; exact ⟨_, .value (wrap k.pub.n.nlimbs (beVal b)) a.1 a.2 rfl hcv h _ ((hg _ _).mp rfl)⟩
    | err e => rw [hr] at h; exact ⟨_, .err (wrap k.pub.n.nlimbs (beVal b)) e rfl hcv h⟩
    | panic e => rw [hr] at h; exact ⟨_, .panic (wrap k.pub.n.nlimbs (beVal b)) e rfl hcv h⟩
    | loop => rw [hr] at h; exact ⟨_, .loop (wrap k.pub.n.nlimbs (beVal b)) rfl hcv h⟩
  · intro r h
    cases h with
    | value c x rng' hw hv h r hr =>
      rw [huniq c hw hv] at h
      rw [(hiff _ _).mpr h, Res.ok_bind]
      exact (hg _ _).mpr hr
    | err c e hw hv h => rw [huniq c hw hv] at h; rw [(hiff _ _).mpr h]; rfl
    | panic c e hw hv h => rw [huniq c hw hv] at h; rw [(hiff _ _).mpr h]; rfl
    | loop c hw hv h => rw [huniq c hw hv] at h; rw [(hiff _ _).mpr h]; rfl

theorem writes_length {n x : Nat} {em : Bytes} (h : Spec.Writes n x (.ok em)) : em.length = Spec.octetLen n := by
  cases h with
  | fits _ h => exact i2osp_length h

theorem after_ok_length {σ : Type} {R : RngImpl σ} {fuel : Nat} {rng : Option σ} {k : PrivateKey} {b n : Nat} {s : Bytes}
    (h : Spec.AfterPrivate R fuel rng k b (Spec.Writes n) (.ok s)) : s.length = Spec.octetLen n := by
  cases h with
  | value c x rng' hw hv h r hr => exact writes_length hr

/-- C86, PKCS#1 v1.5 decryption. -/
theorem C86_pkcs1v15_decrypt {σ : Type} (R : RngImpl σ) (fuel : Nat) (rng : Option σ) {k : PrivateKey}
    (hco : k.pub.Coherent) (hd : 1 ≤ k.d.nlimbs) (hcache : ∀ pre, k.precomputed = some pre → Spec.CacheOk k pre)
    (ct : Bytes) (r : Res Bytes) :
    pkcs1v15.decrypt R fuel rng k ct = r ↔ Spec.AnyDecryptsPkcs1v15 R fuel rng k ct r := by
  have hopen : Spec.PublicOk k.pub.n.prec k.pub.n.val k.pub.e.val → ∀ x r,
      (uintToZeroizingBePad x k.pub.size >>= fun em => pkcs1v15EncryptUnpad em k.pub.size) = r ↔
        Spec.OpensPkcs1v15 k.pub.n.val x.val r := by
    intro hok x r
    have hsize : k.pub.size < 2 ^ 31 := by
      have h1 := hok.1
      have h2 := size_le_bytes k.pub
      unfold prec at h1
      omega
    have hw := writes_iff k.pub x
    have hun : ∀ em, Spec.Writes k.pub.n.val x.val (.ok em) → _ := fun em h =>
      pkcs1v15EncryptUnpad_spec em k.pub.size (by rw [writes_length h, size_eq_octetLen]) hsize
    refine graph_iff ?_ ?_ r
    · have h := (hw _).mp rfl
      cases hr : uintToZeroizingBePad x k.pub.size with
      | ok em =>
        rw [hr] at h
        by_cases hm : ∃ m, Spec.IsEmePkcs1v15 (Spec.octetLen k.pub.n.val) m em
        · obtain ⟨m, hm⟩ := hm
          exact ⟨_, .message em m h hm⟩
        · push Not at hm
          exact ⟨_, .invalid em h hm⟩
      | err e => rw [hr] at h; exact ⟨_, .wide e h⟩
      | panic e => rw [hr] at h; cases h
      | loop => rw [hr] at h; cases h
    · intro r h
      cases h with
      | wide e h => rw [(hw _).mpr h]; rfl
      | invalid em hem h =>
        rw [(hw _).mpr hem, Res.ok_bind]
        refine (hun em hem).2 ?_
        rintro ⟨m, hm⟩
        rw [size_eq_octetLen] at hm
        exact h m hm
      | message em m hem h =>
        rw [(hw _).mpr hem, Res.ok_bind]
        rw [← size_eq_octetLen] at h
        exact (hun em hem).1 m h
  have hrun : Spec.PublicOk k.pub.n.prec k.pub.n.val k.pub.e.val → 8 * ct.length ≤ k.pub.n.prec → ∀ r,
      pkcs1v15.decrypt R fuel rng k ct = r ↔
        Spec.AfterPrivate R fuel rng k (Spec.os2ip ct) (Spec.OpensPkcs1v15 k.pub.n.val) r := by
    intro hok hl r
    rw [← after_iff R fuel rng hco hd hcache ct (by unfold prec at hl; omega) _ _ (hopen hok) r]
    unfold pkcs1v15.decrypt
    rw [(checkPublic_ok k.pub).mpr hok, Res.ok_bind]
  refine graph_iff ?_ ?_ r
  · rcases public_total k.pub with hok | ⟨er, he⟩
    · by_cases hl : 8 * ct.length ≤ k.pub.n.prec
      · exact ⟨_, .run hok hl _ ((hrun hok hl _).mp rfl)⟩
      · exact ⟨_, .tooLong hok (by omega)⟩
    · exact ⟨_, .badKey er he⟩
  · intro r h
    cases h with
    | badKey er h =>
      unfold pkcs1v15.decrypt
      rw [checkPublic_err h]; rfl
    | tooLong hok h =>
      unfold pkcs1v15.decrypt
      rw [(checkPublic_ok k.pub).mpr hok, Res.ok_bind, fromBeSlice_nprec _ hco,
        if_neg (by unfold prec at h; omega)]
      rfl
    | run hok hl r h => exact (hrun hok hl r).mpr h

theorem opensOaep_iff {k : PublicKey} (hp : k.n.prec < 2 ^ 32) (D MGD : HashFn) (hpos : 0 < MGD.outLen)
    (label : Option Bytes) (x : BoxedUint) (r : Res Bytes) :
    ((uintToZeroizingBePad x k.size >>= fun em =>
        oaepDecrypt em (DigestState.new D) (DigestState.new MGD) label k.size) = r ↔
      Spec.OpensOaep k.n.val D MGD (label.getD []) .decryption x.val r) ∧
    ((uintToZeroizingBePad x k.size >>= fun em => oaepDecryptDigest em D MGD label k.size) = r ↔
      Spec.OpensOaep k.n.val D MGD (label.getD []) .labelTooLong x.val r) := by
  have h32 : k.size < 2 ^ 32 := by
    have hsz := size_le_bytes k
    unfold prec at hp; omega
  have hw := writes_iff k x
  have gen : ∀ (g : Bytes → Res Bytes) (long : Error),
      (∀ em, (label.getD []).length < 2 ^ 61 →
        g em = oaepDecrypt em (DigestState.new D) (DigestState.new MGD) label k.size) →
      (∀ em, 2 ^ 61 ≤ (label.getD []).length → g em = .err long) →
      ((uintToZeroizingBePad x k.size >>= g) = r ↔ Spec.OpensOaep k.n.val D MGD (label.getD []) long x.val r) := by
    intro g long hs hl
    have hspec : ∀ em, Spec.Writes k.n.val x.val (.ok em) → (label.getD []).length < 2 ^ 61 →
        (∀ m, g em = .ok m ↔ Spec.IsEmeOaep D MGD (label.getD []) (Spec.octetLen k.n.val) m em) ∧
        ((∀ m, ¬ Spec.IsEmeOaep D MGD (label.getD []) (Spec.octetLen k.n.val) m em) → g em = .err .decryption) := by
      intro em hem hlab
      have hlen : em.length = k.size := by rw [writes_length hem, size_eq_octetLen]
      have := oaepDecrypt_spec em D MGD hpos label hlab (by rw [hlen]; exact h32)
      rw [hlen] at this
      rw [hs em hlab, ← size_eq_octetLen]
      refine ⟨this.1, fun h => this.2 ?_⟩
      rintro ⟨h11, seed, m, h'⟩
      exact h m ⟨h11, seed, h'⟩
    refine graph_iff ?_ ?_ r
    · have h := (hw _).mp rfl
      cases hr : uintToZeroizingBePad x k.size with
      | ok em =>
        rw [hr] at h
        by_cases hlab : (label.getD []).length < 2 ^ 61
        · by_cases hm : ∃ m, Spec.IsEmeOaep D MGD (label.getD []) (Spec.octetLen k.n.val) m em
          · obtain ⟨m, hm⟩ := hm
            exact ⟨_, .message em m h hlab hm⟩
          · push Not at hm
            exact ⟨_, .invalid em h hlab hm⟩
        · exact ⟨_, .badLabel em h (by omega)⟩
      | err e => rw [hr] at h; exact ⟨_, .wide e h⟩
      | panic e => rw [hr] at h; cases h
      | loop => rw [hr] at h; cases h
    · intro r h
      cases h with
      | wide e h => rw [(hw _).mpr h]; rfl
      | badLabel em hem h => rw [(hw _).mpr hem, Res.ok_bind, hl em h]
      | invalid em hem hlab h => rw [(hw _).mpr hem, Res.ok_bind, (hspec em hem hlab).2 h]
      | message em m hem hlab h => rw [(hw _).mpr hem, Res.ok_bind, ((hspec em hem hlab).1 m).mpr h]
  refine ⟨gen _ _ (fun _ _ => rfl) ?_, gen _ _ (fun em h => oaepDecryptDigest_agree em D MGD label k.size h) ?_⟩
  · intro em h
    cases label with
    | none => simp at h
    | some l => exact (C24_oaep_label_error em D MGD l k.size h).1
  · intro em h
    cases label with
    | none => simp at h
    | some l => exact (C24_oaep_label_error em D MGD l k.size h).2

/-- C86, OAEP decryption. -/
theorem C86_oaep_decrypt {σ : Type} (R : RngImpl σ) (fuel : Nat) (rng : Option σ) {k : PrivateKey}
    (hco : k.pub.Coherent) (hd : 1 ≤ k.d.nlimbs) (hcache : ∀ pre, k.precomputed = some pre → Spec.CacheOk k pre)
    (hp : k.pub.n.prec < 2 ^ 32) (D MGD : HashFn) (hpos : 0 < MGD.outLen) (label : Option Bytes) (ct : Bytes)
    (r : Res Bytes) :
    oaep.decrypt R fuel rng k ct (DigestState.new D) (DigestState.new MGD) label = r ↔
      Spec.AnyDecryptsOaep R fuel rng k D MGD (label.getD []) .decryption ct r := by
  have hrun : ct.length = k.pub.size → ∀ r,
      oaep.decrypt R fuel rng k ct (DigestState.new D) (DigestState.new MGD) label = r ↔
        Spec.AfterPrivate R fuel rng k (Spec.os2ip ct)
          (Spec.OpensOaep k.pub.n.val D MGD (label.getD []) .decryption) r := by
    intro hl r
    rw [← after_iff R fuel rng hco hd hcache ct (by rw [hl]; exact size_le_bytes _) _ _
      (fun x r => (opensOaep_iff hp D MGD hpos label x r).1) r]
    unfold oaep.decrypt
    rw [if_neg (by simp [hl])]
  refine graph_iff ?_ ?_ r
  · by_cases hl : ct.length = k.pub.size
    · exact ⟨_, .run (by rw [← size_eq_octetLen]; exact hl) _ ((hrun hl _).mp rfl)⟩
    · exact ⟨_, .length (by rw [← size_eq_octetLen]; exact hl)⟩
  · intro r h
    cases h with
    | length h =>
      rw [← size_eq_octetLen] at h
      unfold oaep.decrypt
      rw [if_pos h]
    | run hl r h => exact (hrun (by rw [size_eq_octetLen]; exact hl) r).mpr h

/-- C86, OAEP decryption with typed keys. -/
theorem C86_oaep_decrypt_typed {σ : Type} (R : RngImpl σ) (fuel : Nat) (rng : Option σ) {k : PrivateKey}
    (hco : k.pub.Coherent) (hd : 1 ≤ k.d.nlimbs) (hcache : ∀ pre, k.precomputed = some pre → Spec.CacheOk k pre)
    (D MGD : HashFn) (hpos : 0 < MGD.outLen) (label : Option Bytes) (ct : Bytes) (r : Res Bytes) :
    oaep.decryptDigest R fuel D MGD rng k ct label = r ↔
      Spec.AnyDecryptsOaepTyped R fuel rng k D MGD (label.getD []) ct r := by
  have hrun : Spec.PublicOk k.pub.n.prec k.pub.n.val k.pub.e.val → ct.length = k.pub.size → ∀ r,
      oaep.decryptDigest R fuel D MGD rng k ct label = r ↔
        Spec.AfterPrivate R fuel rng k (Spec.os2ip ct)
          (Spec.OpensOaep k.pub.n.val D MGD (label.getD []) .labelTooLong) r := by
    intro hok hl r
    have hp : k.pub.n.prec < 2 ^ 32 := by
      have h1 := hok.1
      unfold prec at h1 ⊢
      omega
    rw [← after_iff R fuel rng hco hd hcache ct (by rw [hl]; exact size_le_bytes _) _ _
      (fun x r => (opensOaep_iff hp D MGD hpos label x r).2) r]
    unfold oaep.decryptDigest
    rw [(checkPublic_ok k.pub).mpr hok, Res.ok_bind, if_neg (by simp [hl])]
  refine graph_iff ?_ ?_ r
  · rcases public_total k.pub with hok | ⟨er, he⟩
    · by_cases hl : ct.length = k.pub.size
      · exact ⟨_, .run hok _ (.run (by rw [← size_eq_octetLen]; exact hl) _ ((hrun hok hl _).mp rfl))⟩
      · exact ⟨_, .run hok _ (.length (by rw [← size_eq_octetLen]; exact hl))⟩
    · exact ⟨_, .badKey er he⟩
  · intro r h
    cases h with
    | badKey er h =>
      unfold oaep.decryptDigest
      rw [checkPublic_err h]; rfl
    | run hok r h =>
      cases h with
      | length h =>
        rw [← size_eq_octetLen] at h
        unfold oaep.decryptDigest
        rw [(checkPublic_ok k.pub).mpr hok, Res.ok_bind, if_pos h]
      | run hl r h => exact (hrun hok (by rw [size_eq_octetLen]; exact hl) r).mpr h

/-- C86, PKCS#1 v1.5 signing. -/
theorem C86_pkcs1v15_sign {σ : Type} (R : RngImpl σ) (fuel : Nat) (rng : Option σ) {k : PrivateKey}
    (hco : k.pub.Coherent) (hd : 1 ≤ k.d.nlimbs) (hcache : ∀ pre, k.precomputed = some pre → Spec.CacheOk k pre)
    (S : pkcs1v15.Pkcs1v15Sign) (hashed : Bytes) (r : Res Bytes) :
    S.sign R fuel rng k hashed = r ↔ Spec.AnySignsPkcs1v15 R fuel rng k S.hashLen S.pfx hashed r := by
  have hrun : ∀ em, Spec.emsaPkcs1v15 (S.pfx ++ hashed) (Spec.octetLen k.pub.n.val) = some em → ∀ r,
      pkcs1v15.sign R fuel rng k S.pfx hashed = r ↔
        Spec.AfterPrivate R fuel rng k (Spec.os2ip em) (Spec.Writes k.pub.n.val) r := by
    intro em hem r
    rw [← size_eq_octetLen] at hem
    have hlen : em.length = k.pub.size := by
      unfold Spec.emsaPkcs1v15 at hem
      split at hem
      · obtain rfl := Option.some.inj hem
        simp at *; omega
      · cases hem
    rw [← after_iff R fuel rng hco hd hcache em (by rw [hlen]; exact size_le_bytes _)
      (fun x => uintToZeroizingBePad x k.pub.size) _ (fun x r => writes_iff k.pub x r) r]
    unfold pkcs1v15.sign
    rw [pkcs1v15SignPad_eq, hem]
    rfl
  refine graph_iff ?_ ?_ r
  · by_cases hh : ∀ l, S.hashLen = some l → hashed.length = l
    · rcases hem : Spec.emsaPkcs1v15 (S.pfx ++ hashed) (Spec.octetLen k.pub.n.val) with _ | em
      · exact ⟨_, .tooLong hh hem⟩
      · exact ⟨_, .run hh em hem _ ((hrun em hem _).mp rfl)⟩
    · push Not at hh
      obtain ⟨l, hl, hne⟩ := hh
      exact ⟨_, .notHashed l hl hne⟩
  · intro r h
    unfold pkcs1v15.Pkcs1v15Sign.sign
    cases h with
    | notHashed l hl h => rw [checkHashLen_err hl h]; rfl
    | tooLong hh h =>
      rw [checkHashLen_ok hh, Res.ok_bind]
      unfold pkcs1v15.sign
      rw [pkcs1v15SignPad_eq, size_eq_octetLen, h]; rfl
    | run hh em hem r h =>
      rw [checkHashLen_ok hh, Res.ok_bind]
      exact (hrun em hem r).mpr h

/-- C86, PSS signing. -/
theorem C86_pss_sign {σ : Type} (R : RngImpl σ) (fuel : Nat) (rng : Option σ) {k : PrivateKey}
    (hco : k.pub.Coherent) (hd : 1 ≤ k.d.nlimbs) (hcache : ∀ pre, k.precomputed = some pre → Spec.CacheOk k pre)
    (hp : k.pub.n.prec < 2 ^ 32) (blinded : Bool) (D : HashFn) (hpos : 0 < D.outLen) (saltLen : Nat)
    (hadd : D.outLen + saltLen + 2 < 2 ^ 64) (hashed : Bytes) (r : Res Bytes) :
    pss.Pss.sign ⟨blinded, DigestState.new D, saltLen⟩ R fuel rng k hashed = r ↔
      Spec.AnySignsPss R fuel rng k D blinded saltLen hashed r := by
  have hn := coherent_pos hco
  have hbp := bits_pos hn
  have hbl := bits_le_prec k.pub.n
  have hrun : ∀ (brng : Option σ) (salt em : Bytes), hashed.length = D.outLen → salt.length = saltLen →
      Spec.emsaPss D.hash (Spec.mgf1 D.hash D.outLen) D.outLen hashed salt (k.pub.n.val.size - 1) = some em → ∀ r,
      pss.signPssWithSalt R fuel brng k hashed salt (DigestState.new D) = r ↔
        Spec.AfterPrivate R fuel brng k (Spec.os2ip em) (Spec.Writes k.pub.n.val) r := by
    intro brng salt em hh hsl hem r
    rw [← bits_eq_size] at hem
    have hle : em.length ≤ 8 * k.pub.n.nlimbs := by
      rw [(emsaPss_length hpos hem).1]; unfold prec at hbl; omega
    rw [← after_iff R fuel brng hco hd hcache em hle
      (fun x => uintToZeroizingBePad x k.pub.size) _ (fun x r => writes_iff k.pub x r) r]
    unfold pss.signPssWithSalt
    rw [subU_of_le (by omega), Res.ok_bind, emsaPssEncode_eq hashed _ salt D hpos hh (by omega) (by omega)]
    unfold HashFn.mgf
    rw [hem]
    rfl
  refine graph_iff ?_ ?_ r
  · cases rng with
    | none => exact ⟨_, .noRng rfl⟩
    | some s =>
      rcases hf : (R.fill s saltLen).1 with _ | salt
      · exact ⟨_, .noSalt s rfl hf⟩
      · by_cases hh : hashed.length = D.outLen
        · rcases hem : Spec.emsaPss D.hash (Spec.mgf1 D.hash D.outLen) D.outLen hashed salt (k.pub.n.val.size - 1)
            with _ | em
          · exact ⟨_, .tooLong s rfl salt hf hh hem⟩
          · exact ⟨_, .run s rfl salt hf hh em hem _ ((hrun _ salt em hh (R.fill_len _ _ _ hf) hem _).mp rfl)⟩
        · exact ⟨_, .notHashed s rfl salt hf hh⟩
  · intro r h
    unfold pss.Pss.sign
    cases h with
    | noRng h => subst h; rfl
    | noSalt s hs h =>
      subst hs
      simp only [pss.sign]
      rw [tryFill_none h]; rfl
    | notHashed s hs salt hf h =>
      subst hs
      simp only [pss.sign]
      rw [tryFill_some hf, Res.ok_bind]
      unfold pss.signPssWithSalt
      rw [subU_of_le (by omega), Res.ok_bind]
      unfold emsaPssEncode
      dsimp only [DigestState.outputSize, DigestState.new]
      rw [if_pos h]; rfl
    | tooLong s hs salt hf hh h =>
      subst hs
      have hsl := R.fill_len _ _ _ hf
      rw [← bits_eq_size] at h
      simp only [pss.sign]
      rw [tryFill_some hf, Res.ok_bind]
      unfold pss.signPssWithSalt
      rw [subU_of_le (by omega), Res.ok_bind, emsaPssEncode_eq hashed _ salt D hpos hh (by omega) (by omega)]
      unfold HashFn.mgf
      rw [h]; rfl
    | run s hs salt hf hh em hem r h =>
      subst hs
      simp only [pss.sign]
      rw [tryFill_some hf, Res.ok_bind]
      exact (hrun _ salt em hh (R.fill_len _ _ _ hf) hem r).mpr h

theorem anySignsPkcs1v15_length {σ : Type} {R : RngImpl σ} {fuel : Nat} {rng : Option σ} {k : PrivateKey}
    {hl : Option Nat} {pfx hashed sig : Bytes} (h : Spec.AnySignsPkcs1v15 R fuel rng k hl pfx hashed (.ok sig)) :
    sig.length = Spec.octetLen k.pub.n.val := by
  cases h with
  | run hh em hem r h => exact after_ok_length h

theorem anySignsPss_length {σ : Type} {R : RngImpl σ} {fuel : Nat} {rng : Option σ} {k : PrivateKey} {D : HashFn}
    {b : Bool} {saltLen : Nat} {hashed sig : Bytes} (h : Spec.AnySignsPss R fuel rng k D b saltLen hashed (.ok sig)) :
    sig.length = Spec.octetLen k.pub.n.val := by
  cases h with
  | run s hs salt hf hh em hem r h => exact after_ok_length h

/-- C86 for the typed PKCS#1 v1.5 signing key: all five signing calls. -/
theorem C86_pkcs1v15_sign_typed {σ : Type} (R : RngImpl σ) (fuel : Nat) (s : σ) {D : HashFn} (sk : pkcs1v15.SigningKey D)
    (hco : sk.inner.pub.Coherent) (hd : 1 ≤ sk.inner.d.nlimbs)
    (hcache : ∀ pre, sk.inner.precomputed = some pre → Spec.CacheOk sk.inner pre)
    (hp : sk.inner.pub.n.prec < 2 ^ 32) (msg : Bytes) (r : Res pkcs1v15.Signature) :
    (sk.signPrehash msg = r ↔ ∃ r', Spec.AnySignsPkcs1v15 R fuel none sk.inner none sk.pfx msg r' ∧
      Spec.TypedSignature pkcs1v15.Signature.inner r' r) ∧
    (sk.trySign msg = r ↔ ∃ r', Spec.AnySignsPkcs1v15 R fuel none sk.inner none sk.pfx (D.hash msg) r' ∧
      Spec.TypedSignature pkcs1v15.Signature.inner r' r) ∧
    (sk.trySignDigest msg = r ↔ ∃ r', Spec.AnySignsPkcs1v15 R fuel none sk.inner none sk.pfx (D.hash msg) r' ∧
      Spec.TypedSignature pkcs1v15.Signature.inner r' r) ∧
    (sk.trySignWithRng R fuel s msg = r ↔ ∃ r', Spec.AnySignsPkcs1v15 R fuel (some s) sk.inner none sk.pfx
      (D.hash msg) r' ∧ Spec.TypedSignature pkcs1v15.Signature.inner r' r) ∧
    (sk.trySignDigestWithRng R fuel s msg = r ↔ ∃ r', Spec.AnySignsPkcs1v15 R fuel (some s) sk.inner none sk.pfx
      (D.hash msg) r' ∧ Spec.TypedSignature pkcs1v15.Signature.inner r' r) := by
  have key : ∀ {τ : Type} (R : RngImpl τ) (fuel : Nat) (rng : Option τ) (h : Bytes),
      (pkcs1v15.sign R fuel rng sk.inner sk.pfx h >>= pkcs1v15.Signature.tryFrom) = r ↔
      ∃ r', Spec.AnySignsPkcs1v15 R fuel rng sk.inner none sk.pfx h r' ∧
        Spec.TypedSignature pkcs1v15.Signature.inner r' r := by
    intro τ R fuel rng h
    refine typed_iff (fun r => ?_) (fun sig hs => ?_) _ pkcs1v15.Signature.mk (fun _ => rfl) (fun _ => rfl) _
      (fun sig hs => pkcs1v15.Signature.tryFrom_eq sig hs) r
    · rw [← C86_pkcs1v15_sign R fuel rng hco hd hcache ⟨none, sk.pfx⟩ h r]
      rfl
    · rw [anySignsPkcs1v15_length hs]; exact octetLen_lt29 hp
  have none_eq : ∀ h, pkcs1v15.sign dummyRng 0 none sk.inner sk.pfx h = pkcs1v15.sign R fuel none sk.inner sk.pfx h := by
    intro h
    unfold pkcs1v15.sign
    congr 1; funext em
    congr 1; funext em
    exact rsaDecryptAndCheck_no_rng dummyRng R 0 fuel sk.inner em (fun m => uintToZeroizingBePad m sk.inner.pub.size)
  have keyNone := fun h => none_eq h ▸ key R fuel none h
  exact ⟨keyNone _, keyNone _, keyNone _, key _ _ _ _, key _ _ _ _⟩

/-- C86 for the typed PSS signing keys: all six signing calls. -/
theorem C86_pss_sign_typed {σ : Type} (R : RngImpl σ) (fuel : Nat) (s : σ) {D : HashFn} {k : PrivateKey} (saltLen : Nat)
    (hco : k.pub.Coherent) (hd : 1 ≤ k.d.nlimbs) (hcache : ∀ pre, k.precomputed = some pre → Spec.CacheOk k pre)
    (hp : k.pub.n.prec < 2 ^ 32) (hpos : 0 < D.outLen) (hadd : D.outLen + saltLen + 2 < 2 ^ 64) (msg : Bytes)
    (r : Res pss.Signature) :
    (pss.SigningKey.signPrehashWithRng (D := D) R fuel s ⟨k, saltLen⟩ msg = r ↔
      ∃ r', Spec.AnySignsPss R fuel (some s) k D false saltLen msg r' ∧ Spec.TypedSignature pss.Signature.inner r' r) ∧
    (pss.SigningKey.trySignWithRng (D := D) R fuel s ⟨k, saltLen⟩ msg = r ↔
      ∃ r', Spec.AnySignsPss R fuel (some s) k D false saltLen (D.hash msg) r' ∧
        Spec.TypedSignature pss.Signature.inner r' r) ∧
    (pss.SigningKey.trySignDigestWithRng (D := D) R fuel s ⟨k, saltLen⟩ msg = r ↔
      ∃ r', Spec.AnySignsPss R fuel (some s) k D false saltLen (D.hash msg) r' ∧
        Spec.TypedSignature pss.Signature.inner r' r) ∧
    (pss.BlindedSigningKey.signPrehashWithRng (D := D) R fuel s ⟨k, saltLen⟩ msg = r ↔
      ∃ r', Spec.AnySignsPss R fuel (some s) k D true saltLen msg r' ∧ Spec.TypedSignature pss.Signature.inner r' r) ∧
    (pss.BlindedSigningKey.trySignWithRng (D := D) R fuel s ⟨k, saltLen⟩ msg = r ↔
      ∃ r', Spec.AnySignsPss R fuel (some s) k D true saltLen (D.hash msg) r' ∧
        Spec.TypedSignature pss.Signature.inner r' r) ∧
    (pss.BlindedSigningKey.trySignDigestWithRng (D := D) R fuel s ⟨k, saltLen⟩ msg = r ↔
      ∃ r', Spec.AnySignsPss R fuel (some s) k D true saltLen (D.hash msg) r' ∧
        Spec.TypedSignature pss.Signature.inner r' r) := by
  have key : ∀ (b : Bool) (h : Bytes), (pss.signDigest R fuel D s b k h saltLen >>= pss.Signature.tryFrom) = r ↔
      ∃ r', Spec.AnySignsPss R fuel (some s) k D b saltLen h r' ∧ Spec.TypedSignature pss.Signature.inner r' r := by
    intro b h
    refine typed_iff (fun r => ?_) (fun sig hs => ?_) _ pss.Signature.mk (fun _ => rfl) (fun _ => rfl) _
      (fun sig hs => pss.Signature.tryFrom_eq sig hs) r
    · rw [pss.signDigest_agree]
      exact C86_pss_sign R fuel (some s) hco hd hcache hp b D hpos saltLen hadd h r
    · rw [anySignsPss_length hs]; exact octetLen_lt29 hp
  exact ⟨key _ _, key _ _, key _ _, key _ _, key _ _, key _ _⟩

/-- C86: the number given out is below `n` whenever the two factors used with the cached values multiply to `n`, so that it
is always written out in full; the factors themselves need not be primes. -/
theorem C86_in_range {σ : Type} {R : RngImpl σ} {fuel : Nat} {rng : Option σ} {k : PrivateKey} (hco : k.pub.Coherent)
    (hpq : ∀ p q, Spec.UsesCrt k p q → p.val * q.val = k.pub.n.val) {c x : BoxedUint} {rng' : Option σ}
    (h : Spec.RawChecked R fuel rng k c (.ok (x, rng'))) : x.val < k.pub.n.val := by
  have hn := coherent_pos hco
  have hraw : Spec.RawDecrypts R fuel rng k c (.ok (x, rng')) := by
    cases h with
    | good x rng' h he => exact h
    | none r h hr => exact absurd rfl (hr _)
  have hexp : ∀ b v, Spec.Exponentiates k b (.ok v) → v < k.pub.n.val := by
    intro b v he
    cases he with
    | plain h => exact Nat.mod_lt _ hn
    | crt p q u v h hw hu hv =>
      have hpn := hpq p q h
      have hp0 : 0 < p.val := Nat.pos_of_ne_zero (by intro h0; rw [h0, Nat.zero_mul] at hpn; omega)
      have hq0 : 0 < q.val := Nat.pos_of_ne_zero (by intro h0; rw [h0, Nat.mul_zero] at hpn; omega)
      have h1 : 0 ≤ Spec.rfcCrt p.val q.val k.d.val u b ∧
          Spec.rfcCrt p.val q.val k.d.val u b < (k.pub.n.val : Int) := by
        unfold Spec.rfcCrt
        dsimp only
        set m2 := b ^ (k.d.val % (q.val - 1)) % q.val with hm2
        have hlt : m2 < q.val := Nat.mod_lt _ hq0
        generalize hh : ((((b ^ (k.d.val % (p.val - 1)) % p.val : Nat) : Int) - (m2 : Int)) * (u : Int)) % (p.val : Int) = t
        have ht0 : 0 ≤ t := by rw [← hh]; exact Int.emod_nonneg _ (by omega)
        have htp : t < p.val := by rw [← hh]; exact Int.emod_lt_of_pos _ (by omega)
        refine ⟨by positivity, ?_⟩
        rw [← hpn]
        push_cast
        nlinarith
      obtain ⟨t, ht⟩ := Int.eq_ofNat_of_zero_le h1.1
      rw [ht] at hv h1
      norm_cast at hv
      have := Nat.mod_le t (2 ^ k.pub.n.prec)
      omega
  cases hraw with
  | plain hc hs hw x he hx => exact hexp _ _ he
  | blinded hc s u s' j ir v x hs hu hj hw hwd hir he hx hv => rw [hv]; exact Nat.mod_lt _ hn

/-- The key whose factors are not those of its modulus meets the hypotheses; its signatures are all refused by the check,
and so is the decryption of a ciphertext made with its public part. -/
example : Spec.AnySignsPkcs1v15 Ex.countingRng 3 (some 2) Ex.wrongKey none [] [1, 2, 3] (.err .internal) ∧
    Spec.AnyDecryptsPkcs1v15 Ex.countingRng 3 none Ex.wrongKey [51, 65, 167, 138, 105, 139, 61, 234, 216, 6, 121, 142, 189,
      152, 230, 163, 150, 152, 159, 179, 84, 188, 207, 32, 211, 67, 152] (.err .internal) ∧
    Spec.AnyDecryptsOaep Ex.countingRng 3 none Ex.wrongKey Ex.hash4 Ex.hash4 [] .decryption [1, 2, 3] (.err .decryption) ∧
    Spec.AnySignsPss Ex.countingRng 3 (some 2) Ex.wrongKey Ex.hash4 true 10 (Ex.hash4.hash [1, 2, 3]) (.err .internal) :=
  ⟨(C86_pkcs1v15_sign _ _ _ Ex.wrongKey_ok.1 Ex.wrongKey_ok.2.1 Ex.wrongKey_ok.2.2 ⟨none, []⟩ _ _).mp (by decide +kernel),
    (C86_pkcs1v15_decrypt _ _ _ Ex.wrongKey_ok.1 Ex.wrongKey_ok.2.1 Ex.wrongKey_ok.2.2 _ _).mp (by decide +kernel),
    (C86_oaep_decrypt _ _ _ Ex.wrongKey_ok.1 Ex.wrongKey_ok.2.1 Ex.wrongKey_ok.2.2 (by decide) _ _ (by decide) none _ _).mp
      (by decide +kernel),
    (C86_pss_sign _ _ _ Ex.wrongKey_ok.1 Ex.wrongKey_ok.2.1 Ex.wrongKey_ok.2.2 (by decide) _ _ (by decide) _ (by decide) _
      _).mp (by decide +kernel)⟩

/-- The correct example key has two factors that multiply to its modulus. -/
example : ∀ p q, Spec.UsesCrt Ex.key p q → p.val * q.val = Ex.key.pub.n.val := by
  rintro p q ⟨-, h⟩
  obtain ⟨rfl, rfl⟩ : wrap 2 (2 ^ 89 - 1) = p ∧ wrap 2 (2 ^ 127 - 1) = q := by
    simpa [Ex.key] using h
  decide

/-- The other case does arise: `from_components` accepts `n = 15` with two primes whose product is 15 modulo `2 ^ 64` only
(see C27). The number computed for the ciphertext 2 passes the fault check, is not below `n`, and does not fit one octet:
OAEP decryption reports a padding length error instead of a decryption error. -/
example : (match PrivateKey.fromComponents ⟨wrap 1 15, by decide⟩ (wrap 1 3) (wrap 1 2739653340961634299)
      [wrap 1 1607, wrap 1 4109480011442451449] with
    | .ok k => decide (k.precomputed.isSome = true ∧
        rsaDecryptAndCheck dummyRng 0 k none (wrap 1 2) = .ok (wrap 1 2148339118415674133, none) ∧
        oaep.decrypt dummyRng 0 none k [2] (DigestState.new Ex.hash4) (DigestState.new Ex.hash4) none
          = .err .invalidPadLen ∧
        oaep.decryptDigest dummyRng 0 Ex.hash4 Ex.hash4 none k [2] none = .err .invalidPadLen)
    | _ => false) = true := by decide +kernel

/-- The typed operations, with a key that does not fit together. -/
example := C86_oaep_decrypt_typed Ex.countingRng 3 none Ex.wrongKey_ok.1 Ex.wrongKey_ok.2.1 Ex.wrongKey_ok.2.2 Ex.hash4
  Ex.hash4 (by decide) (some [1]) (List.replicate 27 7)
example := C86_pkcs1v15_sign_typed Ex.countingRng 3 5 (⟨Ex.wrongKey, []⟩ : pkcs1v15.SigningKey Ex.hash4) Ex.wrongKey_ok.1
  Ex.wrongKey_ok.2.1 Ex.wrongKey_ok.2.2 (by decide +kernel) [1, 2, 3]
example := C86_pss_sign_typed Ex.countingRng 3 5 (D := Ex.hash4) 2 Ex.wrongKey_ok.1 Ex.wrongKey_ok.2.1 Ex.wrongKey_ok.2.2
  (by decide +kernel) (by decide) (by decide) [1, 2, 3]

end RSA
