import Verif.Proof.AskTree
import Verif.Proof.GenSame
import Verif.Props.Pkcs1v15

/-
C96: the operations that take a generator use it only by calling it.  What they return and where they leave the generator
depends on the answers to their calls and on nothing else; they call it as often and in the order stated here; and so
requests that share one perfect generator have independent outcomes.
-/
namespace RSA
open BoxedUint Spec

/-- C96: the outcome of a request, whether its generator is followed after errors too (Model/Gen.lean) or handed over by
value as in the rest of this development, is the same. -/
theorem C96_same {σ : Type} (q : Request) (R : RngImpl σ) (s : σ) : (q.op σ R s).1 = q.outcome R s := out_request q R s

/-- C96: and after a successful encryption so is the generator. -/
theorem C96_same_state {σ : Type} (R : RngImpl σ) (s : σ) :
    (∀ fuel key msg, Same (gen.pkcs1v15Encrypt R fuel key msg s) (pkcs1v15.encrypt R fuel s key msg)) ∧
    (∀ key msg dg mg label, Same (gen.oaepSchemeEncrypt R key msg dg mg label s) (oaep.encrypt R s key msg dg mg label)) ∧
    (∀ D MGD key msg label,
      Same (gen.oaepSchemeEncryptDigest R D MGD key msg label s) (oaep.encryptDigest R D MGD s key msg label)) :=
  ⟨fun fuel key msg => gen.same_pkcs1v15Encrypt R fuel key msg s,
    fun key msg dg mg label => gen.same_oaepSchemeEncrypt R key msg dg mg label s,
    fun D MGD key msg label => gen.same_oaepSchemeEncryptDigest R D MGD key msg label s⟩

/-- C96: every method of the public interface that takes a generator is one of the requests, the same for all generators. -/
theorem C96_api (fuel : Nat) {D MGD : HashFn} :
    (∀ (k : PublicKey) P msg, ∃ q : Request, ∀ (σ : Type) (R : RngImpl σ) (s : σ),
      (k.encrypt R fuel s P msg >>= fun x => .ok x.1) = q.outcome R s) ∧
    (∀ (k : PrivateKey) P ct, ∃ q : Request, ∀ (σ : Type) (R : RngImpl σ) (s : σ),
      k.decryptBlinded R fuel s P ct = q.outcome R s) ∧
    (∀ (k : PrivateKey) S hashed, ∃ q : Request, ∀ (σ : Type) (R : RngImpl σ) (s : σ),
      k.signWithRng R fuel s S hashed = q.outcome R s) ∧
    (∀ (k : pkcs1v15.EncryptingKey) msg, ∃ q : Request, ∀ (σ : Type) (R : RngImpl σ) (s : σ),
      (k.encryptWithRng R fuel s msg >>= fun x => .ok x.1) = q.outcome R s) ∧
    (∀ (k : pkcs1v15.DecryptingKey) ct, ∃ q : Request, ∀ (σ : Type) (R : RngImpl σ) (s : σ),
      k.decryptWithRng R fuel s ct = q.outcome R s) ∧
    (∀ (k : oaep.EncryptingKey D MGD) msg, ∃ q : Request, ∀ (σ : Type) (R : RngImpl σ) (s : σ),
      (oaep.EncryptingKey.encryptWithRng R s k msg >>= fun x => .ok x.1) = q.outcome R s) ∧
    (∀ (k : oaep.DecryptingKey D MGD) ct, ∃ q : Request, ∀ (σ : Type) (R : RngImpl σ) (s : σ),
      oaep.DecryptingKey.decryptWithRng R fuel s k ct = q.outcome R s) ∧
    (∀ (k : pkcs1v15.SigningKey D) msg, ∃ q : Request, ∀ (σ : Type) (R : RngImpl σ) (s : σ),
      k.trySignWithRng R fuel s msg = (q.outcome R s >>= pkcs1v15.Signature.tryFrom) ∧
      k.trySignDigestWithRng R fuel s msg = (q.outcome R s >>= pkcs1v15.Signature.tryFrom)) ∧
    (∀ (k : pss.SigningKey D) msg, ∃ q : Request, ∀ (σ : Type) (R : RngImpl σ) (s : σ),
      k.trySignWithRng R fuel s msg = (q.outcome R s >>= pss.Signature.tryFrom) ∧
      k.trySignDigestWithRng R fuel s msg = (q.outcome R s >>= pss.Signature.tryFrom)) ∧
    (∀ (k : pss.SigningKey D) prehash, ∃ q : Request, ∀ (σ : Type) (R : RngImpl σ) (s : σ),
      k.signPrehashWithRng R fuel s prehash = (q.outcome R s >>= pss.Signature.tryFrom)) ∧
    (∀ (k : pss.BlindedSigningKey D) msg, ∃ q : Request, ∀ (σ : Type) (R : RngImpl σ) (s : σ),
      k.trySignWithRng R fuel s msg = (q.outcome R s >>= pss.Signature.tryFrom) ∧
      k.trySignDigestWithRng R fuel s msg = (q.outcome R s >>= pss.Signature.tryFrom)) ∧
    (∀ (k : pss.BlindedSigningKey D) prehash, ∃ q : Request, ∀ (σ : Type) (R : RngImpl σ) (s : σ),
      k.signPrehashWithRng R fuel s prehash = (q.outcome R s >>= pss.Signature.tryFrom)) := by
  refine ⟨fun k P msg => ?_, fun k P ct => ?_, fun k S hashed => ?_,
    fun k msg => ⟨.encryptPkcs1v15 fuel k.inner msg, fun _ _ _ => rfl⟩,
    fun k ct => ⟨.decryptPkcs1v15 fuel true k.inner ct, fun _ _ _ => rfl⟩,
    fun k msg => ⟨.encryptOaepTyped D MGD k.inner msg k.label, fun _ _ _ => rfl⟩,
    fun k ct => ⟨.decryptOaepTyped fuel D MGD true k.inner ct k.label, fun _ _ _ => rfl⟩,
    fun k msg => ⟨.signPkcs1v15Typed fuel true k.inner k.pfx (D.hash msg), fun _ _ _ => ⟨rfl, rfl⟩⟩,
    fun k msg => ⟨.signPssTyped fuel D false k.inner (D.hash msg) k.saltLen, fun _ _ _ => ⟨rfl, rfl⟩⟩,
    fun k prehash => ⟨.signPssTyped fuel D false k.inner prehash k.saltLen, fun _ _ _ => rfl⟩,
    fun k msg => ⟨.signPssTyped fuel D true k.inner (D.hash msg) k.saltLen, fun _ _ _ => ⟨rfl, rfl⟩⟩,
    fun k prehash => ⟨.signPssTyped fuel D true k.inner prehash k.saltLen, fun _ _ _ => rfl⟩⟩
  · cases P with
    | pkcs1v15Encrypt => exact ⟨.encryptPkcs1v15 fuel k msg, fun _ _ _ => rfl⟩
    | oaep P => exact ⟨.encryptOaep k msg P.digest P.mgfDigest P.label, fun _ _ _ => rfl⟩
  · cases P with
    | pkcs1v15Encrypt => exact ⟨.decryptPkcs1v15 fuel true k ct, fun _ _ _ => rfl⟩
    | oaep P => exact ⟨.decryptOaep fuel true k ct P.digest P.mgfDigest P.label, fun _ _ _ => rfl⟩
  · cases S with
    | pkcs1v15Sign S => exact ⟨.signPkcs1v15 fuel S true k hashed, fun _ _ _ => rfl⟩
    | pss S => exact ⟨.signPss fuel S.blinded k hashed S.saltLen S.digest, fun _ _ _ => rfl⟩

/-- C96: every request only calls the generator, in the order and with the sizes of `Request.Calls`; the answers determine
the outcome for every generator; and a call that fails is the last and makes the outcome the generator error. -/
theorem C96_only_calls (q : Request) : OnlyCalls q.Calls q.op := only_request q

/-- C96: without blinding, decrypting and PKCS#1 v1.5 signing leave the generator alone. -/
theorem C96_unblinded {σ : Type} (R : RngImpl σ) (s : σ) (q : Request) (h : ∀ cs, q.Calls cs → cs = []) :
    (q.op σ R s).2 = s := by
  obtain ⟨cs, h1, _, h3, _⟩ := C96_only_calls q σ R s
  rw [h cs h3] at h1
  exact Calls.nil_eq h1

example : (∀ cs, (Request.decryptPkcs1v15 8 false Ex.key [1, 2, 3]).Calls cs → cs = []) ∧
    (∀ cs, (Request.decryptOaepTyped 8 Ex.hash4 Ex.hash4 false Ex.key [1, 2, 3] none).Calls cs → cs = []) ∧
    (∀ cs, (Request.signPkcs1v15Typed 8 false Ex.key [] [1, 2, 3]).Calls cs → cs = []) :=
  ⟨fun _ h => h.1 rfl, fun _ h => h.1 rfl, fun _ h => h.1 rfl⟩

/-- C96: requests made in turn of one generator: the calls fall into one run for each request, and each outcome is what the
answers to its own run determine. -/
theorem C96_in_turn {σ : Type} (R : RngImpl σ) : ∀ (qs : List Request) (s : σ), ∃ css : List (List Call),
    Calls R s css.flatten (inTurn R qs s).2 ∧ Explained qs css (inTurn R qs s).1
  | [], s => ⟨[], .nil s, .nil⟩
  | q :: qs, s => by
    obtain ⟨cs, h1, h2, h3, _⟩ := C96_only_calls q σ R s
    obtain ⟨css, g1, g2⟩ := C96_in_turn R qs (q.op σ R s).2
    exact ⟨cs :: css, h1.append g1, .cons q cs _ qs css _ h3 h2 g2⟩

/-- C96: the outcomes of requests made in turn of one perfect generator are independent. -/
theorem C96_independent (q : Request) (r : Res Bytes) (qs : List Request) (rs : List (Res Bytes)) :
    chance (q :: qs) (r :: rs) = chance [q] [r] * chance qs rs := chance_cons q r qs rs

/-- C96: so the probability of a sequence of outcomes is the product of those of each. -/
theorem C96_product : ∀ (qs : List Request) (rs : List (Res Bytes)), qs.length = rs.length →
    chance qs rs = (List.zipWith (fun q r => chance [q] [r]) qs rs).prod
  | [], [], _ => by
    classical
    rw [chance_eq, askAll, Ask.mean_done, if_pos rfl]; rfl
  | q :: qs, r :: rs, h => by
    rw [C96_independent, C96_product qs rs (by simpa using h), List.zipWith_cons_cons, List.prod_cons]
  | [], _ :: _, h => by simp at h
  | _ :: _, [], h => by simp at h

/-- C96: `chance` is a probability distribution over outcomes, as long as no key has modulus zero. -/
theorem C96_total (qs : List Request) (h : ∀ q ∈ qs, q.modulus ≠ 0) : ∑' rs, chance qs rs = 1 := chance_total qs h

theorem rsaDecrypt_large {σ : Type} (R : RngImpl σ) (fuel : Nat) (blinding : Bool) (k : PrivateKey) (c : BoxedUint)
    (h : k.pub.n.val ≤ c.val) (s : σ) : gen.rsaDecrypt R fuel blinding k c s = (.err .decryption, s) := by
  unfold gen.rsaDecrypt
  rw [if_pos (by unfold BoxedUint.ge BoxedUint.lt; simpa using h)]
  rfl

/-- A step that does not call, then one that leaves the generator alone. -/
theorem quiet_res {σ α β : Type} {r : Res α} {f : α → Gen σ β} {s : σ} (h : ∀ a, r = .ok a → (f a s).2 = s) :
    (((liftM r : Gen σ α) >>= f) s).2 = s := by
  rcases r with a | e | k | _
  · exact h a rfl
  all_goals rfl

theorem quiet_large {σ β : Type} (R : RngImpl σ) (fuel : Nat) (blinding : Bool) (k : PrivateKey) (c : BoxedUint)
    (h : k.pub.n.val ≤ c.val) (s : σ) (f : BoxedUint → Gen σ β) :
    ((gen.rsaDecryptAndCheck R fuel k blinding c >>= f) s).2 = s := by
  show (Gen.bind (Gen.bind (gen.rsaDecrypt R fuel blinding k c) _) f s).2 = s
  unfold Gen.bind
  rw [rsaDecrypt_large R fuel blinding k c h s]

theorem large_of_ok {b : Bytes} {bits n : Nat} {c : BoxedUint} (h : fromBeSlice b bits = .ok c) (hn : n ≤ os2ip b) :
    n ≤ c.val := by
  obtain ⟨_, h2, rfl⟩ := fromBeSlice_eq_ok_iff.mp h
  rw [wrap_val_of_lt (lt_of_lt_of_le h2 (Nat.pow_le_pow_right (by norm_num) (le_limbsFor bits))), beVal_eq_os2ip]
  exact hn

/-- C96: a message too long to encrypt, a ciphertext of the wrong length and one that is no residue are refused before the
generator is called. -/
theorem C96_refused {σ : Type} (R : RngImpl σ) (s : σ) :
    (∀ fuel key msg, octetLen key.n.val < msg.length + 11 → ((Request.encryptPkcs1v15 fuel key msg).op σ R s).2 = s) ∧
    (∀ key msg dg mg label, octetLen key.n.val < msg.length + 2 * dg.outputSize + 2 →
      ((Request.encryptOaep key msg dg mg label).op σ R s).2 = s) ∧
    (∀ D MGD key msg label, octetLen key.n.val < msg.length + 2 * D.outLen + 2 →
      ((Request.encryptOaepTyped D MGD key msg label).op σ R s).2 = s) ∧
    (∀ fuel b k ct, k.pub.n.val ≤ os2ip ct → ((Request.decryptPkcs1v15 fuel b k ct).op σ R s).2 = s) ∧
    (∀ fuel b k ct dg mg label, ct.length ≠ octetLen k.pub.n.val ∨ k.pub.n.val ≤ os2ip ct →
      ((Request.decryptOaep fuel b k ct dg mg label).op σ R s).2 = s) ∧
    (∀ fuel D MGD b k ct label, ct.length ≠ octetLen k.pub.n.val ∨ k.pub.n.val ≤ os2ip ct →
      ((Request.decryptOaepTyped fuel D MGD b k ct label).op σ R s).2 = s) := by
  refine ⟨fun fuel key msg h => ?_, fun key msg dg mg label h => ?_, fun D MGD key msg label h => ?_, fun fuel b k ct h => ?_,
    fun fuel b k ct dg mg label h => ?_, fun fuel D MGD b k ct label h => ?_⟩
  · refine quiet_res fun _ _ => ?_
    show (Gen.bind (gen.pkcs1v15EncryptPad R fuel msg key.size) _ s).2 = s
    unfold Gen.bind gen.pkcs1v15EncryptPad
    rw [if_pos (by rw [size_eq_octetLen]; omega)]
    rfl
  · refine quiet_res fun _ _ => ?_
    show (Gen.bind (gen.oaepEncrypt R msg dg mg label key.size) _ s).2 = s
    unfold Gen.bind gen.oaepEncrypt
    by_cases hl : (label.getD []).length ≥ maxLabelLen
    · rw [if_pos hl]; rfl
    · rw [if_neg hl]
      unfold gen.oaepEncryptInternal
      rw [if_pos (by rw [size_eq_octetLen]; omega)]
      rfl
  · refine quiet_res fun _ _ => ?_
    show (Gen.bind (gen.oaepEncryptDigest R msg D MGD label key.size) _ s).2 = s
    unfold Gen.bind gen.oaepEncryptDigest
    by_cases hl : (label.getD []).length ≥ maxLabelLen
    · rw [if_pos hl]; rfl
    · rw [if_neg hl]
      unfold gen.oaepEncryptInternal
      rw [if_pos (by rw [size_eq_octetLen]; omega)]
      rfl
  · exact quiet_res fun _ _ => quiet_res fun c hc => quiet_large R fuel b k c (large_of_ok hc h) s _
  · show (gen.oaepSchemeDecrypt R fuel b k ct dg mg label s).2 = s
    unfold gen.oaepSchemeDecrypt
    by_cases hl : ct.length ≠ k.pub.size
    · rw [if_pos hl]; rfl
    · rw [if_neg hl]
      rw [size_eq_octetLen] at hl
      exact quiet_res fun c hc => quiet_large R fuel b k c (large_of_ok hc (h.resolve_left hl)) s _
  · refine quiet_res fun _ _ => ?_
    by_cases hl : ct.length ≠ k.pub.size
    · rw [if_pos hl]; rfl
    · rw [if_neg hl]
      rw [size_eq_octetLen] at hl
      exact quiet_res fun c hc => quiet_large R fuel b k c (large_of_ok hc (h.resolve_left hl)) s _

example : octetLen Ex.key.pub.n.val < (List.replicate 17 (7 : UInt8)).length + 11 ∧
    octetLen Ex.key.pub.n.val < (List.replicate 18 (7 : UInt8)).length + 2 * Ex.hash4.outLen + 2 ∧
    ([1, 2, 3] : Bytes).length ≠ octetLen Ex.key.pub.n.val ∧
    Ex.key.pub.n.val ≤ os2ip (List.replicate 27 (255 : UInt8)) := by
  decide +kernel

/-- C96: signing with PSS draws the salt before it looks at the digest: a request refused because the digest has the wrong
length still moves the generator on. -/
theorem C96_pss_spends {σ : Type} (R : RngImpl σ) (s : σ) (fuel : Nat) (b : Bool) (k : PrivateKey) (hashed : Bytes)
    (saltLen : Nat) (dg : DigestState) (hn : k.pub.n.val ≠ 0) (h : hashed.length ≠ dg.outputSize) (salt : Bytes) (s' : σ)
    (hs : R.fill s saltLen = (some salt, s')) :
    (Request.signPss fuel b k hashed saltLen dg).op σ R s = (.err .inputNotHashed, s') := by
  show Gen.bind (gen.tryFill R saltLen) _ s = _
  unfold Gen.bind gen.tryFill
  rw [hs]
  show gen.signPssWithSalt R fuel b k hashed salt dg s' = _
  unfold gen.signPssWithSalt
  have hb : 1 ≤ k.pub.n.bits := by
    by_contra h0
    have h1 := k.pub.n.val_lt_bits
    rw [show k.pub.n.bits = 0 from by omega] at h1
    omega
  have he : subU k.pub.n.bits 1 = .ok (k.pub.n.bits - 1) := if_pos hb
  have hem : emsaPssEncode hashed (k.pub.n.bits - 1) salt dg = .err .inputNotHashed := if_pos h
  rw [he]
  show ((liftM (emsaPssEncode hashed (k.pub.n.bits - 1) salt dg) : Gen σ Bytes) >>= _) s' = _
  rw [hem]
  rfl

example : Ex.key.pub.n.val ≠ 0 ∧ ([1, 2, 3] : Bytes).length ≠ (DigestState.new Ex.hash4).outputSize ∧
    Ex.countingRng.fill 5 8 = (some (List.replicate 8 5), 6) ∧
    (Request.signPss 4 true Ex.key [1, 2, 3] 8 (DigestState.new Ex.hash4)).op Nat Ex.countingRng 5 =
      (.err .inputNotHashed, 6) := by
  decide +kernel

/-- An encryption, a blinded signature and an encryption again in turn: four calls in all, the first of each request where
the one before stopped. -/
example : (inTurn Ex.countingRng [.encryptOaepTyped Ex.hash4 Ex.hash4 Ex.key.pub [1, 2] none,
      .signPssTyped 4 Ex.hash4 true Ex.key [1, 2, 3, 4] 4, .encryptPkcs1v15 4 Ex.key.pub [9]] 0).2 = 4 := by
  decide +kernel

/-- A script for one encryption: the seed.  It is used up and the request succeeds, so this outcome has positive
probability. -/
example : ∃ c : Bytes, inTurn scripted [.encryptOaepTyped Ex.hash4 Ex.hash4 Ex.key.pub [1, 2] none]
      (some [.octets 4 (some [1, 2, 3, 4])]) = ([.ok c], some []) ∧
    0 < chance [.encryptOaepTyped Ex.hash4 Ex.hash4 Ex.key.pub [1, 2] none] [.ok c] := by
  have h : ∃ c : Bytes, inTurn scripted [.encryptOaepTyped Ex.hash4 Ex.hash4 Ex.key.pub [1, 2] none]
      (some [.octets 4 (some [1, 2, 3, 4])]) = ([.ok c], some []) := by
    have h0 : (match inTurn scripted [.encryptOaepTyped Ex.hash4 Ex.hash4 Ex.key.pub [1, 2] none]
        (some [.octets 4 (some [1, 2, 3, 4])]) with | ([.ok _], some []) => true | _ => false) = true := by decide +kernel
    split at h0
    · next c hc => exact ⟨c, hc⟩
    · cases h0
  obtain ⟨c, hc⟩ := h
  refine ⟨c, hc, lt_of_lt_of_le ?_ (ENNReal.le_tsum ⟨_, hc⟩)⟩
  simp [weight, Call.weight]

example : ∑' rs, chance [.encryptPkcs1v15 4 Ex.key.pub [9], .signPss 4 true Ex.key [1, 2, 3, 4] 4 (DigestState.new Ex.hash4)] rs
    = 1 := C96_total _ (by simp; decide +kernel)

end RSA
