import Verif.Spec.Generator
import Verif.Proof.Res

/- The operations of Model/Gen.lean and those they repeat have the same outcomes. -/
namespace RSA
open BoxedUint Spec

variable {σ α β : Type}

theorem same_bind {m : Gen σ α} {f : α → Gen σ β} {s : σ} {r : Res (α × σ)} {g : α × σ → Res (β × σ)} (h : Same (m s) r)
    (hf : ∀ a s', Same (f a s') (g (a, s'))) : Same ((m >>= f) s) (r >>= g) := by
  show Same (Gen.bind m f s) _
  unfold Gen.bind
  rcases r with ⟨a, s'⟩ | e | k | _ <;> simp only [Same] at h
  · rw [h]; exact hf a s'
  all_goals
    rcases hm : m s with ⟨x, s1⟩
    rw [hm] at h
    simp only at h
    subst h
    rfl

theorem same_res {r : Res α} {f : α → Gen σ β} {s : σ} {g : α → Res (β × σ)} (hf : ∀ a, Same (f a s) (g a)) :
    Same (((liftM r : Gen σ α) >>= f) s) (r >>= g) := by
  show Same (Gen.bind (Gen.lift r) f s) _
  rcases r with a | e | k | _
  · exact hf a
  all_goals rfl

theorem out_bind {m : Gen σ α} {f : α → Gen σ β} {s : σ} {r : Res (α × σ)} {g : α × σ → Res β} (h : Same (m s) r)
    (hf : ∀ a s', (f a s').1 = g (a, s')) : ((m >>= f) s).1 = r >>= g := by
  show (Gen.bind m f s).1 = _
  unfold Gen.bind
  rcases r with ⟨a, s'⟩ | e | k | _ <;> simp only [Same] at h
  · rw [h]; exact hf a s'
  all_goals
    rcases hm : m s with ⟨x, s1⟩
    rw [hm] at h
    simp only at h
    subst h
    rfl

theorem out_res {r : Res α} {f : α → Gen σ β} {s : σ} {g : α → Res β} (hf : ∀ a, (f a s).1 = g a) :
    (((liftM r : Gen σ α) >>= f) s).1 = r >>= g := by
  show (Gen.bind (Gen.lift r) f s).1 = _
  rcases r with a | e | k | _
  · exact hf a
  all_goals rfl

namespace gen

theorem same_tryFill (R : RngImpl σ) (n : Nat) (s : σ) : Same (tryFill R n s) (R.tryFill s n) := by
  unfold tryFill RngImpl.tryFill
  rcases R.fill s n with ⟨_ | b, s'⟩ <;> rfl

theorem same_ok (a : α) (s : σ) : Same (Gen.lift (.ok a) s) (.ok (a, s)) := rfl

theorem same_rerollByte (R : RngImpl σ) : ∀ fuel s, Same (rerollByte R fuel s) (RSA.rerollByte R fuel s)
  | 0, _ => rfl
  | fuel + 1, s => by
    refine same_bind (same_tryFill R 1 s) fun b s => same_res fun el => ?_
    by_cases h : el = 0
    · rw [if_pos h, if_pos h]; exact same_rerollByte R fuel s
    · rw [if_neg h, if_neg h]; rfl

theorem same_fixZeros (R : RngImpl σ) (fuel : Nat) : ∀ data s, Same (fixZeros R fuel data s) (RSA.fixZeros R fuel data s)
  | [], _ => rfl
  | el :: rest, s => by
    have h1 : Same ((if el = 0 then rerollByte R fuel else Gen.lift (.ok el) : Gen σ UInt8) s)
        (if el = 0 then RSA.rerollByte R fuel s else .ok (el, s)) := by
      by_cases h : el = 0
      · rw [if_pos h, if_pos h]; exact same_rerollByte R fuel s
      · rw [if_neg h, if_neg h]; rfl
    have h2 := same_bind (f := fun el => fixZeros R fuel rest >>= fun rest => Gen.lift (.ok (el :: rest)))
      (g := fun x => RSA.fixZeros R fuel rest x.2 >>= fun y => .ok (x.1 :: y.1, y.2)) h1
      (fun a s' => same_bind (same_fixZeros R fuel rest s') fun b s'' => rfl)
    have h3 : RSA.fixZeros R fuel (el :: rest) s = ((if el = 0 then RSA.rerollByte R fuel s else .ok (el, s)) >>= fun x =>
        RSA.fixZeros R fuel rest x.2 >>= fun y => .ok (x.1 :: y.1, y.2)) := by
      rw [RSA.fixZeros]
      by_cases h : el = 0
      · simp only [if_pos h]
      · simp only [if_neg h]
    rw [h3]
    exact h2

theorem same_nonZeroRandomBytes (R : RngImpl σ) (fuel len : Nat) (s : σ) :
    Same (nonZeroRandomBytes R fuel len s) (RSA.nonZeroRandomBytes R fuel s len) :=
  same_bind (same_tryFill R len s) fun b s => same_fixZeros R fuel b s

theorem same_pkcs1v15EncryptPad (R : RngImpl σ) (fuel : Nat) (msg : Bytes) (k : Nat) (s : σ) :
    Same (pkcs1v15EncryptPad R fuel msg k s) (RSA.pkcs1v15EncryptPad R fuel s msg k) := by
  unfold pkcs1v15EncryptPad RSA.pkcs1v15EncryptPad
  by_cases h : msg.length + 11 > k
  · rw [if_pos h, if_pos h]; rfl
  · rw [if_neg h, if_neg h]
    exact same_res fun _ => same_res fun _ => same_res fun _ => same_res fun _ =>
      same_bind (same_nonZeroRandomBytes R fuel _ s) fun _ _ => same_res fun _ => same_res fun _ => same_res fun _ => rfl

theorem same_oaepEncryptInternal (R : RngImpl σ) (msg pHash : Bytes) (hSize k : Nat)
    (mgf : Bytes → Bytes → Res (Bytes × Bytes)) (s : σ) :
    Same (oaepEncryptInternal R msg pHash hSize k mgf s) (RSA.oaepEncryptInternal R s msg pHash hSize k mgf) := by
  unfold oaepEncryptInternal RSA.oaepEncryptInternal
  by_cases h : msg.length + 2 * hSize + 2 > k
  · rw [if_pos h, if_pos h]; rfl
  · rw [if_neg h, if_neg h]
    exact same_res fun ⟨_, _⟩ => same_res fun ⟨_, _⟩ => same_bind (same_tryFill R _ s) fun _ _ => same_res fun _ =>
      same_res fun _ => same_res fun _ => same_res fun _ => same_res fun _ => same_res fun _ => same_res fun _ =>
      same_res fun ⟨_, _⟩ => rfl

theorem same_blindLoop (R : RngImpl σ) (n : BoxedUint) : ∀ fuel s, Same (blindLoop R n fuel s) (RSA.blindLoop R n fuel s)
  | 0, _ => rfl
  | fuel + 1, s => by
    show Same (Gen.bind _ _ s) _
    unfold Gen.bind tryRandomMod RSA.blindLoop
    rcases R.randMod s n.val with ⟨_ | rv, s'⟩
    · rfl
    · dsimp only
      rcases h : ((if (wrap n.nlimbs rv).isZero then oneWithPrecision n.prec else wrap n.nlimbs rv).invMod n) with _ | ir
      · exact same_blindLoop R n fuel s'
      · rfl

theorem same_blind (R : RngImpl σ) (fuel : Nat) (key : PublicKey) (c : BoxedUint) (p : MontyParams) (s : σ) :
    Same (blind R fuel key c p s) (RSA.blind R fuel s key c p) := by
  unfold blind RSA.blind
  by_cases h : (!(key.n.beq p.modulus.toBoxedUint)) = true
  · rw [if_pos h, if_pos h]; rfl
  · rw [if_neg h, if_neg h]
    refine same_bind (same_blindLoop R key.n fuel s) fun ⟨r, ir⟩ s => same_res fun _ => same_res fun b => ?_
    by_cases h1 : b.prec ≠ key.nBitsPrecision
    · simp only [if_pos h1]; rfl
    · simp only [if_neg h1]
      by_cases h2 : ir.prec ≠ key.nBitsPrecision
      · simp only [if_pos h2]; rfl
      · simp only [if_neg h2]; rfl

theorem res_assoc {γ : Type} (x : Res α) (f : α → Res β) (g : β → Res γ) : ((x >>= f) >>= g) = x >>= fun a => f a >>= g := by
  cases x <;> rfl

/-- The generator passed on, or not. -/
def pass (blinding : Bool) (s : σ) : Option σ := if blinding then some s else none

theorem same_rsaDecrypt (R : RngImpl σ) (fuel : Nat) (blinding : Bool) (k : PrivateKey) (c : BoxedUint) (s : σ) :
    Same (rsaDecrypt R fuel blinding k c s)
      (RSA.rsaDecrypt R fuel (pass blinding s) k c >>= fun x => .ok (x.1, x.2.getD s)) := by
  unfold rsaDecrypt RSA.rsaDecrypt
  by_cases h : c.ge k.pub.n = true
  · rw [if_pos h, if_pos h]; rfl
  · rw [if_neg h, if_neg h]
    cases blinding with
    | true =>
      simp only [pass, if_true]
      rw [res_assoc]
      refine same_bind (same_blind R fuel k.pub c k.pub.nParams s) fun ⟨b, u⟩ s' => ?_
      dsimp only
      rw [res_assoc]
      refine same_res fun c => ?_
      rw [res_assoc]
      refine same_res fun m => ?_
      rw [res_assoc]
      refine same_res fun m => ?_
      rw [res_assoc]
      show Same (Gen.lift (unblind m u k.pub.nParams) s') _
      rcases unblind m u k.pub.nParams with _ | _ | _ | _ <;> rfl
    | false =>
      simp only [pass, Bool.false_eq_true, if_false]
      rw [res_assoc]
      refine same_res fun c => ?_
      rw [res_assoc]
      refine same_res fun m => ?_
      rw [res_assoc]
      show Same (Gen.lift (m.shorten k.pub.nParams.prec) s) _
      rcases m.shorten k.pub.nParams.prec with _ | _ | _ | _ <;> rfl

theorem same_rsaDecryptAndCheck (R : RngImpl σ) (fuel : Nat) (k : PrivateKey) (blinding : Bool) (c : BoxedUint) (s : σ) :
    Same (rsaDecryptAndCheck R fuel k blinding c s)
      (RSA.rsaDecryptAndCheck R fuel k (pass blinding s) c >>= fun x => .ok (x.1, x.2.getD s)) := by
  have h := same_bind (f := fun m => (liftM (rsaEncrypt k.pub m) : Gen σ BoxedUint) >>= fun check =>
      if !(c.beq check) then Gen.lift (.err .internal) else Gen.lift (.ok m))
    (g := fun x => rsaEncrypt k.pub x.1 >>= fun check => if !(c.beq check) then .err .internal else .ok (x.1, x.2))
    (same_rsaDecrypt R fuel blinding k c s) (fun m s' => same_res fun check => by
      by_cases h : (!(c.beq check)) = true
      · rw [if_pos h, if_pos h]; rfl
      · rw [if_neg h, if_neg h]; rfl)
  have h2 : (RSA.rsaDecryptAndCheck R fuel k (pass blinding s) c >>= fun x => .ok (x.1, x.2.getD s)) =
      ((RSA.rsaDecrypt R fuel (pass blinding s) k c >>= fun x => .ok (x.1, x.2.getD s)) >>= fun x =>
        rsaEncrypt k.pub x.1 >>= fun check => if !(c.beq check) then .err .internal else .ok (x.1, x.2)) := by
    unfold RSA.rsaDecryptAndCheck
    rw [res_assoc, res_assoc]
    congr 1
    funext ⟨m, o⟩
    rw [Res.ok_bind, res_assoc]
    congr 1
    funext check
    by_cases h : (!(c.beq check)) = true
    · simp only [if_pos h]; rfl
    · simp only [if_neg h]; rfl
  rw [h2]
  exact h

/-- What follows the private operation sees only its value. -/
theorem out_check (R : RngImpl σ) (fuel : Nat) (k : PrivateKey) (blinding : Bool) (c : BoxedUint) (s : σ)
    {f : BoxedUint → Gen σ β} {g : BoxedUint → Res β} (hf : ∀ m s', (f m s').1 = g m) :
    ((rsaDecryptAndCheck R fuel k blinding c >>= f) s).1 =
      RSA.rsaDecryptAndCheck R fuel k (pass blinding s) c >>= fun x => g x.1 := by
  rw [out_bind (g := fun x => g x.1) (same_rsaDecryptAndCheck R fuel k blinding c s) (fun a s' => hf a s'), res_assoc]
  rfl

theorem same_last (r : Res α) (s : σ) : Same ((liftM r : Gen σ α) s) (r >>= fun c => .ok (c, s)) := by
  rcases r with _ | _ | _ | _ <;> rfl

theorem out_same {x : Res α × σ} {r : Res (α × σ)} (h : Same x r) : x.1 = (r >>= fun y => .ok y.1) := by
  rcases r with ⟨a, s⟩ | _ | _ | _
  · rw [show x = (.ok a, s) from h]; rfl
  all_goals exact h

theorem same_pkcs1v15Encrypt (R : RngImpl σ) (fuel : Nat) (key : PublicKey) (msg : Bytes) (s : σ) :
    Same (pkcs1v15Encrypt R fuel key msg s) (pkcs1v15.encrypt R fuel s key msg) :=
  same_res fun _ => same_bind (same_pkcs1v15EncryptPad R fuel msg key.size s) fun _ _ => same_res fun _ => same_res fun _ =>
    same_last _ _

theorem same_oaepSchemeEncrypt (R : RngImpl σ) (key : PublicKey) (msg : Bytes) (dg mg : DigestState) (label : Option Bytes)
    (s : σ) : Same (oaepSchemeEncrypt R key msg dg mg label s) (oaep.encrypt R s key msg dg mg label) := by
  refine same_res fun _ => same_bind ?_ fun _ _ => same_res fun _ => same_res fun _ => same_last _ _
  unfold oaepEncrypt RSA.oaepEncrypt
  by_cases h : (label.getD []).length ≥ maxLabelLen
  · rw [if_pos h, if_pos h]; rfl
  · rw [if_neg h, if_neg h]
    exact same_oaepEncryptInternal R _ _ _ _ _ s

theorem same_oaepSchemeEncryptDigest (R : RngImpl σ) (D MGD : HashFn) (key : PublicKey) (msg : Bytes) (label : Option Bytes)
    (s : σ) : Same (oaepSchemeEncryptDigest R D MGD key msg label s) (oaep.encryptDigest R D MGD s key msg label) := by
  refine same_res fun _ => same_bind ?_ fun _ _ => same_res fun _ => same_res fun _ => same_last _ _
  unfold oaepEncryptDigest RSA.oaepEncryptDigest
  by_cases h : (label.getD []).length ≥ maxLabelLen
  · rw [if_pos h, if_pos h]; rfl
  · rw [if_neg h, if_neg h]
    exact same_oaepEncryptInternal R _ _ _ _ _ s

theorem out_pkcs1v15Sign (R : RngImpl σ) (fuel : Nat) (blinding : Bool) (k : PrivateKey) (pfx hashed : Bytes) (s : σ) :
    (pkcs1v15Sign R fuel blinding k pfx hashed s).1 = pkcs1v15.sign R fuel (pass blinding s) k pfx hashed :=
  out_res fun _ => out_res fun _ =>
  out_check (g := fun m => uintToZeroizingBePad m k.pub.size) R fuel k blinding _ s (by intros; rfl)

theorem out_signPssWithSalt (R : RngImpl σ) (fuel : Nat) (blinding : Bool) (k : PrivateKey) (hashed salt : Bytes)
    (dg : DigestState) (s : σ) : (signPssWithSalt R fuel blinding k hashed salt dg s).1 =
      pss.signPssWithSalt R fuel (pass blinding s) k hashed salt dg :=
  out_res fun _ => out_res fun _ => out_res fun _ =>
  out_check (g := fun m => uintToZeroizingBePad m k.pub.size) R fuel k blinding _ s (by intros; rfl)

theorem out_signPssWithSaltDigest (R : RngImpl σ) (fuel : Nat) (D : HashFn) (blinding : Bool) (k : PrivateKey)
    (hashed salt : Bytes) (s : σ) : (signPssWithSaltDigest R fuel D blinding k hashed salt s).1 =
      pss.signPssWithSaltDigest R fuel D (pass blinding s) k hashed salt :=
  out_res fun _ => out_res fun _ => out_res fun _ =>
  out_check (g := fun m => uintToZeroizingBePad m k.pub.size) R fuel k blinding _ s (by intros; rfl)

end gen

theorem out_request (q : Request) (R : RngImpl σ) (s : σ) : (q.op σ R s).1 = q.outcome R s := by
  open gen in
  cases q with
  | encryptPkcs1v15 fuel key msg => exact out_same (same_pkcs1v15Encrypt R fuel key msg s)
  | encryptOaep key msg dg mg label => exact out_same (same_oaepSchemeEncrypt R key msg dg mg label s)
  | encryptOaepTyped D MGD key msg label => exact out_same (same_oaepSchemeEncryptDigest R D MGD key msg label s)
  | decryptPkcs1v15 fuel b k ct =>
    exact out_res fun _ => out_res fun _ =>
      out_check (g := fun em => uintToZeroizingBePad em k.pub.size >>= fun em => pkcs1v15EncryptUnpad em k.pub.size)
        R fuel k b _ s (by intro _ _; exact out_res fun _ => rfl)
  | decryptOaep fuel b k ct dg mg label =>
    show (oaepSchemeDecrypt R fuel b k ct dg mg label s).1 = oaep.decrypt R fuel _ k ct dg mg label
    unfold oaepSchemeDecrypt oaep.decrypt
    by_cases h : ct.length ≠ k.pub.size
    · rw [if_pos h, if_pos h]; rfl
    · rw [if_neg h, if_neg h]
      exact out_res fun _ =>
      out_check (g := fun em => uintToZeroizingBePad em k.pub.size >>= fun em => oaepDecrypt em dg mg label k.pub.size)
        R fuel k b _ s (by intro _ _; exact out_res fun _ => rfl)
  | decryptOaepTyped fuel D MGD b k ct label =>
    refine out_res fun _ => ?_
    by_cases h : ct.length ≠ k.pub.size
    · simp only [if_pos h]; rfl
    · simp only [if_neg h]
      exact out_res fun _ =>
      out_check (g := fun em => uintToZeroizingBePad em k.pub.size >>= fun em => oaepDecryptDigest em D MGD label k.pub.size)
        R fuel k b _ s (by intro _ _; exact out_res fun _ => rfl)
  | signPkcs1v15 fuel S b k hashed => exact out_res fun _ => out_pkcs1v15Sign R fuel b k S.pfx hashed s
  | signPkcs1v15Typed fuel b k pfx hashed => exact out_pkcs1v15Sign R fuel b k pfx hashed s
  | signPss fuel b k hashed saltLen dg =>
    exact out_bind (same_tryFill R saltLen s) fun salt s' => out_signPssWithSalt R fuel b k hashed salt dg s'
  | signPssTyped fuel D b k hashed saltLen =>
    exact out_bind (same_tryFill R saltLen s) fun salt s' => out_signPssWithSaltDigest R fuel D b k hashed salt s'

end RSA
