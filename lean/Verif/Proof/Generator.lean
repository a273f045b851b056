import Verif.Spec.Generator
import Verif.Proof.PublicKey

/- Closure of `OnlyCalls` under the steps operations are built from. -/
namespace RSA
open BoxedUint Spec

namespace Spec

theorem Calls.append {σ : Type} {R : RngImpl σ} {s t u : σ} {cs ds : List Call} (h1 : Calls R s cs t) (h2 : Calls R t ds u) :
    Calls R s (cs ++ ds) u := by
  induction h1 with
  | nil => exact h2
  | octets s n cs s' _ ih => exact .octets s n _ _ (ih h2)
  | number s n cs s' _ ih => exact .number s n _ _ (ih h2)

theorem Calls.split {σ : Type} {R : RngImpl σ} : ∀ {cs ds : List Call} {s u : σ}, Calls R s (cs ++ ds) u →
    ∃ t, Calls R s cs t ∧ Calls R t ds u
  | [], _, s, _, h => ⟨s, .nil s, h⟩
  | c :: cs, ds, s, u, h => by
    cases h with
    | octets _ n _ _ h =>
      obtain ⟨t, h1, h2⟩ := Calls.split h
      exact ⟨t, .octets s n _ _ h1, h2⟩
    | number _ n _ _ h =>
      obtain ⟨t, h1, h2⟩ := Calls.split h
      exact ⟨t, .number s n _ _ h1, h2⟩

theorem Calls.nil_eq {σ : Type} {R : RngImpl σ} {s t : σ} (h : Calls R s [] t) : t = s := by cases h; rfl

end Spec

variable {α β : Type}

theorem only_lift {L : List Call → Prop} (hL : L []) (r : Res α) : OnlyCalls L (fun _ _ => Gen.lift r) := by
  intro σ R s
  refine ⟨[], .nil s, ?_, hL, Or.inl (by simp)⟩
  intro τ R' t t' h
  rw [Calls.nil_eq h]; rfl

theorem only_fill (n : Nat) : OnlyCalls (Once n) (fun _ R => gen.tryFill R n) := by
  intro σ R s
  have hstate : (gen.tryFill R n s).2 = (R.fill s n).2 := by
    unfold gen.tryFill; rcases R.fill s n with ⟨_ | b, s'⟩ <;> rfl
  have hres : ∀ {τ : Type} (R' : RngImpl τ) (t : τ), (R'.fill t n).1 = (R.fill s n).1 →
      gen.tryFill R' n t = ((gen.tryFill R n s).1, (R'.fill t n).2) := by
    intro τ R' t h
    unfold gen.tryFill
    rcases h1 : R.fill s n with ⟨_ | b, s'⟩ <;> rcases h2 : R'.fill t n with ⟨_ | c, t'⟩ <;> rw [h1, h2] at h <;> simp_all
  refine ⟨[.octets n (R.fill s n).1], ?_, ?_, ⟨_, rfl⟩, ?_⟩
  · rw [hstate]; exact .octets s n _ _ (.nil _)
  · intro τ R' t t' h
    generalize hc : [Call.octets n (R.fill s n).1] = cs at h
    cases h with
    | nil => cases hc
    | octets _ m cs _ h =>
      obtain ⟨hc1, rfl⟩ := List.cons.inj hc
      obtain ⟨rfl, ha⟩ := Call.octets.inj hc1
      rw [Calls.nil_eq h]
      exact hres R' t ha.symm
    | number _ m cs _ h => cases hc
  · rcases h : (R.fill s n).1 with _ | b
    · refine Or.inr ⟨⟨[], _, rfl, by simp, rfl⟩, ?_⟩
      show (gen.tryFill R n s).1 = .err .rng
      unfold gen.tryFill
      rcases h1 : R.fill s n with ⟨_ | b, s'⟩
      · rfl
      · rw [h1] at h; cases h
    · exact Or.inl (by simp [Call.Failed])

theorem only_number (n : Nat) : OnlyCalls (fun cs => ∃ a, cs = [.number n a]) (fun _ R => gen.tryRandomMod R n) := by
  intro σ R s
  have hstate : (gen.tryRandomMod R n s).2 = (R.randMod s n).2 := by
    unfold gen.tryRandomMod; rcases R.randMod s n with ⟨_ | b, s'⟩ <;> rfl
  have hres : ∀ {τ : Type} (R' : RngImpl τ) (t : τ), (R'.randMod t n).1 = (R.randMod s n).1 →
      gen.tryRandomMod R' n t = ((gen.tryRandomMod R n s).1, (R'.randMod t n).2) := by
    intro τ R' t h
    unfold gen.tryRandomMod
    rcases h1 : R.randMod s n with ⟨_ | b, s'⟩ <;> rcases h2 : R'.randMod t n with ⟨_ | c, t'⟩ <;> rw [h1, h2] at h <;> simp_all
  refine ⟨[.number n (R.randMod s n).1], ?_, ?_, ⟨_, rfl⟩, ?_⟩
  · rw [hstate]; exact .number s n _ _ (.nil _)
  · intro τ R' t t' h
    generalize hc : [Call.number n (R.randMod s n).1] = cs at h
    cases h with
    | nil => cases hc
    | number _ m cs _ h =>
      obtain ⟨hc1, rfl⟩ := List.cons.inj hc
      obtain ⟨rfl, ha⟩ := Call.number.inj hc1
      rw [Calls.nil_eq h]
      exact hres R' t ha.symm
    | octets _ m cs _ h => cases hc
  · rcases h : (R.randMod s n).1 with _ | b
    · refine Or.inr ⟨⟨[], _, rfl, by simp, rfl⟩, ?_⟩
      show (gen.tryRandomMod R n s).1 = .err .rng
      unfold gen.tryRandomMod
      rcases h1 : R.randMod s n with ⟨_ | b, s'⟩
      · rfl
      · rw [h1] at h; cases h
    · exact Or.inl (by simp [Call.Failed])

theorem only_bind {A B C : List Call → Prop} {m : ∀ σ : Type, RngImpl σ → Gen σ α}
    {f : ∀ σ : Type, RngImpl σ → α → Gen σ β} (hm : OnlyCalls A m) (hf : ∀ a, OnlyCalls B (fun σ R => f σ R a))
    (hA : ∀ x, A x → C x) (hAB : ∀ x y, A x → B y → C (x ++ y)) : OnlyCalls C (fun σ R => (m σ R >>= fun a => f σ R a : Gen σ β)) := by
  intro σ R s
  obtain ⟨cs, h1, h2, h0, h3⟩ := hm σ R s
  have hb : ∀ {τ : Type} (R' : RngImpl τ) (t : τ), (m τ R' >>= fun a => f τ R' a : Gen τ β) t =
      match m τ R' t with
      | (.ok a, s) => f τ R' a s
      | (.err e, s) => (.err e, s)
      | (.panic k, s) => (.panic k, s)
      | (.loop, s) => (.loop, s) := by
    intro τ R' t
    show Gen.bind _ _ t = _
    unfold Gen.bind
    rcases m τ R' t with ⟨_ | _ | _ | _, _⟩ <;> rfl
  rcases hms : m σ R s with ⟨a | e | k | _, s1⟩ <;> rw [hms] at h1 h2 h3
  · have hcs : ∀ c ∈ cs, ¬ c.Failed := by
      rcases h3 with h3 | ⟨-, h3⟩
      · exact h3
      · cases h3
    obtain ⟨ds, g1, g2, g0, g3⟩ := hf a σ R s1
    have hs : (m σ R >>= fun a => f σ R a : Gen σ β) s = f σ R a s1 := by rw [hb, hms]
    refine ⟨cs ++ ds, ?_, ?_, hAB _ _ h0 g0, ?_⟩
    · show Calls R s _ ((m σ R >>= fun a => f σ R a : Gen σ β) s).2
      rw [hs]; exact h1.append g1
    · intro τ R' t t' h
      obtain ⟨u, hu1, hu2⟩ := Calls.split h
      show (m τ R' >>= fun a => f τ R' a : Gen τ β) t = (((m σ R >>= fun a => f σ R a : Gen σ β) s).1, t')
      rw [hs, hb, h2 τ R' t u hu1]
      exact g2 τ R' u t' hu2
    · show _ ∨ _ ∧ ((m σ R >>= fun a => f σ R a : Gen σ β) s).1 = _
      rw [hs]
      rcases g3 with g3 | ⟨⟨pre, c, rfl, g3, g4⟩, g5⟩
      · left
        intro c hc
        rcases List.mem_append.mp hc with hc | hc
        · exact hcs c hc
        · exact g3 c hc
      · refine Or.inr ⟨⟨cs ++ pre, c, by simp, ?_, g4⟩, g5⟩
        intro c hc
        rcases List.mem_append.mp hc with hc | hc
        · exact hcs c hc
        · exact g3 c hc
  all_goals
    refine ⟨cs, ?_, ?_, hA _ h0, ?_⟩
    · show Calls R s _ ((m σ R >>= fun a => f σ R a : Gen σ β) s).2
      rw [hb, hms]; exact h1
    · intro τ R' t t' h
      show (m τ R' >>= fun a => f τ R' a : Gen τ β) t = (((m σ R >>= fun a => f σ R a : Gen σ β) s).1, t')
      rw [hb, hb, hms, h2 τ R' t t' h]
    · show _ ∨ _ ∧ ((m σ R >>= fun a => f σ R a : Gen σ β) s).1 = _
      rw [hb, hms]
      rcases h3 with h3 | ⟨h3, h4⟩
      · exact Or.inl h3
      · first
        | exact Or.inr ⟨h3, congrArg (fun r : Res α => match r with | .err e => (.err e : Res β) | _ => .loop) h4⟩
        | cases h4

theorem only_res {L : List Call → Prop} (hL : L []) {r : Res α} {f : ∀ σ : Type, RngImpl σ → α → Gen σ β}
    (hf : ∀ a, OnlyCalls L (fun σ R => f σ R a)) :
    OnlyCalls L (fun σ R => ((liftM r : Gen σ α) >>= fun a => f σ R a : Gen σ β)) :=
  only_bind (A := Quiet) (m := fun σ _ => (liftM r : Gen σ α)) (only_lift (L := Quiet) rfl r) hf
    (by rintro x rfl; exact hL) (by rintro x y rfl h; exact h)

/-- The rest makes no calls. -/
theorem only_last {A : List Call → Prop} {m : ∀ σ : Type, RngImpl σ → Gen σ α} {f : ∀ σ : Type, RngImpl σ → α → Gen σ β}
    (hm : OnlyCalls A m) (hf : ∀ a, OnlyCalls Quiet (fun σ R => f σ R a)) :
    OnlyCalls A (fun σ R => (m σ R >>= fun a => f σ R a : Gen σ β)) :=
  only_bind hm hf (fun _ h => h) (by rintro x y h rfl; rw [List.append_nil]; exact h)

theorem only_mono {A B : List Call → Prop} {m : Op α} (h : OnlyCalls A m) (hAB : ∀ x, A x → B x) : OnlyCalls B m := by
  intro σ R s
  obtain ⟨cs, h1, h2, h3, h4⟩ := h σ R s
  exact ⟨cs, h1, h2, hAB cs h3, h4⟩

theorem only_ite {L : List Call → Prop} {p : Prop} [Decidable p] {a b : ∀ σ : Type, RngImpl σ → Gen σ α} (ha : OnlyCalls L a)
    (hb : OnlyCalls L b) : OnlyCalls L (fun σ R => if p then a σ R else b σ R) := by
  by_cases h : p
  · have : (fun (σ : Type) (R : RngImpl σ) => if p then a σ R else b σ R) = a := by funext σ R; exact if_pos h
    rw [this]; exact ha
  · have : (fun (σ : Type) (R : RngImpl σ) => if p then a σ R else b σ R) = b := by funext σ R; exact if_neg h
    rw [this]; exact hb

namespace gen

theorem quiet_nil : Quiet [] := rfl

theorem singles_nil : Singles [] := by intro c h; cases h

theorem singles_append {x y : List Call} (hx : Singles x) (hy : Singles y) : Singles (x ++ y) := by
  intro c hc
  rcases List.mem_append.mp hc with h | h
  · exact hx c h
  · exact hy c h

theorem once_singles {x : List Call} (h : Once 1 x) : Singles x := by
  obtain ⟨a, rfl⟩ := h
  intro c hc
  exact ⟨a, by simpa using hc⟩

theorem blinds_nil (b : Bool) (n : Nat) : Blinds b n [] := ⟨fun _ => rfl, by simp⟩

theorem only_rerollByte : ∀ fuel, OnlyCalls Singles (fun _ R => rerollByte R fuel)
  | 0 => only_lift singles_nil _
  | fuel + 1 => only_bind (only_fill 1) (fun _ => only_res singles_nil fun _ =>
      only_ite (only_rerollByte fuel) (only_lift singles_nil _)) (fun _ h => once_singles h)
      (fun _ _ h1 h2 => singles_append (once_singles h1) h2)

theorem only_fixZeros (fuel : Nat) : ∀ data, OnlyCalls Singles (fun _ R => fixZeros R fuel data)
  | [] => only_lift singles_nil _
  | el :: rest => only_bind (m := fun σ R => if el = 0 then rerollByte R fuel else Gen.lift (.ok el))
      (only_ite (only_rerollByte fuel) (only_lift singles_nil _))
      (fun _ => only_last (only_fixZeros fuel rest) fun _ => only_lift quiet_nil _) (fun _ h => h)
      (fun _ _ => singles_append)

theorem only_nonZeroRandomBytes (fuel len : Nat) : OnlyCalls (Padding len) (fun _ R => nonZeroRandomBytes R fuel len) :=
  only_bind (only_fill len) (fun _ => only_fixZeros fuel _) (by rintro x ⟨a, rfl⟩; exact ⟨a, [], rfl, singles_nil⟩)
    (by rintro x y ⟨a, rfl⟩ h; exact ⟨a, y, rfl, h⟩)

/-- The value of a step, known when the step succeeds. -/
theorem only_res' {L : List Call → Prop} (hL : L []) {r : Res α} {f : ∀ σ : Type, RngImpl σ → α → Gen σ β}
    (hf : ∀ a, r = .ok a → OnlyCalls L (fun σ R => f σ R a)) :
    OnlyCalls L (fun σ R => ((liftM r : Gen σ α) >>= fun a => f σ R a : Gen σ β)) := by
  rcases r with a | e | k | _
  · exact hf a rfl
  · exact only_lift hL (.err e)
  · exact only_lift hL (.panic k)
  · exact only_lift hL .loop

theorem only_pkcs1v15EncryptPad (fuel : Nat) (msg : Bytes) (k : Nat) :
    OnlyCalls (fun cs => cs = [] ∨ Padding (k - msg.length - 3) cs) (fun _ R => pkcs1v15EncryptPad R fuel msg k) := by
  refine only_ite (only_lift (Or.inl rfl) _) (only_res' (Or.inl rfl) fun em h1 => only_res' (Or.inl rfl) fun hi h2 =>
    only_res' (Or.inl rfl) fun hi1 h3 => only_res' (Or.inl rfl) fun cur h4 => ?_)
  have hlen : cur.length = k - msg.length - 3 := by
    unfold subU at h2 h3
    unfold slice at h4
    split at h2
    · split at h3
      · split at h4
        · cases h2; cases h3; cases h4
          rw [List.length_drop, List.length_take]
          omega
        · cases h4
      · cases h3
    · cases h2
  rw [← hlen]
  exact only_last (only_mono (only_nonZeroRandomBytes fuel _) fun _ h => Or.inr h) fun _ => only_res quiet_nil fun _ =>
    only_res quiet_nil fun _ => only_res quiet_nil fun _ => only_lift quiet_nil _

theorem only_oaepEncryptInternal (msg pHash : Bytes) (hSize k : Nat) (mgf : Bytes → Bytes → Res (Bytes × Bytes)) :
    OnlyCalls (fun cs => cs = [] ∨ Once hSize cs) (fun _ R => oaepEncryptInternal R msg pHash hSize k mgf) := by
  refine only_ite (only_lift (Or.inl rfl) _) (only_res' (Or.inl rfl) fun ⟨a, b⟩ h1 => only_res' (Or.inl rfl) fun ⟨c, d⟩ h2 => ?_)
  have hlen : c.length = hSize := by
    unfold splitAt at h2
    split at h2
    · cases h2
      rw [List.length_take]; omega
    · cases h2
  dsimp only
  rw [hlen]
  exact only_last (only_mono (only_fill _) fun _ h => Or.inr h) fun _ => only_res quiet_nil fun _ => only_res quiet_nil fun _ =>
    only_res quiet_nil fun _ => only_res quiet_nil fun _ => only_res quiet_nil fun _ => only_res quiet_nil fun _ => only_res quiet_nil fun _ =>
    only_res quiet_nil fun ⟨_, _⟩ => only_lift quiet_nil _

theorem only_blindLoop (n : BoxedUint) : ∀ fuel, OnlyCalls (Blinds true n.val) (fun _ R => blindLoop R n fuel)
  | 0 => only_lift (blinds_nil _ _) _
  | fuel + 1 => only_bind (B := Blinds true n.val) (only_number n.val) (fun rv => by
      dsimp only
      rcases h : ((if (wrap n.nlimbs rv).isZero then oneWithPrecision n.prec else wrap n.nlimbs rv).invMod n) with _ | ir
      · exact only_blindLoop n fuel
      · exact only_lift (blinds_nil _ _) _)
      (by rintro x ⟨a, rfl⟩; exact ⟨by simp, by simp⟩)
      (by
        rintro x y ⟨a, rfl⟩ h
        refine ⟨by simp, fun c hc => ?_⟩
        rcases List.mem_cons.mp hc with rfl | hc
        · exact ⟨a, rfl⟩
        · exact h.2 c hc)

theorem only_blind (fuel : Nat) (key : PublicKey) (c : BoxedUint) (p : MontyParams) :
    OnlyCalls (Blinds true key.n.val) (fun _ R => blind R fuel key c p) :=
  only_ite (only_lift (blinds_nil _ _) _) (only_last (only_blindLoop key.n fuel) fun ⟨_, _⟩ => only_res quiet_nil fun _ =>
    only_res quiet_nil fun _ => only_ite (only_lift quiet_nil _) (only_ite (only_lift quiet_nil _) (only_lift quiet_nil _)))

theorem only_rsaDecrypt (fuel : Nat) (blinding : Bool) (k : PrivateKey) (c : BoxedUint) :
    OnlyCalls (Blinds blinding k.pub.n.val) (fun _ R => rsaDecrypt R fuel blinding k c) := by
  refine only_ite (only_lift (blinds_nil _ _) _) ?_
  cases blinding with
  | true => exact only_last (only_blind fuel _ _ _) fun ⟨_, _⟩ => only_res quiet_nil fun _ => only_res quiet_nil fun _ =>
      only_res quiet_nil fun _ => only_lift quiet_nil _
  | false => exact only_res (blinds_nil _ _) fun _ => only_res (blinds_nil _ _) fun _ => only_lift (blinds_nil _ _) _

theorem only_rsaDecryptAndCheck (fuel : Nat) (k : PrivateKey) (blinding : Bool) (c : BoxedUint) :
    OnlyCalls (Blinds blinding k.pub.n.val) (fun _ R => rsaDecryptAndCheck R fuel k blinding c) :=
  only_last (only_rsaDecrypt fuel blinding k c) fun _ => only_res quiet_nil fun _ => only_ite (only_lift quiet_nil _) (only_lift quiet_nil _)

theorem only_pkcs1v15Sign (fuel : Nat) (blinding : Bool) (k : PrivateKey) (pfx hashed : Bytes) :
    OnlyCalls (Blinds blinding k.pub.n.val) (fun _ R => pkcs1v15Sign R fuel blinding k pfx hashed) :=
  only_res (blinds_nil _ _) fun _ => only_res (blinds_nil _ _) fun _ => only_last (only_rsaDecryptAndCheck fuel k blinding _)
    fun _ => only_lift quiet_nil _

theorem salts_once {len : Nat} {b : Bool} {n : Nat} (x : List Call) (h : Once len x) : Salts len b n x := by
  obtain ⟨a, rfl⟩ := h
  exact ⟨a, [], rfl, blinds_nil _ _⟩

theorem salts_append {len : Nat} {b : Bool} {n : Nat} (x y : List Call) (h : Once len x) (h2 : Blinds b n y) :
    Salts len b n (x ++ y) := by
  obtain ⟨a, rfl⟩ := h
  exact ⟨a, y, rfl, h2⟩

end gen

/-- C96: every request only calls the generator. -/
theorem only_request (q : Request) : OnlyCalls q.Calls q.op := by
  open gen in
  cases q with
  | encryptPkcs1v15 fuel key msg =>
    show OnlyCalls (fun cs => cs = [] ∨ Padding (octetLen key.n.val - msg.length - 3) cs) _
    have hsize : key.size = octetLen key.n.val := size_eq_octetLen key
    rw [← hsize]
    exact only_res (Or.inl rfl) fun _ => only_last (only_pkcs1v15EncryptPad fuel msg _) fun _ => only_res quiet_nil fun _ =>
      only_res quiet_nil fun _ => only_lift quiet_nil _
  | encryptOaep key msg dg mg label =>
    exact only_res (Or.inl rfl) fun _ => only_last (m := fun (σ : Type) (R : RngImpl σ) => gen.oaepEncrypt R msg dg mg label key.size)
      (only_ite (only_lift (Or.inl rfl) _) (only_oaepEncryptInternal _ _ _ _ _)) fun _ => only_res quiet_nil fun _ =>
      only_res quiet_nil fun _ => only_lift quiet_nil _
  | encryptOaepTyped D MGD key msg label =>
    exact only_res (Or.inl rfl) fun _ => only_last (m := fun (σ : Type) (R : RngImpl σ) => gen.oaepEncryptDigest R msg D MGD label key.size)
      (only_ite (only_lift (Or.inl rfl) _) (only_oaepEncryptInternal _ _ _ _ _)) fun _ => only_res quiet_nil fun _ =>
      only_res quiet_nil fun _ => only_lift quiet_nil _
  | decryptPkcs1v15 fuel b k ct =>
    exact only_res (blinds_nil _ _) fun _ => only_res (blinds_nil _ _) fun _ =>
      only_last (only_rsaDecryptAndCheck fuel k b _) fun _ => only_res quiet_nil fun _ => only_lift quiet_nil _
  | decryptOaep fuel b k ct dg mg label =>
    exact only_ite (only_lift (blinds_nil _ _) _) (only_res (blinds_nil _ _) fun _ =>
      only_last (only_rsaDecryptAndCheck fuel k b _) fun _ => only_res quiet_nil fun _ => only_lift quiet_nil _)
  | decryptOaepTyped fuel D MGD b k ct label =>
    exact only_res (blinds_nil _ _) fun _ => only_ite (only_lift (blinds_nil _ _) _) (only_res (blinds_nil _ _) fun _ =>
      only_last (only_rsaDecryptAndCheck fuel k b _) fun _ => only_res quiet_nil fun _ => only_lift quiet_nil _)
  | signPkcs1v15 fuel S b k hashed =>
    exact only_res (blinds_nil _ _) fun _ => only_pkcs1v15Sign fuel b k _ hashed
  | signPkcs1v15Typed fuel b k pfx hashed => exact only_pkcs1v15Sign fuel b k pfx hashed
  | signPss fuel b k hashed saltLen dg =>
    exact only_bind (only_fill saltLen) (fun _ => only_res (blinds_nil _ _) fun _ => only_res (blinds_nil _ _) fun _ =>
      only_res (blinds_nil _ _) fun _ => only_last (only_rsaDecryptAndCheck fuel k b _) fun _ => only_lift quiet_nil _)
      salts_once salts_append
  | signPssTyped fuel D b k hashed saltLen =>
    exact only_bind (only_fill saltLen) (fun _ => only_res (blinds_nil _ _) fun _ => only_res (blinds_nil _ _) fun _ =>
      only_res (blinds_nil _ _) fun _ => only_last (only_rsaDecryptAndCheck fuel k b _) fun _ => only_lift quiet_nil _)
      salts_once salts_append

end RSA
