import Verif.Proof.Words
import Verif.Spec.Words
import Verif.Props.Pkcs1v15
import Verif.Props.ExampleKeys

/-! C103: what the size of a machine word changes. -/
namespace RSA
open Spec
open words (PubKey)
open BoxedUint (beBytes beVal beVal_lt beVal_eq_os2ip i2osp_eq pow256)

/-- A `BoxedUint` of the other model files, as one of the parametrised model. -/
def BoxedUint.atWord8 (x : BoxedUint) : words.Uint 8 := ⟨x.nlimbs, x.val, x.isLt⟩

/-- A public key of the other model files, as one of the parametrised model. -/
def PublicKey.atWord8 (k : PublicKey) (hk : k.n.val % 2 = 1) : PubKey 8 := ⟨k.n.atWord8, k.e.atWord8, hk⟩

theorem wordsFor_iff {w : Nat} (hw : 0 < w) (len l : Nat) : WordsFor w len l ↔ max 1 (divCeil len w) = l := by
  have hiff := fun j => words.Uint.divCeil_le_iff hw len j
  constructor
  · rintro ⟨h1, h2, h3⟩
    apply le_antisymm
    · exact max_le h1 ((hiff l).mpr h2)
    · exact h3 _ (le_max_left _ _) ((hiff _).mp (le_max_right _ _))
  · rintro rfl
    exact ⟨le_max_left _ _, (hiff _).mp (le_max_right _ _), fun j hj h => max_le hj ((hiff j).mpr h)⟩

theorem fromBeSlice_word8 (b : Bytes) (bits : Nat) :
    words.Uint.fromBeSlice 8 b bits = (BoxedUint.fromBeSlice b bits >>= fun x => .ok x.atWord8) := by
  unfold words.Uint.fromBeSlice BoxedUint.fromBeSlice
  split
  · rfl
  · dsimp only
    have : (words.Uint.wrap (w := 8) (words.Uint.limbsFor 8 bits) (beVal b)).bits =
      (BoxedUint.wrap (BoxedUint.limbsFor bits) (beVal b)).bits := rfl
    rw [this]
    split <;> rfl

theorem rsaEncrypt_word8 (k : PublicKey) (hk : k.Coherent) (ho : k.n.val % 2 = 1) (m : BoxedUint) :
    words.rsaEncrypt (k.atWord8 ho) m.atWord8 = (rsaEncrypt k m >>= fun x => .ok x.atWord8) := by
  rw [words.rsaEncrypt_any (by norm_num), rsaEncrypt_eq k hk]
  rfl

/-- C103: with words of eight octets the parametrised functions are those of the rest of the model. -/
theorem C103_word8 (k : PublicKey) (hk : k.Coherent) (ho : k.n.val % 2 = 1) :
    (∀ (S : pkcs1v15.Pkcs1v15Sign) hashed sig,
      words.Pkcs1v15Sign.verify S (k.atWord8 ho) hashed sig = S.verify k hashed sig) ∧
    (∀ (S : pss.Pss) hashed sig, words.Pss.verify S (k.atWord8 ho) hashed sig = S.verify k hashed sig) ∧
    (∀ (D : HashFn) pfx prehash sig, words.pkcs1v15VerifyBytes (k.atWord8 ho) pfx prehash sig =
      (pkcs1v15.Signature.tryFrom sig >>= fun s => pkcs1v15.VerifyingKey.verifyPrehash (D := D) ⟨k, pfx⟩ prehash s)) ∧
    (∀ D saltLen prehash sig, words.pssVerifyBytes D (k.atWord8 ho) saltLen prehash sig =
      (pss.Signature.tryFrom sig >>= fun s => pss.VerifyingKey.verifyPrehash (D := D) ⟨k, saltLen⟩ prehash s)) ∧
    (∀ b, words.sigTryFrom 8 b = (pkcs1v15.Signature.tryFrom b >>= fun s => .ok s.inner.atWord8) ∧
      words.sigTryFrom 8 b = (pss.Signature.tryFrom b >>= fun s => .ok s.inner.atWord8)) ∧
    (∀ s : BoxedUint, words.sigToBytes s.atWord8 = (pkcs1v15.Signature.mk s).toBytes ∧
      words.sigToBytes s.atWord8 = (pss.Signature.mk s).toBytes) := by
  have h1 : ∀ pfx hashed (s : BoxedUint),
      words.pkcs1v15Verify (k.atWord8 ho) pfx hashed s.atWord8 = pkcs1v15.verify k pfx hashed s := by
    intro pfx hashed s
    unfold words.pkcs1v15Verify pkcs1v15.verify
    dsimp only
    rw [rsaEncrypt_word8 k hk]
    cases rsaEncrypt k s <;> rfl
  have h2 : ∀ D hashed (s : BoxedUint) saltLen,
      words.pssVerifyDigest D (k.atWord8 ho) hashed s.atWord8 saltLen = pss.verifyDigest D k hashed s saltLen := by
    intro D hashed s saltLen
    unfold words.pssVerifyDigest pss.verifyDigest
    dsimp only
    rw [rsaEncrypt_word8 k hk]
    cases rsaEncrypt k s <;> rfl
  have h3 : ∀ b, words.sigTryFrom 8 b = (pkcs1v15.Signature.tryFrom b >>= fun s => .ok s.inner.atWord8) := by
    intro b
    unfold words.sigTryFrom pkcs1v15.Signature.tryFrom
    cases lenBitsU32 b.length with
    | ok bits => simp only [Res.ok_bind, fromBeSlice_word8]; cases BoxedUint.fromBeSlice b bits <;> rfl
    | _ => rfl
  have h4 : ∀ b, words.sigTryFrom 8 b = (pss.Signature.tryFrom b >>= fun s => .ok s.inner.atWord8) := by
    intro b
    unfold words.sigTryFrom pss.Signature.tryFrom
    cases lenBitsU32 b.length with
    | ok bits => simp only [Res.ok_bind, fromBeSlice_word8]; cases BoxedUint.fromBeSlice b bits <;> rfl
    | _ => rfl
  refine ⟨?_, ?_, ?_, ?_, fun b => ⟨h3 b, h4 b⟩, fun s => ⟨rfl, rfl⟩⟩
  · intro S hashed sig
    unfold words.Pkcs1v15Sign.verify pkcs1v15.Pkcs1v15Sign.verify
    cases S.checkHashLen hashed with
    | ok u =>
      simp only [Res.ok_bind]
      cases lenBitsU32 sig.length with
      | ok bits =>
        simp only [Res.ok_bind, fromBeSlice_word8]
        cases BoxedUint.fromBeSlice sig bits with
        | ok s => exact h1 _ _ s
        | _ => rfl
      | _ => rfl
    | _ => rfl
  · intro S hashed sig
    unfold words.Pss.verify pss.Pss.verify
    cases lenBitsU32 sig.length with
    | ok bits =>
      simp only [Res.ok_bind, fromBeSlice_word8]
      cases BoxedUint.fromBeSlice sig bits with
      | ok s =>
        simp only [Res.ok_bind]
        unfold words.pssVerify pss.verify
        rw [rsaEncrypt_word8 k hk]
        cases rsaEncrypt k s <;> rfl
      | _ => rfl
    | _ => rfl
  · intro D pfx prehash sig
    unfold words.pkcs1v15VerifyBytes
    rw [h3]
    cases pkcs1v15.Signature.tryFrom sig with
    | ok s => exact h1 _ _ s.inner
    | _ => rfl
  · intro D saltLen prehash sig
    unfold words.pssVerifyBytes
    rw [h4]
    cases pss.Signature.tryFrom sig with
    | ok s => exact h2 _ _ s.inner _
    | _ => rfl

variable {w w' : Nat}

/-- C103: exactly which signature strings PKCS#1 v1.5 verification accepts on a machine with words of `w` octets. -/
theorem C103_pkcs1v15 (hw : 0 < w) (K : PubKey w) (S : pkcs1v15.Pkcs1v15Sign) (hashed sig : Bytes)
    (h29 : sig.length < 2 ^ 29) :
    (words.Pkcs1v15Sign.verify S K hashed sig = .ok () ↔
      (∀ l, S.hashLen = some l → hashed.length = l) ∧ os2ip sig < K.n.val ∧ WordsFor w sig.length K.n.nlimbs ∧
      ∃ em, emsaPkcs1v15 (S.pfx ++ hashed) (octetLen K.n.val) = some em ∧
        i2osp (os2ip sig ^ K.e.val % K.n.val) (octetLen K.n.val) = some em) ∧
    (words.Pkcs1v15Sign.verify S K hashed sig = .ok () ∨
      words.Pkcs1v15Sign.verify S K hashed sig = .err .verification ∨
      words.Pkcs1v15Sign.verify S K hashed sig = .err .inputNotHashed) := by
  have hiff := wordsFor_iff hw sig.length K.n.nlimbs
  have hlt : os2ip sig ^ K.e.val % K.n.val < 256 ^ K.size := (Nat.mod_lt _ K.pos).trans K.lt_pow
  rw [words.Pkcs1v15Sign_verify_eq, hiff, ← K.size_eq, i2osp_eq _ _ hlt]
  unfold pkcs1v15.Pkcs1v15Sign.checkHashLen
  have hmain : (words.pkcs1v15VerifyBytes K S.pfx hashed sig = .ok () ↔
        os2ip sig < K.n.val ∧ max 1 (divCeil sig.length w) = K.n.nlimbs ∧
        ∃ em, emsaPkcs1v15 (S.pfx ++ hashed) K.size = some em ∧
          some (beBytes K.size (os2ip sig ^ K.e.val % K.n.val)) = some em) ∧
      (words.pkcs1v15VerifyBytes K S.pfx hashed sig = .ok () ∨
        words.pkcs1v15VerifyBytes K S.pfx hashed sig = .err .verification) := by
    rw [words.pkcs1v15VerifyBytes_eq hw K _ _ _ h29, pkcs1v15SignUnpad_eq _ _ _ _ (BoxedUint.beBytes_length _ _),
      beVal_eq_os2ip]
    by_cases h1 : os2ip sig < K.n.val ∧ max 1 (divCeil sig.length w) = K.n.nlimbs
    · rw [if_pos h1]
      by_cases h2 : emsaPkcs1v15 (S.pfx ++ hashed) K.size = some (beBytes K.size (os2ip sig ^ K.e.val % K.n.val))
      · rw [if_pos h2]
        exact ⟨⟨fun _ => ⟨h1.1, h1.2, _, h2, rfl⟩, fun _ => rfl⟩, Or.inl rfl⟩
      · rw [if_neg h2]
        refine ⟨⟨fun h => (by cases h), ?_⟩, Or.inr rfl⟩
        rintro ⟨-, -, em, h3, h4⟩
        exact absurd (h3.trans h4.symm) h2
    · rw [if_neg h1]
      exact ⟨⟨fun h => (by cases h), fun h => absurd ⟨h.1, h.2.1⟩ h1⟩, Or.inr rfl⟩
  cases hl : S.hashLen with
  | none =>
    simp only [Res.ok_bind]
    refine ⟨?_, hmain.2.elim Or.inl fun h => Or.inr (Or.inl h)⟩
    rw [hmain.1]
    simp
  | some l =>
    by_cases hll : hashed.length = l
    · simp only [hll, ne_eq, not_true_eq_false, if_false, Res.ok_bind]
      refine ⟨?_, hmain.2.elim Or.inl fun h => Or.inr (Or.inl h)⟩
      rw [hmain.1]
      simp
    · simp only [ne_eq, hll, not_false_eq_true, if_true]
      refine ⟨⟨fun h => (by cases h), fun h => absurd (h.1 l rfl) hll⟩, Or.inr (Or.inr rfl)⟩

/-- C103: PSS verification of a string has one outcome on every machine. -/
theorem C103_pss (hw : 0 < w) (hw' : 0 < w') (K : PubKey w) (K' : PubKey w') (hn : K.n.val = K'.n.val)
    (he : K.e.val = K'.e.val) (S : pss.Pss) (hashed sig : Bytes) (h29 : sig.length < 2 ^ 29) :
    words.Pss.verify S K hashed sig = words.Pss.verify S K' hashed sig := by
  rw [words.Pss_verify_eq hw S K hashed sig h29, words.Pss_verify_eq hw' S K' hashed sig h29, K.size_eq, K'.size_eq,
    words.Uint.bits_eq_size, words.Uint.bits_eq_size, hn, he]

/-- C103: a verifying key of either scheme refuses a string that does not take as many words as the modulus; on all
machines where it does, the outcome is the same. -/
theorem C103_typed (hw : 0 < w) (hw' : 0 < w') (K : PubKey w) (K' : PubKey w') (hn : K.n.val = K'.n.val)
    (he : K.e.val = K'.e.val) (D : HashFn) (pfx prehash sig : Bytes) (saltLen : Nat) (h29 : sig.length < 2 ^ 29) :
    (¬ WordsFor w sig.length K.n.nlimbs →
      words.pkcs1v15VerifyBytes K pfx prehash sig = .err .verification ∧
      words.pssVerifyBytes D K saltLen prehash sig = .err .verification) ∧
    (WordsFor w sig.length K.n.nlimbs → WordsFor w' sig.length K'.n.nlimbs →
      words.pkcs1v15VerifyBytes K pfx prehash sig = words.pkcs1v15VerifyBytes K' pfx prehash sig ∧
      words.pssVerifyBytes D K saltLen prehash sig = words.pssVerifyBytes D K' saltLen prehash sig) := by
  rw [wordsFor_iff hw, wordsFor_iff hw', words.pkcs1v15VerifyBytes_eq hw _ _ _ _ h29,
    words.pssVerifyBytes_eq hw _ _ _ _ _ h29, words.pkcs1v15VerifyBytes_eq hw' _ _ _ _ h29,
    words.pssVerifyBytes_eq hw' _ _ _ _ _ h29, K.size_eq, K'.size_eq, words.Uint.bits_eq_size,
    words.Uint.bits_eq_size, hn, he]
  constructor
  · intro h
    rw [if_neg fun h' => h h'.2, if_neg fun h' => h h'.2]
    exact ⟨rfl, rfl⟩
  · intro h h'
    simp only [h, h', and_true, and_self]

theorem Spec.WordsFor.le_iff {len l : Nat} (h : WordsFor w len l) {j : Nat} (hj : 1 ≤ j) : len ≤ w * j ↔ l ≤ j :=
  ⟨h.2.2 j hj, fun h' => h.2.1.trans (Nat.mul_le_mul_left _ h')⟩

/-- Strings that take as many words as the modulus do so in words that are a multiple as long. -/
theorem Spec.WordsFor.wider {len k l l' : Nat} (hw : 0 < w') (hd : w ∣ w') (h1 : WordsFor w len l) (h2 : WordsFor w k l)
    (h3 : WordsFor w' k l') : WordsFor w' len l' := by
  obtain ⟨m, rfl⟩ := hd
  have hm : 1 ≤ m := Nat.pos_of_ne_zero fun h => by simp [h] at hw
  have hiff : ∀ j, 1 ≤ j → (len ≤ w * m * j ↔ k ≤ w * m * j) := by
    intro j hj
    have : 1 ≤ m * j := Nat.mul_pos hm hj
    rw [Nat.mul_assoc, h1.le_iff this, h2.le_iff this]
  exact ⟨h3.1, (hiff l' h3.1).mpr h3.2.1, fun j hj h => h3.2.2 j hj ((hiff j hj).mp h)⟩

/-- C103: what a machine accepts, a machine with longer words accepts, the key being stored without spare words. -/
theorem C103_wider (hw : 0 < w) (hw' : 0 < w') (hd : w ∣ w') (K : PubKey w) (K' : PubKey w')
    (hn : K.n.val = K'.n.val) (he : K.e.val = K'.e.val) (hK : WordsFor w (octetLen K.n.val) K.n.nlimbs)
    (hK' : WordsFor w' (octetLen K'.n.val) K'.n.nlimbs) (D : HashFn) (S : pkcs1v15.Pkcs1v15Sign)
    (pfx prehash sig : Bytes) (saltLen : Nat) (h29 : sig.length < 2 ^ 29) :
    (words.Pkcs1v15Sign.verify S K prehash sig = .ok () → words.Pkcs1v15Sign.verify S K' prehash sig = .ok ()) ∧
    (words.pkcs1v15VerifyBytes K pfx prehash sig = .ok () → words.pkcs1v15VerifyBytes K' pfx prehash sig = .ok ()) ∧
    (words.pssVerifyBytes D K saltLen prehash sig = .ok () → words.pssVerifyBytes D K' saltLen prehash sig = .ok ()) := by
  have hty := C103_typed hw hw' K K' hn he D
  rw [← hn] at hK'
  have key : ∀ pfx, (words.pkcs1v15VerifyBytes K pfx prehash sig = .ok () →
        words.pkcs1v15VerifyBytes K' pfx prehash sig = .ok ()) ∧
      (words.pssVerifyBytes D K saltLen prehash sig = .ok () →
        words.pssVerifyBytes D K' saltLen prehash sig = .ok ()) := by
    intro pfx
    obtain ⟨h1, h2⟩ := hty pfx prehash sig saltLen h29
    by_cases h : WordsFor w sig.length K.n.nlimbs
    · obtain ⟨h3, h4⟩ := h2 h (h.wider hw' hd hK hK')
      rw [h3, h4]
      exact ⟨id, id⟩
    · obtain ⟨h3, h4⟩ := h1 h
      rw [h3, h4]
      exact ⟨fun h => (by cases h), fun h => (by cases h)⟩
  refine ⟨?_, (key pfx).1, (key pfx).2⟩
  rw [words.Pkcs1v15Sign_verify_eq, words.Pkcs1v15Sign_verify_eq]
  cases S.checkHashLen prehash with
  | ok u => exact (key S.pfx).1
  | _ => exact fun h => (by cases h)

/-- C103: an accepted string is as long as the modulus when both are counted in words (or empty, for a modulus of one
word). -/
theorem C103_lengths (hw : 0 < w) (K : PubKey w) (hK : WordsFor w (octetLen K.n.val) K.n.nlimbs) (D : HashFn)
    (pfx prehash sig : Bytes) (saltLen : Nat) (h29 : sig.length < 2 ^ 29)
    (h : words.pkcs1v15VerifyBytes K pfx prehash sig = .ok () ∨ words.pssVerifyBytes D K saltLen prehash sig = .ok ()) :
    (sig.length + w - 1) / w = (octetLen K.n.val + w - 1) / w ∨ (sig = [] ∧ octetLen K.n.val ≤ w) := by
  have hW : WordsFor w sig.length K.n.nlimbs := by
    by_contra hc
    obtain ⟨h1, h2⟩ := (C103_typed hw hw K K rfl rfl D pfx prehash sig saltLen h29).1 hc
    rcases h with h | h
    · rw [h1] at h; cases h
    · rw [h2] at h; cases h
  rw [wordsFor_iff hw] at hW hK
  have hk : 1 ≤ octetLen K.n.val := by
    have := K.lt_pow
    rw [K.size_eq] at this
    have h0 := K.pos
    by_contra hc
    rw [show octetLen K.n.val = 0 by omega] at this
    simp at this; omega
  have hd : 1 ≤ divCeil (octetLen K.n.val) w := by
    unfold divCeil
    exact Nat.div_pos (by omega) hw
  by_cases hs : sig.length = 0
  · right
    have hs' := List.length_eq_zero_iff.mp hs
    refine ⟨hs', ?_⟩
    have : divCeil sig.length w = 0 := by rw [hs]; unfold divCeil; exact Nat.div_eq_of_lt (by omega)
    rw [this] at hW
    have h1 : divCeil (octetLen K.n.val) w ≤ 1 := by omega
    have := (words.Uint.divCeil_le_iff hw _ _).mp h1
    omega
  · left
    have : 1 ≤ divCeil sig.length w := by unfold divCeil; exact Nat.div_pos (by omega) hw
    have hh : divCeil sig.length w = divCeil (octetLen K.n.val) w := by omega
    unfold divCeil at hh
    rwa [Nat.add_sub_assoc (by omega), Nat.add_sub_assoc (by omega)]

/-- C103: a signature read from the octets a signer makes and written with `to_bytes` on one machine is accepted on
another exactly if what was written takes there as many words as the modulus. -/
theorem C103_to_bytes (hw : 0 < w) (hw' : 0 < w') (K : PubKey w) (K' : PubKey w')
    (hn : K.n.val = K'.n.val) (he : K.e.val = K'.e.val) (hK : WordsFor w (octetLen K.n.val) K.n.nlimbs)
    (D : HashFn) (pfx prehash s : Bytes) (saltLen : Nat) (hs : s.length = octetLen K.n.val)
    (h29 : w * K.n.nlimbs < 2 ^ 29) :
    ∃ sg, words.sigTryFrom w s = .ok sg ∧ (words.sigToBytes sg).length = w * K.n.nlimbs ∧
      (words.pkcs1v15VerifyBytes K pfx prehash s = .ok () →
        (words.pkcs1v15VerifyBytes K' pfx prehash (words.sigToBytes sg) = .ok () ↔
          WordsFor w' (w * K.n.nlimbs) K'.n.nlimbs)) ∧
      (words.pssVerifyBytes D K saltLen prehash s = .ok () →
        (words.pssVerifyBytes D K' saltLen prehash (words.sigToBytes sg) = .ok () ↔
          WordsFor w' (w * K.n.nlimbs) K'.n.nlimbs)) := by
  have hl : s.length ≤ w * K.n.nlimbs := by rw [hs]; exact hK.2.1
  have hmax : max 1 (divCeil s.length w) = K.n.nlimbs := by rw [hs]; exact (wordsFor_iff hw _ _).mp hK
  refine ⟨_, words.sigTryFrom_eq hw (by omega), ?_, ?_⟩
  · unfold words.sigToBytes words.Uint.toBeBytes
    rw [BoxedUint.beBytes_length, words.Uint.wrap_nlimbs, hmax]
  have hlen : (words.sigToBytes (words.Uint.wrap (w := w) (max 1 (divCeil s.length w)) (beVal s))).length =
      w * K.n.nlimbs := by
    unfold words.sigToBytes words.Uint.toBeBytes
    rw [BoxedUint.beBytes_length, words.Uint.wrap_nlimbs, hmax]
  have hval : beVal (words.sigToBytes (words.Uint.wrap (w := w) (max 1 (divCeil s.length w)) (beVal s))) = beVal s := by
    unfold words.sigToBytes words.Uint.toBeBytes
    rw [BoxedUint.beVal_beBytes, words.Uint.parse_val hw, words.Uint.wrap_nlimbs, hmax]
    exact Nat.mod_eq_of_lt ((beVal_lt s).trans_le (Nat.pow_le_pow_right (by norm_num) hl))
  have hlim : max 1 (divCeil s.length w) = K.n.nlimbs ↔ True := by simp [hmax]
  rw [words.pkcs1v15VerifyBytes_eq hw _ _ _ _ (by omega), words.pssVerifyBytes_eq hw _ _ _ _ _ (by omega),
    words.pkcs1v15VerifyBytes_eq hw' _ _ _ _ (by omega), words.pssVerifyBytes_eq hw' _ _ _ _ _ (by omega),
    wordsFor_iff hw', hlen, hval, K.size_eq, K'.size_eq, words.Uint.bits_eq_size, words.Uint.bits_eq_size, hn, he]
  simp only [hmax, and_true]
  constructor
  all_goals
    intro h
    by_cases h1 : beVal s < K'.n.val
    · rw [if_pos h1] at h
      by_cases h2 : max 1 (divCeil (w * K.n.nlimbs) w') = K'.n.nlimbs
      · rw [if_pos ⟨h1, h2⟩]; exact ⟨fun _ => h2, fun _ => h⟩
      · rw [if_neg fun h' => h2 h'.2]; exact ⟨fun h => (by cases h), fun h => absurd h h2⟩
    · rw [if_neg h1] at h; cases h

/-- C103: written on a 64-bit machine, a signature is accepted on a 32-bit one exactly if the octets of the modulus leave,
divided by eight, no remainder or more than four; written on a 32-bit machine it is always accepted on a 64-bit one. -/
theorem C103_interop (K : PubKey 8) (K' : PubKey 4)
    (hn : K.n.val = K'.n.val) (he : K.e.val = K'.e.val) (hK : WordsFor 8 (octetLen K.n.val) K.n.nlimbs)
    (hK' : WordsFor 4 (octetLen K'.n.val) K'.n.nlimbs)
    (D : HashFn) (pfx prehash s : Bytes) (saltLen : Nat) (hs : s.length = octetLen K.n.val)
    (h29 : octetLen K.n.val < 2 ^ 28) :
    (words.pkcs1v15VerifyBytes K pfx prehash s = .ok () ↔ words.pkcs1v15VerifyBytes K' pfx prehash s = .ok ()) ∧
    (words.pssVerifyBytes D K saltLen prehash s = .ok () ↔ words.pssVerifyBytes D K' saltLen prehash s = .ok ()) ∧
    ∃ sg sg', words.sigTryFrom 8 s = .ok sg ∧ words.sigTryFrom 4 s = .ok sg' ∧
      (words.pkcs1v15VerifyBytes K pfx prehash s = .ok () →
        (words.pkcs1v15VerifyBytes K' pfx prehash (words.sigToBytes sg) = .ok () ↔
          octetLen K.n.val % 8 = 0 ∨ 4 < octetLen K.n.val % 8) ∧
        words.pkcs1v15VerifyBytes K pfx prehash (words.sigToBytes sg') = .ok ()) ∧
      (words.pssVerifyBytes D K saltLen prehash s = .ok () →
        (words.pssVerifyBytes D K' saltLen prehash (words.sigToBytes sg) = .ok () ↔
          octetLen K.n.val % 8 = 0 ∨ 4 < octetLen K.n.val % 8) ∧
        words.pssVerifyBytes D K saltLen prehash (words.sigToBytes sg') = .ok ()) := by
  have hl := (wordsFor_iff (by norm_num) _ _).mp hK
  have hl' := (wordsFor_iff (by norm_num) _ _).mp hK'
  rw [← hn] at hl'
  have hk : 1 ≤ octetLen K.n.val := by
    have := K.lt_pow
    rw [K.size_eq] at this
    have h0 := K.pos
    by_contra hc
    rw [show octetLen K.n.val = 0 by omega] at this
    simp at this; omega
  unfold divCeil at hl hl'
  have hsame := (C103_typed (w := 8) (w' := 4) (by norm_num) (by norm_num) K K' hn he D pfx prehash s saltLen
    (by omega)).2 (by rw [hs]; exact hK) (by rw [hs, hn]; exact hK')
  obtain ⟨sg, h1, -, h2, h3⟩ := C103_to_bytes (w := 8) (w' := 4) (by norm_num) (by norm_num) K K' hn he hK D pfx prehash
    s saltLen hs (by omega)
  obtain ⟨sg', h1', -, h2', h3'⟩ := C103_to_bytes (w := 4) (w' := 8) (by norm_num) (by norm_num) K' K hn.symm he.symm hK' D
    pfx prehash s saltLen (by rw [hs, hn]) (by omega)
  have hiff : WordsFor 4 (8 * K.n.nlimbs) K'.n.nlimbs ↔ octetLen K.n.val % 8 = 0 ∨ 4 < octetLen K.n.val % 8 := by
    rw [wordsFor_iff (by norm_num)]
    unfold divCeil
    omega
  have hall : WordsFor 8 (4 * K'.n.nlimbs) K.n.nlimbs := by
    rw [wordsFor_iff (by norm_num)]
    unfold divCeil
    omega
  refine ⟨by rw [hsame.1], by rw [hsame.2], sg, sg', h1, h1', fun h => ⟨?_, ?_⟩, fun h => ⟨?_, ?_⟩⟩
  · rw [h2 h, hiff]
  · exact (h2' (hsame.1 ▸ h)).mpr hall
  · rw [h3 h, hiff]
  · exact (h3' (hsame.2 ▸ h)).mpr hall

/-- C103: the ciphertext strings that `from_be_slice` takes for a modulus of `l` words: those no longer than the words. -/
theorem C103_ciphertext (hw : 0 < w) (l : Nat) (hl : 1 ≤ l) (c : Bytes) :
    (c.length ≤ w * l → ∃ x, words.Uint.fromBeSlice w c (8 * w * l) = .ok x ∧ x.val = os2ip c ∧ x.nlimbs = l) ∧
    (w * l < c.length → words.Uint.fromBeSlice w c (8 * w * l) = .err (.decode .inputSize)) := by
  have hdc : divCeil (8 * w * l) 8 = w * l := by unfold divCeil; rw [Nat.mul_assoc]; omega
  unfold words.Uint.fromBeSlice
  rw [hdc, words.Uint.limbsFor_mul hw hl]
  constructor
  · intro h
    have hv : beVal c < 2 ^ (8 * w * l) := by
      have := beVal_lt c
      rw [pow256] at this
      refine this.trans_le (Nat.pow_le_pow_right (by norm_num) ?_)
      rw [Nat.mul_assoc]; omega
    have hx : (words.Uint.wrap (w := w) l (beVal c)).val = beVal c := words.Uint.wrap_val_of_lt hv
    refine ⟨words.Uint.wrap l (beVal c), ?_, hx.trans (beVal_eq_os2ip c), rfl⟩
    rw [if_neg (by omega)]
    dsimp only
    rw [if_neg]
    rw [Nat.not_lt, words.Uint.bits_le_iff, hx]
    exact hv
  · intro h
    rw [if_pos h]

/-! Examples: the modulus of 27 octets, four words of eight octets and seven of four. -/

/-- The example key on a 64-bit machine. -/
def Ex.pub8 : PubKey 8 := Ex.pub.atWord8 (by decide)
/-- The example key on a 32-bit machine. -/
def Ex.pub4 : PubKey 4 :=
  ⟨words.Uint.wrap 7 ((2 ^ 89 - 1) * (2 ^ 127 - 1)), words.Uint.wrap 1 65537, by decide +kernel⟩

theorem Ex.octets27 : octetLen Ex.pub8.n.val = 27 ∧ octetLen Ex.pub4.n.val = 27 :=
  ⟨(Ex.pub8.size_eq).symm.trans (by decide +kernel), (Ex.pub4.size_eq).symm.trans (by decide +kernel)⟩

theorem Ex.pub8_words : WordsFor 8 (octetLen Ex.pub8.n.val) Ex.pub8.n.nlimbs := by
  rw [wordsFor_iff (by norm_num), Ex.octets27.1]; decide

theorem Ex.pub4_words : WordsFor 4 (octetLen Ex.pub4.n.val) Ex.pub4.n.nlimbs := by
  rw [wordsFor_iff (by norm_num), Ex.octets27.2]; decide

/-- What a signing key of the example makes on a 64-bit machine. -/
def Ex.wordSig : pkcs1v15.Signature :=
  match pkcs1v15.SigningKey.signPrehash (D := Ex.hash4) ⟨Ex.key, [9]⟩ [1, 2, 3, 4] with
  | .ok s => s
  | _ => ⟨BoxedUint.one⟩

/-- C103: a genuine signature, written out on a 64-bit machine, that a 32-bit machine refuses: the same integer on as many
octets as the modulus is accepted by both. -/
theorem C103_refused :
    pkcs1v15.SigningKey.signPrehash (D := Ex.hash4) ⟨Ex.key, [9]⟩ [1, 2, 3, 4] = .ok Ex.wordSig ∧
    words.pkcs1v15VerifyBytes Ex.pub8 [9] [1, 2, 3, 4] Ex.wordSig.toBytes = .ok () ∧
    words.pkcs1v15VerifyBytes Ex.pub4 [9] [1, 2, 3, 4] Ex.wordSig.toBytes = .err .verification ∧
    (Ex.wordSig.toBytes.length = 32 ∧ Ex.wordSig.toBytes.take 5 = [0, 0, 0, 0, 0]) ∧
    words.pkcs1v15VerifyBytes Ex.pub8 [9] [1, 2, 3, 4] (Ex.wordSig.toBytes.drop 5) = .ok () ∧
    words.pkcs1v15VerifyBytes Ex.pub4 [9] [1, 2, 3, 4] (Ex.wordSig.toBytes.drop 5) = .ok () := by
  decide +kernel

example := C103_word8 Ex.pub rfl (by decide)
example := (C103_pkcs1v15 (w := 4) (by norm_num) Ex.pub4 ⟨some 4, [9]⟩ [1, 2, 3, 4] (Ex.wordSig.toBytes.drop 5)
  (by decide +kernel)).1.mp (by decide +kernel)
example := C103_pss (w := 8) (w' := 4) (by norm_num) (by norm_num) Ex.pub8 Ex.pub4 (by decide +kernel) (by decide +kernel)
  ⟨false, DigestState.new Ex.hash4, 3⟩ [1, 2, 3, 4] (List.replicate 27 7) (by decide)
example := C103_typed (w := 8) (w' := 4) (by norm_num) (by norm_num) Ex.pub8 Ex.pub4 (by decide +kernel) (by decide +kernel)
  Ex.hash4 [9] [1, 2, 3, 4] Ex.wordSig.toBytes 3 (by decide +kernel)
example := C103_wider (w := 4) (w' := 8) (by norm_num) (by norm_num) (by norm_num) Ex.pub4 Ex.pub8 (by decide +kernel)
  (by decide +kernel) Ex.pub4_words Ex.pub8_words Ex.hash4 ⟨some 4, [9]⟩ [9] [1, 2, 3, 4] (Ex.wordSig.toBytes.drop 5) 3
  (by decide +kernel)
example := C103_lengths (w := 4) (by norm_num) Ex.pub4 Ex.pub4_words Ex.hash4 [9] [1, 2, 3, 4]
  (Ex.wordSig.toBytes.drop 5) 3 (by decide +kernel) (Or.inl (by decide +kernel))
example := C103_to_bytes (w := 8) (w' := 4) (by norm_num) (by norm_num) Ex.pub8 Ex.pub4 (by decide +kernel)
  (by decide +kernel) Ex.pub8_words Ex.hash4 [9] [1, 2, 3, 4] (Ex.wordSig.toBytes.drop 5) 3
  (by rw [Ex.octets27.1]; decide +kernel) (by decide +kernel)
example := C103_interop Ex.pub8 Ex.pub4 (by decide +kernel) (by decide +kernel) Ex.pub8_words Ex.pub4_words Ex.hash4 [9]
  [1, 2, 3, 4] (Ex.wordSig.toBytes.drop 5) 3 (by rw [Ex.octets27.1]; decide +kernel) (by rw [Ex.octets27.1]; norm_num)
example := (C103_ciphertext (w := 4) (by norm_num) 7 (by norm_num) (List.replicate 29 0)).2 (by decide)
example := (C103_ciphertext (w := 8) (by norm_num) 4 (by norm_num) (List.replicate 29 0)).1 (by decide)

end RSA
