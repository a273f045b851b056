import Verif.Model.Release
import Verif.Spec.Release

/- Every function compiled without checks does what it does with them, unless a check stops the latter. -/
namespace RSA.rel
open BoxedUint Spec

namespace Same
variable {α β γ : Type}

theorem rfl' (r : Res α) : SameUnlessStopped r r := Or.inl rfl

theorem bind {r s : Res α} {f g : α → Res β} (h : SameUnlessStopped r s) (hf : ∀ a, SameUnlessStopped (f a) (g a)) :
    SameUnlessStopped (r >>= f) (s >>= g) := by
  rcases h with h | h | h
  · subst h
    cases r with
    | ok a => exact hf a
    | err e => exact Or.inl rfl
    | panic k => exact Or.inl rfl
    | loop => exact Or.inl rfl
  · subst h; exact Or.inr (Or.inl rfl)
  · subst h; exact Or.inr (Or.inr rfl)

theorem bind₂ {r s : Res (α × β)} {f g : α × β → Res γ} (h : SameUnlessStopped r s)
    (hf : ∀ a b, SameUnlessStopped (f (a, b)) (g (a, b))) : SameUnlessStopped (r >>= f) (s >>= g) :=
  bind h fun x => hf x.1 x.2

theorem ite {c : Prop} [Decidable c] {a b a' b' : Res α} (h : SameUnlessStopped a b) (h' : SameUnlessStopped a' b') :
    SameUnlessStopped (if c then a else a') (if c then b else b') := by
  by_cases hc : c
  · rwa [if_pos hc, if_pos hc]
  · rwa [if_neg hc, if_neg hc]

/-- An assertion that is gone. -/
theorem asserted {c : Prop} [Decidable c] {a b : Res α} (h : SameUnlessStopped a b) :
    SameUnlessStopped (if c then .panic .assert else a) b := by
  by_cases hc : c
  · rw [if_pos hc]; exact Or.inr (Or.inr rfl)
  · rwa [if_neg hc]

theorem mapErr {r s : Res α} (h : SameUnlessStopped r s) :
    SameUnlessStopped (mapErrMalformed r) (mapErrMalformed s) := by
  rcases h with h | h | h
  · subst h; exact Or.inl rfl
  · subst h; exact Or.inr (Or.inl rfl)
  · subst h; exact Or.inr (Or.inr rfl)

end Same

theorem subU_same (a b : Nat) : SameUnlessStopped (RSA.subU a b) (subU a b) := by
  unfold RSA.subU subU
  by_cases h : b ≤ a
  · rw [if_pos h, if_pos h]; exact Or.inl rfl
  · rw [if_neg h]; exact Or.inr (Or.inl rfl)

theorem addU_same (a b : Nat) : SameUnlessStopped (RSA.addU a b) (addU a b) := by
  unfold RSA.addU addU
  by_cases h : a + b < 2 ^ 64
  · rw [if_pos h, Nat.mod_eq_of_lt h]; exact Or.inl rfl
  · rw [if_neg h]; exact Or.inr (Or.inl rfl)

theorem addU8_same (a b : UInt8) : SameUnlessStopped (RSA.addU8 a b) (addU8 a b) := by
  unfold RSA.addU8 addU8
  by_cases h : a.toNat + b.toNat < 256
  · rw [if_pos h]; exact Or.inl rfl
  · rw [if_neg h]; exact Or.inr (Or.inl rfl)

theorem shrFF_same (n : Nat) : SameUnlessStopped (RSA.shrFF n) (shrFF n) := by
  unfold RSA.shrFF shrFF
  by_cases h : n < 8
  · rw [if_pos h, Nat.mod_eq_of_lt h]; exact Or.inl rfl
  · rw [if_neg h]; exact Or.inr (Or.inl rfl)

theorem lenBitsU32_same (n : Nat) : SameUnlessStopped (RSA.lenBitsU32 n) (lenBitsU32 n) := by
  unfold RSA.lenBitsU32 lenBitsU32
  by_cases h : n % 2 ^ 32 * 8 < 2 ^ 32
  · rw [if_pos h, Nat.mod_eq_of_lt h]; exact Or.inl rfl
  · rw [if_neg h]; exact Or.inr (Or.inl rfl)

theorem lenBitsChecked_same (n : Nat) : SameUnlessStopped (RSA.lenBitsChecked n) (lenBitsChecked n) := by
  unfold RSA.lenBitsChecked lenBitsChecked
  by_cases h : n < 2 ^ 32
  · rw [if_pos h, if_pos h]
    by_cases h' : n * 8 < 2 ^ 32
    · rw [if_pos h', Nat.mod_eq_of_lt h']; exact Or.inl rfl
    · rw [if_neg h']; exact Or.inr (Or.inl rfl)
  · rw [if_neg h, if_neg h]; exact Or.inl rfl

/-- One step of comparing two `do` blocks that differ only in the functions called. -/
macro "same_step" : tactic =>
  `(tactic| first
    | with_reducible exact Same.rfl' _
    | exact subU_same _ _
    | exact addU_same _ _
    | exact addU8_same _ _
    | exact shrFF_same _
    | exact lenBitsU32_same _
    | exact lenBitsChecked_same _
    | assumption
    | refine Same.ite ?_ ?_
    | refine Same.bind₂ ?_ fun _ _ => ?_
    | refine Same.bind ?_ fun _ => ?_)

macro "same" : tactic => `(tactic| repeat' same_step)

theorem leftPad_same (b : Bytes) (n : Nat) : SameUnlessStopped (RSA.leftPad b n) (leftPad b n) := by
  unfold RSA.leftPad leftPad
  same

theorem uintToBePad_same (x : BoxedUint) (n : Nat) : SameUnlessStopped (RSA.uintToBePad x n) (uintToBePad x n) :=
  Same.bind (Same.rfl' _) fun _ => leftPad_same _ _

theorem uintToZeroizingBePad_same (x : BoxedUint) (n : Nat) :
    SameUnlessStopped (RSA.uintToZeroizingBePad x n) (uintToZeroizingBePad x n) :=
  Same.bind (Same.rfl' _) fun _ => leftPad_same _ _

theorem pkcs1v15EncryptPad_same {σ : Type} (R : RngImpl σ) (fuel : Nat) (s : σ) (msg : Bytes) (k : Nat) :
    SameUnlessStopped (RSA.pkcs1v15EncryptPad R fuel s msg k) (pkcs1v15EncryptPad R fuel s msg k) := by
  unfold RSA.pkcs1v15EncryptPad pkcs1v15EncryptPad
  same

theorem pkcs1v15SignPad_same (pfx hashed : Bytes) (k : Nat) :
    SameUnlessStopped (RSA.pkcs1v15SignPad pfx hashed k) (pkcs1v15SignPad pfx hashed k) := by
  unfold RSA.pkcs1v15SignPad pkcs1v15SignPad
  same

theorem pkcs1v15SignUnpad_same (pfx hashed em : Bytes) (k : Nat) :
    SameUnlessStopped (RSA.pkcs1v15SignUnpad pfx hashed em k) (pkcs1v15SignUnpad pfx hashed em k) := by
  unfold RSA.pkcs1v15SignUnpad pkcs1v15SignUnpad
  same

theorem pkcs1v15GeneratePrefix_same (oid : Bytes) (n : Nat) :
    SameUnlessStopped (RSA.pkcs1v15GeneratePrefix oid n) (pkcs1v15GeneratePrefix oid n) := by
  unfold RSA.pkcs1v15GeneratePrefix pkcs1v15GeneratePrefix
  same

theorem emsaPssEncode_same (mHash : Bytes) (emBits : Nat) (salt : Bytes) (hash : DigestState) :
    SameUnlessStopped (RSA.emsaPssEncode mHash emBits salt hash) (emsaPssEncode mHash emBits salt hash) := by
  unfold RSA.emsaPssEncode emsaPssEncode
  same

theorem emsaPssEncodeDigest_same (mHash : Bytes) (emBits : Nat) (salt : Bytes) (D : HashFn) :
    SameUnlessStopped (RSA.emsaPssEncodeDigest mHash emBits salt D) (emsaPssEncodeDigest mHash emBits salt D) := by
  unfold RSA.emsaPssEncodeDigest emsaPssEncodeDigest
  same

theorem emsaPssVerifyPre_same (mHash em : Bytes) (emBits sLen hLen : Nat) :
    SameUnlessStopped (RSA.emsaPssVerifyPre mHash em emBits sLen hLen) (emsaPssVerifyPre mHash em emBits sLen hLen) := by
  unfold RSA.emsaPssVerifyPre emsaPssVerifyPre
  same

theorem emsaPssVerifySalt_same (db : Bytes) (emLen sLen hLen : Nat) :
    SameUnlessStopped (RSA.emsaPssVerifySalt db emLen sLen hLen) (emsaPssVerifySalt db emLen sLen hLen) := by
  unfold RSA.emsaPssVerifySalt emsaPssVerifySalt
  same

theorem emsaPssVerify_same (mHash em : Bytes) (sLen : Nat) (hash : DigestState) (keyBits : Nat) :
    SameUnlessStopped (RSA.emsaPssVerify mHash em sLen hash keyBits) (emsaPssVerify mHash em sLen hash keyBits) := by
  have h1 := emsaPssVerifyPre_same
  have h2 := emsaPssVerifySalt_same
  unfold RSA.emsaPssVerify emsaPssVerify
  repeat' first | same_step | exact h1 _ _ _ _ _ | exact h2 _ _ _ _

theorem emsaPssVerifyDigest_same (mHash em : Bytes) (sLen : Nat) (D : HashFn) (keyBits : Nat) :
    SameUnlessStopped (RSA.emsaPssVerifyDigest mHash em sLen D keyBits) (emsaPssVerifyDigest mHash em sLen D keyBits) := by
  have h1 := emsaPssVerifyPre_same
  have h2 := emsaPssVerifySalt_same
  unfold RSA.emsaPssVerifyDigest emsaPssVerifyDigest
  repeat' first | same_step | exact h1 _ _ _ _ _ | exact h2 _ _ _ _

theorem oaepEncryptInternal_same {σ : Type} (R : RngImpl σ) (s : σ) (msg pHash : Bytes) (hSize k : Nat)
    (mgf : Bytes → Bytes → Res (Bytes × Bytes)) :
    SameUnlessStopped (RSA.oaepEncryptInternal R s msg pHash hSize k mgf)
      (oaepEncryptInternal R s msg pHash hSize k mgf) := by
  unfold RSA.oaepEncryptInternal oaepEncryptInternal
  same

theorem oaepEncrypt_same {σ : Type} (R : RngImpl σ) (s : σ) (msg : Bytes) (dg mg : DigestState) (label : Option Bytes)
    (k : Nat) : SameUnlessStopped (RSA.oaepEncrypt R s msg dg mg label k) (oaepEncrypt R s msg dg mg label k) :=
  Same.ite (Same.rfl' _) (oaepEncryptInternal_same R s msg _ _ k _)

theorem oaepEncryptDigest_same {σ : Type} (R : RngImpl σ) (s : σ) (msg : Bytes) (D MGD : HashFn) (label : Option Bytes)
    (k : Nat) : SameUnlessStopped (RSA.oaepEncryptDigest R s msg D MGD label k) (oaepEncryptDigest R s msg D MGD label k) :=
  Same.ite (Same.rfl' _) (oaepEncryptInternal_same R s msg _ _ k _)

theorem blind_same {σ : Type} (R : RngImpl σ) (fuel : Nat) (s : σ) (key : PublicKey) (c : BoxedUint)
    (nParams : MontyParams) : SameUnlessStopped (RSA.blind R fuel s key c nParams) (blind R fuel s key c nParams) := by
  unfold RSA.blind blind
  refine Same.asserted (Same.bind₂ (Same.rfl' _) fun _ _ => Same.bind (Same.rfl' _) fun _ => Same.bind (Same.rfl' _)
    fun _ => Same.asserted (Same.asserted (Same.rfl' _)))

theorem unblind_same (m u : BoxedUint) (nParams : MontyParams) :
    SameUnlessStopped (RSA.unblind m u nParams) (unblind m u nParams) :=
  Same.asserted (Same.asserted (Same.rfl' _))

theorem rsaDecrypt_same {σ : Type} (R : RngImpl σ) (fuel : Nat) (rng : Option σ) (k : PrivateKey) (c : BoxedUint) :
    SameUnlessStopped (RSA.rsaDecrypt R fuel rng k c) (rsaDecrypt R fuel rng k c) := by
  unfold RSA.rsaDecrypt rsaDecrypt
  refine Same.ite (Same.rfl' _) ?_
  cases rng with
  | none => exact Same.rfl' _
  | some s =>
    refine Same.bind₂ (blind_same R fuel s _ _ _) fun _ _ => ?_
    refine Same.bind (Same.rfl' _) fun _ => Same.bind (Same.rfl' _) fun _ => Same.bind (Same.rfl' _) fun _ => ?_
    exact Same.bind (unblind_same _ _ _) fun _ => Same.rfl' _

theorem rsaDecryptAndCheck_same {σ : Type} (R : RngImpl σ) (fuel : Nat) (k : PrivateKey) (rng : Option σ)
    (c : BoxedUint) :
    SameUnlessStopped (RSA.rsaDecryptAndCheck R fuel k rng c) (rsaDecryptAndCheck R fuel k rng c) :=
  Same.bind₂ (rsaDecrypt_same R fuel rng k c) fun _ _ => Same.rfl' _

theorem precomputeValues_same (d : BoxedUint) (primes : List BoxedUint) :
    SameUnlessStopped (PrivateKey.precomputeValues d primes) (precomputeValues d primes) := by
  unfold PrivateKey.precomputeValues precomputeValues
  refine Same.bind (Same.rfl' _) fun _ => Same.bind (Same.rfl' _) fun _ => Same.bind (Same.rfl' _) fun _ =>
    Same.bind (Same.rfl' _) fun _ => Same.bind (Same.rfl' _) fun _ => Same.bind (Same.rfl' _) fun _ =>
    Same.bind (Same.rfl' _) fun _ => Same.bind (Same.rfl' _) fun _ => Same.bind (Same.rfl' _) fun qm => ?_
  cases qm.invert with
  | none => exact Same.rfl' _
  | some q => exact Same.asserted (Same.rfl' _)

theorem precompute_same (k : PrivateKey) : SameUnlessStopped k.precompute (precompute k) :=
  Same.ite (Same.rfl' _) (Same.bind (precomputeValues_same _ _) fun _ => Same.rfl' _)

theorem tryPrecompute_same (k : PrivateKey) : SameUnlessStopped k.tryPrecompute (tryPrecompute k) := by
  unfold PrivateKey.tryPrecompute tryPrecompute
  rcases precompute_same k with h | h | h
  · rw [h]; exact Same.rfl' _
  · rw [h]; exact Or.inr (Or.inl rfl)
  · rw [h]; exact Or.inr (Or.inr rfl)

theorem fromComponents_same (n : OddUint) (e d : BoxedUint) (primes : List BoxedUint) :
    SameUnlessStopped (PrivateKey.fromComponents n e d primes) (fromComponents n e d primes) := by
  unfold PrivateKey.fromComponents fromComponents
  dsimp only
  cases n.toBoxedUint.nonZero with
  | none => exact Same.rfl' _
  | some nC =>
    dsimp only
    obtain _ | ⟨a, _ | ⟨b, l⟩⟩ := primes
    · refine Same.bind (Same.rfl' _) fun _ => Same.bind (Same.rfl' _) fun _ => ?_
      exact Same.bind (Same.rfl' _) fun _ => tryPrecompute_same _
    · exact Same.bind (Same.rfl' _) fun _ => Same.bind (Same.rfl' _) fun _ => tryPrecompute_same _
    · exact Same.bind (Same.rfl' _) fun _ => Same.bind (Same.rfl' _) fun _ => tryPrecompute_same _

theorem fromPQ_same (p q e : BoxedUint) : SameUnlessStopped (PrivateKey.fromPQ p q e) (fromPQ p q e) :=
  Same.ite (Same.rfl' _) (Same.bind (Same.rfl' _) fun _ => Same.bind (Same.rfl' _) fun _ => fromComponents_same _ _ _ _)

theorem fromPrimes_same (primes : List BoxedUint) (e : BoxedUint) :
    SameUnlessStopped (PrivateKey.fromPrimes primes e) (fromPrimes primes e) :=
  Same.ite (Same.rfl' _) (Same.ite (Same.rfl' _) (Same.bind (Same.rfl' _) fun _ => Same.bind (Same.rfl' _) fun _ =>
    fromComponents_same _ _ _ _))

theorem generatePrimes_same {σ : Type} (G : PrimeGen σ) (left todo : Nat) (s : σ) :
    SameUnlessStopped (RSA.generatePrimes G left todo s) (generatePrimes G left todo s) := by
  induction left generalizing todo s with
  | zero => exact Same.rfl' _
  | succ left ih =>
    exact Same.bind₂ (Same.rfl' _) fun _ _ => Same.bind (subU_same _ _) fun _ => Same.bind₂ (ih _ _) fun _ _ =>
      Same.rfl' _

theorem generateLoop_same {σ : Type} (G : PrimeGen σ) (nprimes bitSize : Nat) (exp : BoxedUint) (fuel : Nat) (s : σ) :
    SameUnlessStopped (RSA.generateLoop G nprimes bitSize exp fuel s) (generateLoop G nprimes bitSize exp fuel s) := by
  induction fuel generalizing s with
  | zero => exact Same.rfl' _
  | succ fuel ih =>
    refine Same.bind₂ (generatePrimes_same _ _ _ _) fun primes s => Same.ite (ih _) (Same.bind (Same.rfl' _) fun n =>
      Same.ite (ih _) ?_)
    cases computePrivateExponentEulerTotient primes exp with
    | ok d => exact Same.rfl' _
    | err e => exact ih _
    | panic k => exact Same.rfl' _
    | loop => exact Same.rfl' _

theorem generateMultiPrimeKeyWithExp_same {σ : Type} (G : PrimeGen σ) (fuel : Nat) (s : σ) (nprimes bitSize : Nat)
    (exp : BoxedUint) :
    SameUnlessStopped (RSA.generateMultiPrimeKeyWithExp G fuel s nprimes bitSize exp)
      (generateMultiPrimeKeyWithExp G fuel s nprimes bitSize exp) :=
  Same.ite (Same.rfl' _) (Same.ite (Same.rfl' _) (generateLoop_same _ _ _ _ _ _))

theorem newWithExp_same {σ : Type} (G : PrimeGen σ) (fuel : Nat) (s : σ) (bitSize : Nat) (exp : BoxedUint) :
    SameUnlessStopped (PrivateKey.newWithExp G fuel s bitSize exp) (newWithExp G fuel s bitSize exp) :=
  Same.bind₂ (generateMultiPrimeKeyWithExp_same _ _ _ _ _ _) fun _ _ => Same.bind (fromComponents_same _ _ _ _) fun _ =>
    Same.rfl' _

theorem tryFromInfo_same (i : der.PrivateKeyInfo) : SameUnlessStopped (PrivateKey.tryFromInfo i) (tryFromInfo i) := by
  unfold PrivateKey.tryFromInfo tryFromInfo
  refine Same.bind (Same.rfl' _) fun _ => Same.bind (Same.rfl' _) fun _ => Same.ite (Same.rfl' _)
    (Same.bind (lenBitsChecked_same _) fun _ => Same.bind (Same.rfl' _) fun n => ?_)
  cases OddUint.new n with
  | none => exact Same.rfl' _
  | some n =>
    exact Same.bind (lenBitsChecked_same _) fun _ => Same.bind (Same.rfl' _) fun _ => Same.bind (Same.rfl' _) fun _ =>
      Same.bind (Same.rfl' _) fun _ => Same.bind (Same.rfl' _) fun _ => Same.mapErr (fromComponents_same _ _ _ _)

theorem tryFromSpki_same (i : der.SubjectPublicKeyInfo) :
    SameUnlessStopped (PublicKey.tryFromSpki i) (tryFromSpki i) := by
  unfold PublicKey.tryFromSpki tryFromSpki
  exact Same.bind (Same.rfl' _) fun _ => Same.ite (Same.rfl' _) (Same.bind (Same.rfl' _) fun _ =>
    Same.bind (lenBitsChecked_same _) fun _ => Same.bind (Same.rfl' _) fun _ => Same.bind (lenBitsChecked_same _) fun _ =>
    Same.rfl' _)

namespace pkcs1v15

theorem encrypt_same {σ : Type} (R : RngImpl σ) (fuel : Nat) (s : σ) (k : PublicKey) (msg : Bytes) :
    SameUnlessStopped (RSA.pkcs1v15.encrypt R fuel s k msg) (encrypt R fuel s k msg) :=
  Same.bind (Same.rfl' _) fun _ => Same.bind₂ (pkcs1v15EncryptPad_same _ _ _ _ _) fun _ _ => Same.bind (Same.rfl' _)
    fun _ => Same.bind (Same.rfl' _) fun _ => Same.bind (uintToBePad_same _ _) fun _ => Same.rfl' _

theorem decrypt_same {σ : Type} (R : RngImpl σ) (fuel : Nat) (rng : Option σ) (k : PrivateKey) (ct : Bytes) :
    SameUnlessStopped (RSA.pkcs1v15.decrypt R fuel rng k ct) (decrypt R fuel rng k ct) :=
  Same.bind (Same.rfl' _) fun _ => Same.bind (Same.rfl' _) fun _ => Same.bind₂ (rsaDecryptAndCheck_same _ _ _ _ _)
    fun _ _ => Same.bind (uintToZeroizingBePad_same _ _) fun _ => Same.rfl' _

theorem sign_same {σ : Type} (R : RngImpl σ) (fuel : Nat) (rng : Option σ) (k : PrivateKey) (pfx hashed : Bytes) :
    SameUnlessStopped (RSA.pkcs1v15.sign R fuel rng k pfx hashed) (sign R fuel rng k pfx hashed) :=
  Same.bind (pkcs1v15SignPad_same _ _ _) fun _ => Same.bind (Same.rfl' _) fun _ =>
    Same.bind₂ (rsaDecryptAndCheck_same _ _ _ _ _) fun _ _ => uintToZeroizingBePad_same _ _

theorem verify_same (k : PublicKey) (pfx hashed : Bytes) (sig : BoxedUint) :
    SameUnlessStopped (RSA.pkcs1v15.verify k pfx hashed sig) (verify k pfx hashed sig) :=
  Same.ite (Same.rfl' _) (Same.bind (Same.rfl' _) fun _ => Same.bind (uintToBePad_same _ _) fun _ =>
    pkcs1v15SignUnpad_same _ _ _ _)

end pkcs1v15

namespace pss

theorem verify_same (k : PublicKey) (hashed : Bytes) (sig : BoxedUint) (sigLen : Nat) (dg : DigestState) (saltLen : Nat) :
    SameUnlessStopped (RSA.pss.verify k hashed sig sigLen dg saltLen) (verify k hashed sig sigLen dg saltLen) :=
  Same.ite (Same.rfl' _) (Same.bind (Same.rfl' _) fun _ => Same.bind (uintToBePad_same _ _) fun _ =>
    emsaPssVerify_same _ _ _ _ _)

theorem verifyDigest_same (D : HashFn) (k : PublicKey) (hashed : Bytes) (sig : BoxedUint) (saltLen : Nat) :
    SameUnlessStopped (RSA.pss.verifyDigest D k hashed sig saltLen) (verifyDigest D k hashed sig saltLen) :=
  Same.ite (Same.rfl' _) (Same.bind (Same.rfl' _) fun _ => Same.bind (uintToBePad_same _ _) fun _ =>
    emsaPssVerifyDigest_same _ _ _ _ _)

theorem sign_same {σ : Type} (R : RngImpl σ) (fuel : Nat) (s : σ) (blind : Bool) (k : PrivateKey) (hashed : Bytes)
    (saltLen : Nat) (dg : DigestState) :
    SameUnlessStopped (RSA.pss.sign R fuel s blind k hashed saltLen dg) (sign R fuel s blind k hashed saltLen dg) :=
  Same.bind₂ (Same.rfl' _) fun _ _ => Same.bind (subU_same _ _) fun _ => Same.bind (emsaPssEncode_same _ _ _ _) fun _ =>
    Same.bind (Same.rfl' _) fun _ => Same.bind₂ (rsaDecryptAndCheck_same _ _ _ _ _) fun _ _ =>
    uintToZeroizingBePad_same _ _

theorem signDigest_same {σ : Type} (R : RngImpl σ) (fuel : Nat) (D : HashFn) (s : σ) (blind : Bool) (k : PrivateKey)
    (hashed : Bytes) (saltLen : Nat) :
    SameUnlessStopped (RSA.pss.signDigest R fuel D s blind k hashed saltLen)
      (signDigest R fuel D s blind k hashed saltLen) :=
  Same.bind₂ (Same.rfl' _) fun _ _ => Same.bind (subU_same _ _) fun _ => Same.bind (emsaPssEncodeDigest_same _ _ _ _)
    fun _ => Same.bind (Same.rfl' _) fun _ => Same.bind₂ (rsaDecryptAndCheck_same _ _ _ _ _) fun _ _ =>
    uintToZeroizingBePad_same _ _

end pss

namespace oaep

theorem encrypt_same {σ : Type} (R : RngImpl σ) (s : σ) (k : PublicKey) (msg : Bytes) (dg mg : DigestState)
    (label : Option Bytes) :
    SameUnlessStopped (RSA.oaep.encrypt R s k msg dg mg label) (encrypt R s k msg dg mg label) :=
  Same.bind (Same.rfl' _) fun _ => Same.bind₂ (oaepEncrypt_same _ _ _ _ _ _ _) fun _ _ => Same.bind (Same.rfl' _)
    fun _ => Same.bind (Same.rfl' _) fun _ => Same.bind (uintToBePad_same _ _) fun _ => Same.rfl' _

theorem encryptDigest_same {σ : Type} (R : RngImpl σ) (D MGD : HashFn) (s : σ) (k : PublicKey) (msg : Bytes)
    (label : Option Bytes) :
    SameUnlessStopped (RSA.oaep.encryptDigest R D MGD s k msg label) (encryptDigest R D MGD s k msg label) :=
  Same.bind (Same.rfl' _) fun _ => Same.bind₂ (oaepEncryptDigest_same _ _ _ _ _ _ _) fun _ _ => Same.bind (Same.rfl' _)
    fun _ => Same.bind (Same.rfl' _) fun _ => Same.bind (uintToBePad_same _ _) fun _ => Same.rfl' _

theorem decrypt_same {σ : Type} (R : RngImpl σ) (fuel : Nat) (rng : Option σ) (k : PrivateKey) (ct : Bytes)
    (dg mg : DigestState) (label : Option Bytes) :
    SameUnlessStopped (RSA.oaep.decrypt R fuel rng k ct dg mg label) (decrypt R fuel rng k ct dg mg label) :=
  Same.ite (Same.rfl' _) (Same.bind (Same.rfl' _) fun _ => Same.bind₂ (rsaDecryptAndCheck_same _ _ _ _ _) fun _ _ =>
    Same.bind (uintToZeroizingBePad_same _ _) fun _ => Same.rfl' _)

theorem decryptDigest_same {σ : Type} (R : RngImpl σ) (fuel : Nat) (D MGD : HashFn) (rng : Option σ) (k : PrivateKey)
    (ct : Bytes) (label : Option Bytes) :
    SameUnlessStopped (RSA.oaep.decryptDigest R fuel D MGD rng k ct label)
      (decryptDigest R fuel D MGD rng k ct label) :=
  Same.bind (Same.rfl' _) fun _ => Same.ite (Same.rfl' _) (Same.bind (Same.rfl' _) fun _ =>
    Same.bind₂ (rsaDecryptAndCheck_same _ _ _ _ _) fun _ _ => Same.bind (uintToZeroizingBePad_same _ _) fun _ =>
    Same.rfl' _)

end oaep

end RSA.rel
