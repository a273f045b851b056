import Verif.Props.Pkcs1v15
import Verif.Props.Pss

/-
C67: what one signature can be valid for.
-/
namespace RSA
open BoxedUint

theorem run_inj {α : Type} {x y : α} (hxy : x ≠ y) : ∀ {a b : Nat} {s t : List α},
    List.replicate a x ++ y :: s = List.replicate b x ++ y :: t → a = b ∧ s = t
  | 0, 0, s, t, h => ⟨rfl, (List.cons.inj h).2⟩
  | 0, b + 1, s, t, h => absurd (List.cons.inj h).1.symm hxy
  | a + 1, 0, s, t, h => absurd (List.cons.inj h).1 hxy
  | a + 1, b + 1, s, t, h => by
    obtain ⟨h1, h2⟩ := run_inj hxy (List.cons.inj h).2
    exact ⟨by rw [h1], h2⟩

/-- EMSA-PKCS1-v1_5 is injective. -/
theorem emsa_inj {t u em : Bytes} {k : Nat} (h1 : Spec.emsaPkcs1v15 t k = some em)
    (h2 : Spec.emsaPkcs1v15 u k = some em) : t = u := by
  unfold Spec.emsaPkcs1v15 at h1 h2
  split at h1
  · split at h2
    · have h := h1.trans h2.symm
      simp only [Option.some.injEq, List.append_assoc, List.cons_append, List.nil_append, List.cons.injEq,
        true_and] at h
      exact (run_inj (by decide) h).2
    · cases h2
  · cases h1

/-- A cleared and masked data block determines the salt. -/
theorem pss_db_inj {z a b : Nat} (hz : z < 8) {s t mask : Bytes}
    (ha : a + s.length + 1 = mask.length) (hb : b + t.length + 1 = mask.length)
    (h : Spec.clearLeftBits z (Spec.xorBytes (List.replicate a 0 ++ [1] ++ s) mask) =
      Spec.clearLeftBits z (Spec.xorBytes (List.replicate b 0 ++ [1] ++ t) mask)) : s = t := by
  have hclear : ∀ (a : Nat) (s : Bytes), Spec.clearLeftBits z (List.replicate a 0 ++ [1] ++ s) =
      List.replicate a 0 ++ [1] ++ s := by
    intro a s
    cases a with
    | zero =>
      simp only [List.replicate_zero, List.nil_append, List.cons_append]
      rw [clearLeft_cons hz, one_and_mask hz]
    | succ a =>
      simp only [List.replicate_succ, List.cons_append]
      rw [clearLeft_cons hz, zero_and_mask]
  have := congrArg (fun x => Spec.clearLeftBits z (Spec.xorBytes x mask)) h
  rw [clearLeft_unmask hz _ _ (by simp; omega), clearLeft_unmask hz _ _ (by simp; omega), hclear, hclear,
    List.append_assoc, List.append_assoc, List.singleton_append, List.singleton_append] at this
  exact (run_inj (by decide) this).2

/-- EMSA-PSS: two digests, even with different salt lengths, that share an encoding have the same salt, and the hash
function maps the two padded inputs to the same value. -/
theorem emsaPss_inj {D : HashFn} (hpos : 0 < D.outLen) {m1 m2 s1 s2 em : Bytes} {emBits : Nat}
    (h1 : Spec.emsaPss D.hash D.mgf D.outLen m1 s1 emBits = some em)
    (h2 : Spec.emsaPss D.hash D.mgf D.outLen m2 s2 emBits = some em) :
    s1 = s2 ∧ D.hash (List.replicate 8 0 ++ m1 ++ s1) = D.hash (List.replicate 8 0 ++ m2 ++ s2) := by
  obtain ⟨-, l1⟩ := emsaPss_length hpos h1
  obtain ⟨-, l2⟩ := emsaPss_length hpos h2
  unfold Spec.emsaPss at h1 h2
  dsimp only at h1 h2
  rw [if_neg (by omega)] at h1 h2
  have h := Option.some.inj (h1.trans h2.symm)
  replace h := List.append_inj_left' h rfl
  have hlen : (D.hash (List.replicate 8 0 ++ m1 ++ s1)).length = (D.hash (List.replicate 8 0 ++ m2 ++ s2)).length := by
    rw [D.hash_len, D.hash_len]
  obtain ⟨hdb, hh⟩ := List.append_inj' h hlen
  rw [hh] at hdb
  refine ⟨pss_db_inj (by omega) ?_ ?_ hdb, hh⟩
  · rw [D.mgf_length hpos]; omega
  · rw [D.mgf_length hpos]; omega

/-- C67, PKCS#1 v1.5: a signature accepted under one public key for two digests, with any two prefixes, is accepted for
the same string `prefix ‖ digest`. -/
theorem C67_pkcs1v15_binding (k : PublicKey) (hk : k.Coherent) (S T : pkcs1v15.Pkcs1v15Sign) (h1 h2 sig : Bytes)
    (h29 : sig.length < 2 ^ 29) (hS : S.verify k h1 sig = .ok ()) (hT : T.verify k h2 sig = .ok ()) :
    S.pfx ++ h1 = T.pfx ++ h2 := by
  obtain ⟨_, _, _, em1, b1, c1⟩ := (C10_verify_exact k hk S h1 sig h29).1.mp hS
  obtain ⟨_, _, _, em2, b2, c2⟩ := (C10_verify_exact k hk T h2 sig h29).1.mp hT
  obtain rfl := Option.some.inj (c1.symm.trans c2)
  exact emsa_inj b1 b2

/-- C67: with the prefixes of two hash functions, the object identifier and the digest are the same: a signature for one
hash function is never valid for another one. -/
theorem C67_hash_function_bound (k : PublicKey) (hk : k.Coherent) (D E : HashFn) (oidD oidE : Bytes)
    (hd : oidD.length < 128) (he : oidE.length < 128) (S T : pkcs1v15.Pkcs1v15Sign)
    (hS : pkcs1v15.Pkcs1v15Sign.new D oidD = .ok S) (hT : pkcs1v15.Pkcs1v15Sign.new E oidE = .ok T)
    (h1 h2 sig : Bytes) (h29 : sig.length < 2 ^ 29) (v1 : S.verify k h1 sig = .ok ())
    (v2 : T.verify k h2 sig = .ok ()) : oidD = oidE ∧ h1 = h2 := by
  have h := C67_pkcs1v15_binding k hk S T h1 h2 sig h29 v1 v2
  have hpfx : ∀ (D : HashFn) (oid : Bytes) (S : pkcs1v15.Pkcs1v15Sign), pkcs1v15.Pkcs1v15Sign.new D oid = .ok S →
      ∃ a b, S.pfx = [0x30, a, 0x30, b, 0x6, UInt8.ofNat oid.length] ++ oid ++ [0x05, 0x00, 0x04, UInt8.ofNat D.outLen] := by
    intro D oid S h
    unfold pkcs1v15.Pkcs1v15Sign.new pkcs1v15GeneratePrefix at h
    simp only [Res.bind_eq_ok] at h
    obtain ⟨p, ⟨a, -, a', -, b, -, hp⟩, h⟩ := h
    obtain rfl := Res.ok.inj hp
    obtain rfl := Res.ok.inj h
    exact ⟨a', b, rfl⟩
  obtain ⟨a, b, e1⟩ := hpfx D oidD S hS
  obtain ⟨a', b', e2⟩ := hpfx E oidE T hT
  rw [e1, e2] at h
  simp only [List.append_assoc, List.cons_append, List.nil_append, List.cons.injEq, true_and] at h
  obtain ⟨-, -, hl, h⟩ := h
  have hll : oidD.length = oidE.length := by
    have := congrArg UInt8.toNat hl
    rw [UInt8.toNat_ofNat', UInt8.toNat_ofNat'] at this
    omega
  obtain ⟨ho, h⟩ := List.append_inj h hll
  simp only [List.cons.injEq, true_and] at h
  exact ⟨ho, h.2⟩

/-- C67, PKCS#1 v1.5 keys: two messages accepted with one signature by keys of the same prefix have the same hash. -/
theorem C67_pkcs1v15_messages {D : HashFn} (vk : pkcs1v15.VerifyingKey D) (hk : vk.inner.Coherent) (m1 m2 : Bytes)
    (sg : pkcs1v15.Signature) (h1 : vk.verify m1 sg = .ok ()) (h2 : vk.verify m2 sg = .ok ()) :
    D.hash m1 = D.hash m2 := by
  obtain ⟨_, _, em1, b1, c1⟩ := (C10_typed_verify_exact vk hk m1 sg).1.mp h1
  obtain ⟨_, _, em2, b2, c2⟩ := (C10_typed_verify_exact vk hk m2 sg).1.mp h2
  obtain rfl := Option.some.inj (c1.symm.trans c2)
  exact List.append_cancel_left (emsa_inj b1 b2)

/-- C67, PSS scheme objects: a signature accepted under one public key for two digests with two salt lengths has one salt
length, and the digests are equal or the hash function collides on `0^8 ‖ digest ‖ salt` with one salt. -/
theorem C67_pss_binding (k : PublicKey) (hk : k.Coherent) (hp : k.n.prec < 2 ^ 32) (D : HashFn) (hpos : 0 < D.outLen)
    (b1 b2 : Bool) (l1 l2 : Nat) (a1 : D.outLen + l1 + 2 < 2 ^ 64) (a2 : D.outLen + l2 + 2 < 2 ^ 64)
    (h1 h2 sig : Bytes) (h29 : sig.length < 2 ^ 29)
    (v1 : pss.Pss.verify ⟨b1, DigestState.new D, l1⟩ k h1 sig = .ok ())
    (v2 : pss.Pss.verify ⟨b2, DigestState.new D, l2⟩ k h2 sig = .ok ()) :
    l1 = l2 ∧ ∃ salt : Bytes, salt.length = l1 ∧
      D.hash (List.replicate 8 0 ++ h1 ++ salt) = D.hash (List.replicate 8 0 ++ h2 ++ salt) := by
  obtain ⟨_, _, em1, c1, s1, d1, e1⟩ := (C19_pss_verify_exact k hk hp b1 D hpos l1 a1 h1 sig h29).1.mp v1
  obtain ⟨_, _, em2, c2, s2, d2, e2⟩ := (C19_pss_verify_exact k hk hp b2 D hpos l2 a2 h2 sig h29).1.mp v2
  obtain rfl := Option.some.inj (c1.symm.trans c2)
  obtain ⟨rfl, hh⟩ := emsaPss_inj hpos e1 e2
  exact ⟨d1.symm.trans d2, s1, d1, hh⟩

/-- C67, PSS keys. -/
theorem C67_pss_messages {D : HashFn} (k : PublicKey) (hk : k.Coherent) (hp : k.n.prec < 2 ^ 32) (hpos : 0 < D.outLen)
    (l1 l2 : Nat) (a1 : D.outLen + l1 + 2 < 2 ^ 64) (a2 : D.outLen + l2 + 2 < 2 ^ 64) (m1 m2 : Bytes)
    (sg : pss.Signature) (v1 : (pss.VerifyingKey.newWithSaltLen (D := D) k l1).verify m1 sg = .ok ())
    (v2 : (pss.VerifyingKey.newWithSaltLen (D := D) k l2).verify m2 sg = .ok ()) :
    l1 = l2 ∧ ∃ salt : Bytes, salt.length = l1 ∧
      D.hash (List.replicate 8 0 ++ D.hash m1 ++ salt) = D.hash (List.replicate 8 0 ++ D.hash m2 ++ salt) := by
  have x1 := C19_typed_verify_exact (pss.VerifyingKey.newWithSaltLen (D := D) k l1) hk hp hpos a1 (D.hash m1) sg
  have x2 := C19_typed_verify_exact (pss.VerifyingKey.newWithSaltLen (D := D) k l2) hk hp hpos a2 (D.hash m2) sg
  rw [(x1.2.2 m1).1] at v1
  rw [(x2.2.2 m2).1] at v2
  obtain ⟨_, _, _, em1, c1, s1, d1, e1⟩ := x1.1.mp v1
  obtain ⟨_, _, _, em2, c2, s2, d2, e2⟩ := x2.1.mp v2
  obtain rfl := Option.some.inj (c1.symm.trans c2)
  obtain ⟨rfl, hh⟩ := emsaPss_inj hpos e1 e2
  exact ⟨d1.symm.trans d2, s1, d1, hh⟩

/-! ### Examples -/

/-- One signature, two ways to split `prefix ‖ digest`. -/
example : pkcs1v15.Pkcs1v15Sign.verify ⟨none, [1, 2]⟩ Ex.key.pub [3]
    [209, 168, 54, 190, 224, 67, 39, 138, 167, 205, 225, 75, 195, 246, 62, 183, 107, 240, 150, 31, 31, 92, 73, 125, 246,
    61, 244] = .ok () ∧ pkcs1v15.Pkcs1v15Sign.verify ⟨none, []⟩ Ex.key.pub [1, 2, 3]
    [209, 168, 54, 190, 224, 67, 39, 138, 167, 205, 225, 75, 195, 246, 62, 183, 107, 240, 150, 31, 31, 92, 73, 125, 246,
    61, 244] = .ok () := by decide +kernel

/-- A toy hash with collisions. -/
def Ex.hashParity : HashFn where
  outLen := 1
  hash m := [m.foldl (· + ·) 0 &&& 1]
  hash_len := by intro m; rfl

/-- A PSS signature valid for two digests, by a collision. -/
example : (match pss.Pss.sign ⟨false, DigestState.new Ex.hashParity, 0⟩ Ex.countingRng 0 (some 0) Ex.key25 [1] with
    | .ok sig => decide (pss.Pss.verify ⟨true, DigestState.new Ex.hashParity, 0⟩ Ex.key25.pub [1] sig = .ok () ∧
        pss.Pss.verify ⟨false, DigestState.new Ex.hashParity, 0⟩ Ex.key25.pub [3] sig = .ok ())
    | _ => false) = true := by decide +kernel

/-- SHA-1's and RIPEMD-160's identifiers (both hashes have 20 octets) give usable prefixes. -/
example : ∃ S T, pkcs1v15.Pkcs1v15Sign.new ⟨20, fun _ => List.replicate 20 0, fun _ => rfl⟩ [0x2b, 0x0e, 0x03, 0x02, 0x1a] =
      .ok S ∧
    pkcs1v15.Pkcs1v15Sign.new ⟨20, fun _ => List.replicate 20 0, fun _ => rfl⟩ [0x2b, 0x24, 0x03, 0x02, 0x01] = .ok T ∧
    S.pfx ≠ T.pfx := ⟨_, _, rfl, rfl, by decide⟩

/-- One signature that two schemes accept: what they sign is the same. -/
example : ([1, 2] : Bytes) ++ [3] = [] ++ [1, 2, 3] :=
  C67_pkcs1v15_binding Ex.key.pub Ex.key_wf.coherent ⟨none, [1, 2]⟩ ⟨none, []⟩ [3] [1, 2, 3]
    [209, 168, 54, 190, 224, 67, 39, 138, 167, 205, 225, 75, 195, 246, 62, 183, 107, 240, 150, 31, 31, 92, 73, 125, 246, 61, 244]
    (by decide) (by decide +kernel) (by decide +kernel)
/-- One PSS signature accepted for two digests that hash alike. -/
example := C67_pss_binding Ex.key25.pub Ex.key25_wf.coherent (by decide) Ex.hashParity (by decide) true false 0 0 (by decide)
  (by decide) [1] [3] [0, 244, 51, 151] (by decide) (by decide +kernel) (by decide +kernel)

end RSA
