import Verif.Proof.Serde
import Verif.Props.Wrappers

/-
C63, C64: the serde byte layer of keys and signatures, textual forms of signatures.
-/
namespace RSA
open BoxedUint Spec

/-! ### C63: serde -/

/-- C63, the byte layer: what is written is read back; a string is read exactly when it spells the octets in hexadecimal
of any case; the other kind of data is refused. -/
theorem C63_byte_layer (hr : Bool) :
    (∀ b, deserializeHexOrBin hr (serializeHexLowerOrBin hr b) = .ok b) ∧
    (∀ b, ∃ s, serializeHexLowerOrBin true b = .str s ∧ Spells s b ∧ Lower s) ∧
    (∀ b, serializeHexLowerOrBin false b = .bytes b) ∧
    (∀ s b, deserializeHexOrBin true (.str s) = .ok b ↔ Spells s b) ∧
    (∀ s, deserializeHexOrBin false (.str s) = .err .pkcs8) ∧
    (∀ b, deserializeHexOrBin true (.bytes b) = .err .pkcs8) ∧
    (∀ d, (deserializeHexOrBin hr d).Returns) := by
  refine ⟨deserialize_serialize hr, fun b => ⟨_, rfl, hexLower_spells b⟩, fun _ => rfl, fun s b => ?_, fun _ => rfl,
    fun _ => rfl, fun d => ?_⟩
  · rw [← hexDecode_spells]
    exact orErr_ok
  · cases hr <;> cases d <;> try exact trivial
    exact orErr_ret _

/- Mixed case is read, an odd digit is not. -/
example : deserializeHexOrBin true (.str ['0', 'A', 'f', 'F']) = .ok [0x0a, 0xff] ∧
    deserializeHexOrBin true (.str ['0', 'A', 'f']) = .err .pkcs8 ∧
    deserializeHexOrBin true (.str ['0', 'g']) = .err .pkcs8 ∧
    serializeHexLowerOrBin true [0x0a, 0xff] = .str ['0', 'a', 'f', 'f'] := by decide +kernel

/-- A document of the given kind holds these octets. -/
def Holds (hr : Bool) (d : SerdeData) (b : Bytes) : Prop :=
  hr = true ∧ (∃ s, d = .str s ∧ Spells s b) ∨ hr = false ∧ d = .bytes b

theorem holds_serialize (hr : Bool) (b : Bytes) : Holds hr (serializeHexLowerOrBin hr b) b := by
  cases hr
  · exact .inr ⟨rfl, rfl⟩
  · exact .inl ⟨rfl, _, rfl, (hexLower_spells b).1⟩

theorem serdeErr_of_ok {α : Type} {r : Res α} {a : α} (h : r = .ok a) : serdeErr r = .ok a := by rw [h]; rfl

/-- C63, keys: in either kind of format a public key that passes the checks, and a well-formed two-prime private key with
`d < n`, is written as its DER encoding and read back as an equal key; whatever is read from a document is what the DER
decoder makes of the octets in it. -/
theorem C63_keys (hr : Bool) :
    (∀ k : PublicKey, k.Coherent → checkPublic k = .ok () → ∃ b d k',
      k.toPublicKeyDer = .ok b ∧ Holds hr d b ∧ k.serdeSerialize hr = .ok d ∧
      PublicKey.serdeDeserialize hr d = .ok k' ∧ k'.eq k = true ∧ k'.Coherent ∧ checkPublic k' = .ok ()) ∧
    (∀ (k : PrivateKey) (p q : BoxedUint), WellFormed k → k.validate = .ok () → k.primes = [p, q] →
      p.prec ≤ k.d.prec → q.prec ≤ k.d.prec → k.d.prec < 2 ^ 23 → k.d.val < k.pub.n.val →
      ∃ b d k', k.toPkcs8Der = .ok b ∧ Holds hr d b ∧ k.serdeSerialize hr = .ok d ∧
        PrivateKey.serdeDeserialize hr d = .ok k' ∧ k'.eq k = true ∧
        WellFormed k') ∧
    (∀ d k, PublicKey.serdeDeserialize hr d = .ok k ↔ ∃ b, PublicKey.fromPublicKeyDer b = .ok k ∧ Holds hr d b) ∧
    (∀ d k, PrivateKey.serdeDeserialize hr d = .ok k ↔ ∃ b, PrivateKey.fromPkcs8Der b = .ok k ∧ Holds hr d b) := by
  have hdec : ∀ d b, deserializeHexOrBin hr d = .ok b ↔ Holds hr d b := by
    intro d b
    unfold Holds
    cases hr
    · cases d with
      | str s =>
        rw [(C63_byte_layer false).2.2.2.2.1 s]; simp
      | bytes c => simp [deserializeHexOrBin]
    · cases d with
      | str s => rw [(C63_byte_layer true).2.2.2.1 s b]; simp
      | bytes c =>
        rw [(C63_byte_layer true).2.2.2.2.2.1 c]; simp
  refine ⟨fun k hc hv => ?_, fun k p q hwf hv hps hpw hqw hd hd' => ?_, fun d k => ?_, fun d k => ?_⟩
  · obtain ⟨henc, k', hdec', he, hc', hv', _⟩ := C37_public_round_trip k hc hv
    refine ⟨_, serializeHexLowerOrBin hr _, k', henc, holds_serialize hr _, ?_, ?_, he, hc', hv'⟩
    · unfold PublicKey.serdeSerialize
      rw [serdeErr_of_ok henc, Res.ok_bind]
    · unfold PublicKey.serdeDeserialize
      rw [deserialize_serialize, Res.ok_bind]
      exact serdeErr_of_ok hdec'
  · obtain ⟨b, k', henc, hdec', he, hwf', _⟩ := C36_well_formed_round_trip k p q hwf hv hps hpw hqw hd hd'
    refine ⟨b, serializeHexLowerOrBin hr b, k', henc, holds_serialize hr b, ?_, ?_, he, hwf'⟩
    · unfold PrivateKey.serdeSerialize
      rw [serdeErr_of_ok henc, Res.ok_bind]
    · unfold PrivateKey.serdeDeserialize
      rw [deserialize_serialize, Res.ok_bind]
      exact serdeErr_of_ok hdec'
  · unfold PublicKey.serdeDeserialize
    rw [Res.bind_eq_ok]
    constructor
    · rintro ⟨b, hb, h⟩
      exact ⟨b, serdeErr_ok.mp h, (hdec d b).mp hb⟩
    · rintro ⟨b, h, hb⟩
      exact ⟨b, (hdec d b).mpr hb, serdeErr_ok.mpr h⟩
  · unfold PrivateKey.serdeDeserialize
    rw [Res.bind_eq_ok]
    constructor
    · rintro ⟨b, hb, h⟩
      exact ⟨b, serdeErr_ok.mp h, (hdec d b).mp hb⟩
    · rintro ⟨b, h, hb⟩
      exact ⟨b, (hdec d b).mpr hb, serdeErr_ok.mpr h⟩

/- The 27-byte example key meets the hypotheses. -/
example : Ex.key.pub.Coherent ∧ checkPublic Ex.key.pub = .ok () ∧ WellFormed Ex.key ∧ Ex.key.validate = .ok () ∧
    Ex.key.d.val < Ex.key.pub.n.val ∧ Ex.key.d.prec < 2 ^ 23 := by
  refine ⟨by decide +kernel, by decide +kernel, Ex.key_wf, by decide +kernel, by decide +kernel, by decide +kernel⟩

/-- C63, the typed keys: their serde forms are the DER forms of C42 in the byte layer above. -/
theorem C63_typed_keys {D : HashFn} (hr : Bool) (oid : Bytes) :
    (∀ (k : pkcs1v15.SigningKey D), k.serdeSerialize hr = k.inner.serdeSerialize hr) ∧
    (∀ (k : pkcs1v15.VerifyingKey D), k.serdeSerialize hr = k.inner.serdeSerialize hr) ∧
    (∀ (k : pss.SigningKey D), k.serdeSerialize hr = k.inner.serdeSerialize hr) ∧
    (∀ (k : pss.BlindedSigningKey D), k.serdeSerialize hr = k.inner.serdeSerialize hr) ∧
    (∀ (k : pss.VerifyingKey D), k.serdeSerialize hr = k.inner.serdeSerialize hr) ∧
    (∀ b k, pkcs1v15.SigningKey.deserialize (D := D) oid b = .ok k →
      pkcs1v15.SigningKey.serdeDeserialize (D := D) oid hr (serializeHexLowerOrBin hr b) = .ok k) ∧
    (∀ b k, pkcs1v15.VerifyingKey.deserialize (D := D) oid b = .ok k →
      pkcs1v15.VerifyingKey.serdeDeserialize (D := D) oid hr (serializeHexLowerOrBin hr b) = .ok k) ∧
    (∀ b k, pss.SigningKey.deserialize (D := D) b = .ok k →
      pss.SigningKey.serdeDeserialize (D := D) hr (serializeHexLowerOrBin hr b) = .ok k) ∧
    (∀ b k, pss.BlindedSigningKey.deserialize (D := D) b = .ok k →
      pss.BlindedSigningKey.serdeDeserialize (D := D) hr (serializeHexLowerOrBin hr b) = .ok k) ∧
    (∀ b k, pss.VerifyingKey.deserialize (D := D) b = .ok k →
      pss.VerifyingKey.serdeDeserialize (D := D) hr (serializeHexLowerOrBin hr b) = .ok k) := by
  refine ⟨fun _ => rfl, fun _ => rfl, fun _ => rfl, fun _ => rfl, fun _ => rfl, ?_, ?_, ?_, ?_, ?_⟩ <;> intro b k h
  · unfold pkcs1v15.SigningKey.serdeDeserialize; rw [deserialize_serialize, Res.ok_bind]; exact serdeErr_of_ok h
  · unfold pkcs1v15.VerifyingKey.serdeDeserialize; rw [deserialize_serialize, Res.ok_bind]; exact serdeErr_of_ok h
  · unfold pss.SigningKey.serdeDeserialize; rw [deserialize_serialize, Res.ok_bind]; exact serdeErr_of_ok h
  · unfold pss.BlindedSigningKey.serdeDeserialize; rw [deserialize_serialize, Res.ok_bind]; exact serdeErr_of_ok h
  · unfold pss.VerifyingKey.serdeDeserialize; rw [deserialize_serialize, Res.ok_bind]; exact serdeErr_of_ok h

/- A typed key through a human readable document. -/
example : (match (pss.SigningKey.mk (D := Ex.hash4) Ex.key 10).serdeSerialize true with
    | .ok d => (match pss.SigningKey.serdeDeserialize (D := Ex.hash4) true d with
      | .ok k => k.inner.eq Ex.key && k.saltLen == 4
      | _ => false)
    | _ => false) = true := by decide +kernel

/-- C63, signatures: any signature object is read back unchanged in either kind of format; a human readable document
holds the hexadecimal form of its encoding, a binary one the encoding. -/
theorem C63_signatures (hr : Bool) :
    (∀ sg : pkcs1v15.Signature, 1 ≤ sg.inner.nlimbs → 8 * sg.inner.nlimbs < 2 ^ 29 →
      ∃ d, sg.serdeSerialize hr = .ok d ∧ pkcs1v15.Signature.serdeDeserialize hr d = .ok sg ∧
        (hr = true → ∃ s, d = .str s ∧ Spells s sg.toBytes ∧ Lower s) ∧ (hr = false → d = .bytes sg.toBytes)) ∧
    (∀ sg : pss.Signature, 1 ≤ sg.inner.nlimbs → 8 * sg.inner.nlimbs < 2 ^ 29 →
      ∃ d, sg.serdeSerialize hr = .ok d ∧ pss.Signature.serdeDeserialize hr d = .ok sg ∧
        (hr = true → ∃ s, d = .str s ∧ Spells s sg.toBytes ∧ Lower s) ∧ (hr = false → d = .bytes sg.toBytes)) := by
  constructor <;> intro sg h1 h2
  · refine ⟨_, rfl, ?_, ?_, ?_⟩
    · unfold pkcs1v15.Signature.serdeDeserialize
      rw [deserialize_serialize, Res.ok_bind]
      exact serdeErr_of_ok (C40_signature_round_trip_partial.2.1 sg h1 h2)
    · rintro rfl; exact ⟨_, rfl, hexLower_spells _⟩
    · rintro rfl; rfl
  · refine ⟨_, rfl, ?_, ?_, ?_⟩
    · unfold pss.Signature.serdeDeserialize
      rw [deserialize_serialize, Res.ok_bind]
      exact serdeErr_of_ok (C40_signature_round_trip_partial.2.2 sg h1 h2)
    · rintro rfl; exact ⟨_, rfl, hexLower_spells _⟩
    · rintro rfl; rfl

/- The documents of src/pkcs1v15/signature.rs:102-116 and src/pss/signature.rs:97-111. -/
example : (pkcs1v15.Signature.mk (wrap 1 42)).serdeSerialize true = .ok (.str "000000000000002a".toList) ∧
    (pss.Signature.mk (wrap 1 42)).serdeSerialize true = .ok (.str "000000000000002a".toList) ∧
    1 ≤ (wrap 1 42).nlimbs ∧ 8 * (wrap 1 42).nlimbs < 2 ^ 29 := by decide +kernel

/-! ### C64: textual forms and bit strings -/

/-- C64: both signature types print as the hexadecimal form of their encoding (lower or upper case as asked, upper case
by default), and the bit string form holds the encoding without unused bits; so equal texts, or equal bit strings, belong
to signatures with equal encodings. -/
theorem C64_signature_text (a a' : pkcs1v15.Signature) (b b' : pss.Signature) :
    (Spells a.lowerHex a.toBytes ∧ Lower a.lowerHex) ∧ (Spells b.lowerHex b.toBytes ∧ Lower b.lowerHex) ∧
    (Spells a.upperHex a.toBytes ∧ Upper a.upperHex) ∧ (Spells b.upperHex b.toBytes ∧ Upper b.upperHex) ∧
    a.display = a.upperHex ∧ b.display = b.upperHex ∧
    (a.inner = b.inner → a.lowerHex = b.lowerHex ∧ a.display = b.display) ∧
    (a.display = a'.display → a.toBytes = a'.toBytes) ∧ (b.display = b'.display → b.toBytes = b'.toBytes) ∧
    (a.toBytes.length < 2 ^ 28 → a.toBitstring = .ok (0, a.toBytes)) ∧
    (b.toBytes.length < 2 ^ 28 → b.toBitstring = .ok (0, b.toBytes)) := by
  have hb := pss.lowerHex_eq b
  have hb' := pss.upperHex_eq b
  have hb'' := pss.upperHex_eq b'
  have hinj : ∀ x y : Bytes, hexUpper x = hexUpper y → x = y := by
    intro x y h
    have h1 := (hexDecode_spells _ _).mpr (hexUpper_spells x).1
    have h2 := (hexDecode_spells _ _).mpr (hexUpper_spells y).1
    rw [h, h2] at h1
    injection h1 with h1
    exact h1.symm
  refine ⟨hexLower_spells _, ?_, hexUpper_spells _, ?_, rfl, rfl, ?_, hinj _ _, ?_, ?_, ?_⟩
  · rw [hb]; exact hexLower_spells _
  · rw [hb']; exact hexUpper_spells _
  · intro h
    have ht : a.toBytes = b.toBytes := by
      show a.inner.toBeBytes = b.inner.toBeBytes
      rw [h]
    refine ⟨?_, ?_⟩
    · rw [hb, ← ht]; rfl
    · show hexUpper a.toBytes = b.upperHex
      rw [hb', ← ht]
  · intro h
    exact hinj _ _ (by rw [← hb', ← hb'']; exact h)
  · intro h; exact if_pos h
  · intro h; exact if_pos h

/- Both kinds print the same digits for the same number. -/
example : (pkcs1v15.Signature.mk (wrap 2 0xABCDEF)).display = "00000000000000000000000000ABCDEF".toList ∧
    (pss.Signature.mk (wrap 2 0xABCDEF)).display = "00000000000000000000000000ABCDEF".toList ∧
    (pss.Signature.mk (wrap 2 0xABCDEF)).toBytes.length < 2 ^ 28 := by decide +kernel

end RSA
