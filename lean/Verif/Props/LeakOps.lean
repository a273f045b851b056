import Verif.Proof.LeakOps
import Verif.Props.Leak
import Verif.Props.Pss

/-
C76: what the control flow and the memory accesses of the private operation, of signing and of encryption reveal.
Observations are those of `Verif/Model/Leak.lean`.
-/
namespace RSA
open BoxedUint

/-- C76: the observed programs are the modelled ones: forgetting the observations gives the functions all other properties
are about. -/
theorem C76_same_program :
    (∀ {σ : Type} (R : RngImpl σ) fuel k rng c,
      (leak.rsaDecryptAndCheck R fuel k rng c).res = rsaDecryptAndCheck R fuel k rng c) ∧
    (∀ k m, (leak.rsaEncrypt k m).res = rsaEncrypt k m) ∧
    (∀ {σ : Type} (R : RngImpl σ) fuel rng k pfx hashed,
      (leak.pkcs1v15Sign R fuel rng k pfx hashed).res = pkcs1v15.sign R fuel rng k pfx hashed) ∧
    (∀ {σ : Type} (R : RngImpl σ) fuel s blind k hashed saltLen dg,
      (leak.pssSign R fuel s blind k hashed saltLen dg).res = pss.sign R fuel s blind k hashed saltLen dg) ∧
    (∀ {σ : Type} (R : RngImpl σ) fuel D s blind k hashed saltLen,
      (leak.pssSignDigest R fuel D s blind k hashed saltLen).res = pss.signDigest R fuel D s blind k hashed saltLen) ∧
    (∀ {σ : Type} (R : RngImpl σ) fuel s k msg,
      (leak.pkcs1v15Encrypt R fuel s k msg).res = pkcs1v15.encrypt R fuel s k msg) ∧
    (∀ {σ : Type} (R : RngImpl σ) s k msg dg mg label,
      (leak.oaepSchemeEncrypt R s k msg dg mg label).res = oaep.encrypt R s k msg dg mg label) ∧
    (∀ {σ : Type} (R : RngImpl σ) D MGD s k msg label,
      (leak.oaepSchemeEncryptDigest R D MGD s k msg label).res = oaep.encryptDigest R D MGD s k msg label) :=
  ⟨leak.rsaDecryptAndCheck_res, leak.rsaEncrypt_res, leak.pkcs1v15Sign_res, leak.pssSign_res, leak.pssSignDigest_res,
    leak.pkcs1v15Encrypt_res, leak.oaepSchemeEncrypt_res, leak.oaepSchemeEncryptDigest_res⟩

/-- C76: for two keys stored alike and any two inputs below their moduli, the private operation makes the same observations
exactly when the blinding draws turn out alike: neither the input, nor the result, nor any number in the key shows. -/
theorem C76_private_operation {σ σ' : Type} (R : RngImpl σ) (R' : RngImpl σ') (fuel : Nat) (rng : Option σ)
    (rng' : Option σ') {k k' : PrivateKey} (hs : Spec.SameShape k k') (hk : Spec.WellFormed k) (hk' : Spec.WellFormed k')
    (c c' : BoxedUint) (hw : c.nlimbs = k.pub.n.nlimbs) (hw' : c'.nlimbs = k'.pub.n.nlimbs)
    (hc : c.val < k.pub.n.val) (hc' : c'.val < k'.pub.n.val) :
    (leak.rsaDecryptAndCheck R fuel k rng c).ev = (leak.rsaDecryptAndCheck R' fuel k' rng' c').ev ↔
      Spec.SameBlinding R R' k.pub.n.val k'.pub.n.val fuel rng rng' :=
  ⟨leak.sameBlinding_of_ev R R' fuel rng rng' hk hk' c c' hc hc',
    fun hb => (leak.rsaDecryptAndCheck_rel R R' fuel hs hk hk' hb hw hw' hc hc').ev⟩

/-- C76: without a generator, or with the same one, two inputs to one key always make the same observations. -/
theorem C76_same_key {σ : Type} (R : RngImpl σ) (fuel : Nat) (rng : Option σ) {k : PrivateKey} (hk : Spec.WellFormed k)
    (c c' : BoxedUint) (hw : c.nlimbs = k.pub.n.nlimbs) (hw' : c'.nlimbs = k.pub.n.nlimbs)
    (hc : c.val < k.pub.n.val) (hc' : c'.val < k.pub.n.val) :
    (leak.rsaDecryptAndCheck R fuel k rng c).ev = (leak.rsaDecryptAndCheck R fuel k rng c').ev :=
  (C76_private_operation R R fuel rng rng (leak.sameShape_refl k) hk hk c c' hw hw' hc hc').mpr
    (leak.sameBlinding_refl R _ fuel rng)

private theorem octets_size_eq {k k' : PublicKey} (h : Spec.octetLen k.n.val = Spec.octetLen k'.n.val) : k.size = k'.size := by
  rw [leak.octetLen_eq, leak.octetLen_eq] at h
  exact h

/-- C76: PKCS#1 v1.5 signing, for two keys stored alike, two digests (and prefixes) of equal lengths and blinding draws which
turn out alike: equal observations exactly when the outcomes agree, up to the number of leading zero octets of the
signature. Nothing shows but what is in the signature. -/
theorem C76_pkcs1v15_sign {σ σ' : Type} (R : RngImpl σ) (R' : RngImpl σ') (fuel : Nat) (rng : Option σ)
    (rng' : Option σ') {k k' : PrivateKey} (hs : Spec.SameShape k k') (hk : Spec.WellFormed k) (hk' : Spec.WellFormed k')
    (hn : Spec.octetLen k.pub.n.val = Spec.octetLen k'.pub.n.val)
    (hb : Spec.SameBlinding R R' k.pub.n.val k'.pub.n.val fuel rng rng')
    (pfx pfx' hashed hashed' : Bytes) (hp : pfx.length = pfx'.length) (hh : hashed.length = hashed'.length) :
    (leak.pkcs1v15Sign R fuel rng k pfx hashed).ev = (leak.pkcs1v15Sign R' fuel rng' k' pfx' hashed').ev ↔
      Spec.outputOctets Spec.octetsOf (pkcs1v15.sign R fuel rng k pfx hashed) =
        Spec.outputOctets Spec.octetsOf (pkcs1v15.sign R' fuel rng' k' pfx' hashed') := by
  have hsz := octets_size_eq hn
  rw [← leak.pkcs1v15Sign_res, ← leak.pkcs1v15Sign_res]
  unfold leak.pkcs1v15Sign
  have hrel := leak.pkcs1v15SignPad_rel (show leak.SL pfx pfx' from hp) (show leak.SL hashed hashed' from hh) k.pub.size
  refine leak.rel_iff (by rw [← hsz]; exact hrel) ?_
  intro em em' hem hem' hl
  have key : ∀ {k : PrivateKey}, Spec.WellFormed k → ∀ {pfx hashed em : Bytes},
      pkcs1v15SignPad pfx hashed k.pub.size = .ok em → beVal em < k.pub.n.val := by
    intro k hk pfx hashed em h
    rw [pkcs1v15SignPad_eq] at h
    cases hem : Spec.emsaPkcs1v15 (pfx ++ hashed) k.pub.size with
    | none => rw [hem] at h; cases h
    | some e =>
      rw [hem] at h
      injection h with h
      subst h
      have hshape : e.length = k.pub.size ∧ e.head? = some 0 := by
        unfold Spec.emsaPkcs1v15 at hem
        split at hem
        · obtain rfl := Option.some.inj hem
          refine ⟨?_, rfl⟩
          simp at *; omega
        · cases hem
      exact block_lt k.pub (coherent_pos hk.coherent) hshape.1 hshape.2
  rw [leak.pkcs1v15SignPad_res] at hem hem'
  exact leak.private_tail_iff R R' fuel hs hk hk' hsz hb hl (key hk hem) (key hk' hem')

/-- C76: PSS signing with given salts of equal lengths likewise, in both implementations, for moduli of equal bit length. -/
theorem C76_pss_sign_with_salt {σ σ' : Type} (R : RngImpl σ) (R' : RngImpl σ') (fuel : Nat) (rng : Option σ)
    (rng' : Option σ') {k k' : PrivateKey} (hs : Spec.SameShape k k') (hk : Spec.WellFormed k) (hk' : Spec.WellFormed k')
    (hn : k.pub.n.val.size = k'.pub.n.val.size) (hp : k.pub.n.prec < 2 ^ 32)
    (hb : Spec.SameBlinding R R' k.pub.n.val k'.pub.n.val fuel rng rng') (D : HashFn) (hpos : 0 < D.outLen)
    (hashed hashed' salt salt' : Bytes) (hh : hashed.length = hashed'.length) (hsl : salt.length = salt'.length)
    (hadd : D.outLen + salt.length + 2 < 2 ^ 64) :
    ((leak.signPssWithSalt R fuel rng k hashed salt (DigestState.new D)).ev =
        (leak.signPssWithSalt R' fuel rng' k' hashed' salt' (DigestState.new D)).ev ↔
      Spec.outputOctets Spec.octetsOf (pss.signPssWithSalt R fuel rng k hashed salt (DigestState.new D)) =
        Spec.outputOctets Spec.octetsOf (pss.signPssWithSalt R' fuel rng' k' hashed' salt' (DigestState.new D))) ∧
    ((leak.signPssWithSaltDigest R fuel D rng k hashed salt).ev =
        (leak.signPssWithSaltDigest R' fuel D rng' k' hashed' salt').ev ↔
      Spec.outputOctets Spec.octetsOf (pss.signPssWithSaltDigest R fuel D rng k hashed salt) =
        Spec.outputOctets Spec.octetsOf (pss.signPssWithSaltDigest R' fuel D rng' k' hashed' salt')) := by
  have hn0 := coherent_pos hk.coherent
  have hn0' := coherent_pos hk'.coherent
  have hbits : k.pub.n.bits = k'.pub.n.bits := by rw [bits_eq_size, bits_eq_size, hn]
  have hsz : k.pub.size = k'.pub.size := by unfold PublicKey.size; rw [hbits]
  have hbl := bits_le_prec k.pub.n
  have hbp := RSA.bits_pos hn0
  have key : ∀ {k : PrivateKey}, Spec.WellFormed k → k.pub.n.bits < 2 ^ 32 → ∀ {hashed salt em : Bytes},
      D.outLen + salt.length + 2 < 2 ^ 64 →
      emsaPssEncode hashed (k.pub.n.bits - 1) salt (DigestState.new D) = .ok em → beVal em < k.pub.n.val := by
    intro k hk hbb hashed salt em hadd h
    by_cases hh : hashed.length = D.outLen
    · rw [emsaPssEncode_eq hashed _ salt D hpos hh hadd (by omega)] at h
      cases hem : Spec.emsaPss D.hash D.mgf D.outLen hashed salt (k.pub.n.bits - 1) with
      | none => rw [hem] at h; cases h
      | some e =>
        rw [hem] at h
        injection h with h
        subst h
        exact lt_of_lt_of_le (RSA.emsaPss_lt hpos hem) (RSA.pow_bits_le (coherent_pos hk.coherent))
    · have herr : emsaPssEncode hashed (k.pub.n.bits - 1) salt (DigestState.new D) = .err .inputNotHashed := by
        unfold emsaPssEncode
        exact if_pos hh
      rw [herr] at h
      cases h
  constructor
  · rw [← leak.signPssWithSalt_res, ← leak.signPssWithSalt_res]
    unfold leak.signPssWithSalt
    rw [← hbits, subU_of_le (by omega), Leak.ofRes_ok_bind, Leak.ofRes_ok_bind]
    refine leak.rel_iff (leak.emsaPssEncode_rel hh hsl ⟨rfl, rfl⟩ _) ?_
    intro em em' hem hem' hl
    rw [leak.emsaPssEncode_res] at hem hem'
    rw [hbits] at hem'
    exact leak.private_tail_iff R R' fuel hs hk hk' hsz hb hl (key hk (by omega) hadd hem)
      (key hk' (by omega) (by omega) hem')
  · rw [← leak.signPssWithSaltDigest_res, ← leak.signPssWithSaltDigest_res]
    unfold leak.signPssWithSaltDigest
    rw [← hbits, subU_of_le (by omega), Leak.ofRes_ok_bind, Leak.ofRes_ok_bind]
    refine leak.rel_iff (leak.emsaPssEncodeDigest_rel hh hsl D _) ?_
    intro em em' hem hem' hl
    rw [leak.emsaPssEncodeDigest_res, emsaPssEncodeDigest_agree] at hem hem'
    rw [hbits] at hem'
    exact leak.private_tail_iff R R' fuel hs hk hk' hsz hb hl (key hk (by omega) hadd hem)
      (key hk' (by omega) (by omega) hem')

/-- C76: PSS signing with generators which succeed alike on the salt and whose blinding draws turn out alike (if blinding is
on): the salt does not show. -/
theorem C76_pss_sign {σ σ' : Type} (R : RngImpl σ) (R' : RngImpl σ') (fuel : Nat) (s : σ) (s' : σ') (blind : Bool)
    {k k' : PrivateKey} (hs : Spec.SameShape k k') (hk : Spec.WellFormed k) (hk' : Spec.WellFormed k')
    (hn : k.pub.n.val.size = k'.pub.n.val.size) (hp : k.pub.n.prec < 2 ^ 32) (D : HashFn) (hpos : 0 < D.outLen)
    (hashed hashed' : Bytes) (hh : hashed.length = hashed'.length) (saltLen : Nat) (hadd : D.outLen + saltLen + 2 < 2 ^ 64)
    (hf : (R.fill s saltLen).1.isSome = (R'.fill s' saltLen).1.isSome)
    (hb : blind → Spec.SameDraws R R' k.pub.n.val k'.pub.n.val fuel (R.fill s saltLen).2 (R'.fill s' saltLen).2) :
    ((leak.pssSign R fuel s blind k hashed saltLen (DigestState.new D)).ev =
        (leak.pssSign R' fuel s' blind k' hashed' saltLen (DigestState.new D)).ev ↔
      Spec.outputOctets Spec.octetsOf (pss.sign R fuel s blind k hashed saltLen (DigestState.new D)) =
        Spec.outputOctets Spec.octetsOf (pss.sign R' fuel s' blind k' hashed' saltLen (DigestState.new D))) ∧
    ((leak.pssSignDigest R fuel D s blind k hashed saltLen).ev =
        (leak.pssSignDigest R' fuel D s' blind k' hashed' saltLen).ev ↔
      Spec.outputOctets Spec.octetsOf (pss.signDigest R fuel D s blind k hashed saltLen) =
        Spec.outputOctets Spec.octetsOf (pss.signDigest R' fuel D s' blind k' hashed' saltLen)) := by
  have hrel := leak.tryFill_rel R R' s s' saltLen hf
  have hb' : Spec.SameBlinding R R' k.pub.n.val k'.pub.n.val fuel
      (if blind then some (R.fill s saltLen).2 else none) (if blind then some (R'.fill s' saltLen).2 else none) := by
    cases blind
    · trivial
    · exact hb rfl
  have hlen : ∀ p, (leak.tryFill R s saltLen).res = .ok p → p.1.length = saltLen := by
    intro p hp
    rw [leak.tryFill_res] at hp
    unfold RngImpl.tryFill at hp
    have := R.fill_len s saltLen
    rcases hr : R.fill s saltLen with ⟨_ | b, t⟩ <;> rw [hr] at hp this <;> simp at hp
    subst hp
    exact this b rfl
  constructor
  · rw [← leak.pssSign_res, ← leak.pssSign_res]
    unfold leak.pssSign
    refine leak.rel_iff hrel ?_
    rintro ⟨b, t⟩ ⟨b', t'⟩ hp1 - ⟨hpq, h1, h2⟩
    have := hlen _ hp1
    dsimp only at h1 h2 this
    subst h1 h2
    have hsalt := (C76_pss_sign_with_salt R R' fuel _ _ hs hk hk' hn hp hb' D hpos hashed hashed' b b' hh hpq
      (by omega)).1
    rw [← leak.signPssWithSalt_res, ← leak.signPssWithSalt_res] at hsalt
    cases blind <;>
      simpa only [leak.branch, Leak.emit_bind, List.cons.injEq, true_and, Bool.false_eq_true, if_true, if_false] using hsalt
  · rw [← leak.pssSignDigest_res, ← leak.pssSignDigest_res]
    unfold leak.pssSignDigest
    refine leak.rel_iff hrel ?_
    rintro ⟨b, t⟩ ⟨b', t'⟩ hp1 - ⟨hpq, h1, h2⟩
    have := hlen _ hp1
    dsimp only at h1 h2 this
    subst h1 h2
    have hsalt := (C76_pss_sign_with_salt R R' fuel _ _ hs hk hk' hn hp hb' D hpos hashed hashed' b b' hh hpq
      (by omega)).2
    rw [← leak.signPssWithSaltDigest_res, ← leak.signPssWithSaltDigest_res] at hsalt
    cases blind <;>
      simpa only [leak.branch, Leak.emit_bind, List.cons.injEq, true_and, Bool.false_eq_true, if_true, if_false] using hsalt

/-- C76: PKCS#1 v1.5 encryption of two messages of the same length with the same generator: equal observations exactly when
the outcomes agree, up to the number of leading zero octets of the ciphertext. The message does not show. -/
theorem C76_pkcs1v15_encrypt {σ : Type} (R : RngImpl σ) (fuel : Nat) (s : σ) {k : PublicKey} (hk : k.Coherent)
    (m m' : Bytes) (hm : m.length = m'.length) :
    (leak.pkcs1v15Encrypt R fuel s k m).ev = (leak.pkcs1v15Encrypt R fuel s k m').ev ↔
      Spec.outputOctets (fun p => Spec.octetsOf p.1) (pkcs1v15.encrypt R fuel s k m) =
        Spec.outputOctets (fun p => Spec.octetsOf p.1) (pkcs1v15.encrypt R fuel s k m') := by
  rw [← leak.pkcs1v15Encrypt_res, ← leak.pkcs1v15Encrypt_res]
  unfold leak.pkcs1v15Encrypt
  refine leak.rel_iff (leak.eqrel _) ?_
  rintro _ _ - - -
  refine leak.rel_iff (leak.pkcs1v15EncryptPad_rel R fuel s hm _) ?_
  rintro p q - - ⟨hl, -⟩
  exact leak.public_tail_iff hk p.2 q.2 hl

/-- C76: OAEP encryption of two messages of the same length under the same label, with any generators which succeed alike
on the seed, in both implementations: neither message nor seed shows. -/
theorem C76_oaep_encrypt {σ σ' : Type} (R : RngImpl σ) (R' : RngImpl σ') (s : σ) (s' : σ') {k : PublicKey}
    (hk : k.Coherent) (m m' : Bytes) (hm : m.length = m'.length) (label : Option Bytes) :
    (∀ dg mg : DigestState, (R.fill s dg.outputSize).1.isSome = (R'.fill s' dg.outputSize).1.isSome →
      ((leak.oaepSchemeEncrypt R s k m dg mg label).ev = (leak.oaepSchemeEncrypt R' s' k m' dg mg label).ev ↔
      Spec.outputOctets (fun p => Spec.octetsOf p.1) (oaep.encrypt R s k m dg mg label) =
        Spec.outputOctets (fun p => Spec.octetsOf p.1) (oaep.encrypt R' s' k m' dg mg label))) ∧
    (∀ D MGD : HashFn, (R.fill s D.outLen).1.isSome = (R'.fill s' D.outLen).1.isSome →
      ((leak.oaepSchemeEncryptDigest R D MGD s k m label).ev = (leak.oaepSchemeEncryptDigest R' D MGD s' k m' label).ev ↔
      Spec.outputOctets (fun p => Spec.octetsOf p.1) (oaep.encryptDigest R D MGD s k m label) =
        Spec.outputOctets (fun p => Spec.octetsOf p.1) (oaep.encryptDigest R' D MGD s' k m' label))) := by
  constructor
  · intro dg mg hr
    rw [← leak.oaepSchemeEncrypt_res, ← leak.oaepSchemeEncrypt_res]
    unfold leak.oaepSchemeEncrypt
    refine leak.rel_iff (leak.eqrel _) ?_
    rintro _ _ - - -
    refine leak.rel_iff (leak.oaepEncrypt_rel R R' s s' hm dg mg label _ hr) ?_
    rintro p q - - hl
    exact leak.public_tail_iff hk p.2 q.2 hl
  · intro D MGD hr
    rw [← leak.oaepSchemeEncryptDigest_res, ← leak.oaepSchemeEncryptDigest_res]
    unfold leak.oaepSchemeEncryptDigest
    refine leak.rel_iff (leak.eqrel _) ?_
    rintro _ _ - - -
    refine leak.rel_iff (leak.oaepEncryptDigest_rel R R' s s' hm D MGD label _ hr) ?_
    rintro p q - - hl
    exact leak.public_tail_iff hk p.2 q.2 hl

namespace Ex

theorem prime107 : (2 ^ 107 - 1 : Nat).Prime := lucas_lehmer_sufficiency 107 (by norm_num) (by norm_num)

def nOddB : OddUint := ⟨wrap 4 ((2 ^ 107 - 1) * (2 ^ 127 - 1)), by decide⟩
def pOddB : OddUint := ⟨wrap 4 (2 ^ 107 - 1), by decide⟩

/-- Another key stored like `key`: primes `2^107 - 1` and `2^127 - 1`, exponents and modulus of the same widths. -/
def keyB : PrivateKey :=
  { pub := { n := nOddB.toBoxedUint, e := wrap 1 65537, nParams := ⟨nOddB⟩ }
    d := wrap 4 1344817444321764797984983022739468219102312296809690742034819763220963
    primes := [wrap 2 (2 ^ 107 - 1), wrap 2 (2 ^ 127 - 1)]
    precomputed := some
      { dp := wrap 4 109838267806753767390999997687145
        dq := wrap 4 113429186379523348228037317453566814889
        qinv := ⟨⟨pOddB⟩, 159704011408732424717963697831805⟩
        pParams := ⟨pOddB⟩
        qParams := ⟨qOdd⟩ } }

theorem keyB_wf : Spec.WellFormed keyB where
  coherent := rfl
  numbers :=
    { prime := by
        intro p hp
        rcases List.mem_cons.mp hp with rfl | hp
        · exact prime107
        · rcases List.mem_cons.mp hp with rfl | hp
          · exact prime127
          · simp at hp
      nodup := by decide
      two := by decide
      prod := by decide
      exp := by decide }
  width := by decide
  cache := by
    intro pre' h
    obtain rfl := Option.some.inj h
    exact ⟨⟨_, _, _, rfl, by decide, by decide, by decide, by decide, by decide⟩, rfl, rfl, rfl⟩

/-- `key` with its primes in the other order. -/
def keySwapped : PrivateKey :=
  { pub := pub, d := wrap 4 dVal, primes := [wrap 2 (2 ^ 127 - 1), wrap 2 (2 ^ 89 - 1)]
    precomputed := some
      { dp := wrap 4 113429186379523348228037317453566814889
        dq := wrap 4 463625422192654777564758143
        qinv := ⟨⟨qOdd⟩, 41543446089800687764988346889150465⟩
        pParams := ⟨qOdd⟩
        qParams := ⟨pOdd⟩ } }

theorem keySwapped_wf : Spec.WellFormed keySwapped where
  coherent := rfl
  numbers :=
    { prime := by
        intro p hp
        rcases List.mem_cons.mp hp with rfl | hp
        · exact prime127
        · rcases List.mem_cons.mp hp with rfl | hp
          · exact prime89
          · simp at hp
      nodup := by decide
      two := by decide
      prod := by decide
      exp := by decide }
  width := by decide
  cache := by
    intro pre' h
    obtain rfl := Option.some.inj h
    exact ⟨⟨_, _, _, rfl, by decide, by decide, by decide, by decide, by decide⟩, rfl, rfl, rfl⟩

end Ex

/-- Two keys with different primes stored alike, with different inputs and different blinding factors: the theorem applies
and the 48 observations are equal; with a first draw of zero they differ. -/
example : Spec.SameShape Ex.key Ex.keyB ∧ Spec.WellFormed Ex.key ∧ Spec.WellFormed Ex.keyB ∧
    Spec.SameBlinding Ex.countingRng Ex.countingRng Ex.key.pub.n.val Ex.keyB.pub.n.val 3 (some 5) (some 8) ∧
    (let run := fun (k : PrivateKey) (s : Option Nat) (c : Nat) => leak.rsaDecryptAndCheck Ex.countingRng 3 k s (wrap 4 c)
     (run Ex.key (some 5) (2 ^ 200)).ev = (run Ex.keyB (some 8) 3).ev ∧
     (run Ex.key (some 5) (2 ^ 200)).ev.length = 48 ∧
     (run Ex.key (some 5) (2 ^ 200)).ev ≠ (run Ex.keyB (some 0) 3).ev ∧
     (run Ex.key none (2 ^ 200)).ev = (run Ex.keyB none 3).ev ∧
     (run Ex.key none (2 ^ 200)).ev ≠ (run Ex.keyNoCrt none (2 ^ 200)).ev) := by
  refine ⟨⟨by decide, by decide, by decide, by decide, by decide⟩, Ex.key_wf, Ex.keyB_wf, ?_, by decide +kernel⟩
  simp only [Spec.SameBlinding, Spec.SameDraws, Ex.countingRng]
  decide +kernel

/-- PKCS#1 v1.5 signatures of two digests by two keys stored alike (the same modulus, the primes in either order): both
signatures have 27 octets after the leading zeros, so the observations are equal. -/
example : Spec.SameShape Ex.key Ex.keySwapped ∧ Spec.WellFormed Ex.keySwapped ∧
    Spec.octetLen Ex.key.pub.n.val = Spec.octetLen Ex.keySwapped.pub.n.val ∧
    Spec.SameBlinding Ex.countingRng Ex.countingRng Ex.key.pub.n.val Ex.keySwapped.pub.n.val 3 (some 5) (some 8) ∧
    (let a := leak.pkcs1v15Sign Ex.countingRng 3 (some 5) Ex.key [48] [1, 2, 3, 4]
     let b := leak.pkcs1v15Sign Ex.countingRng 3 (some 8) Ex.keySwapped [49] [9, 9, 9, 9]
     a.res ≠ b.res ∧ a.ev = b.ev ∧ Spec.outputOctets Spec.octetsOf a.res = .ok 27) := by
  refine ⟨⟨by decide, by decide, by decide, by decide, by decide⟩, Ex.keySwapped_wf, by decide, ?_, by decide +kernel⟩
  simp only [Spec.SameBlinding, Spec.SameDraws, Ex.countingRng]
  decide +kernel

/-- PSS signatures with different salts and digests: equal observations. -/
example :
    let a := leak.pssSign Ex.countingRng 3 5 true Ex.key [1, 2, 3, 4] 6 (DigestState.new Ex.hash4)
    let b := leak.pssSign Ex.countingRng 3 8 true Ex.keySwapped [9, 9, 9, 9] 6 (DigestState.new Ex.hash4)
    let a' := leak.pssSignDigest Ex.countingRng 3 Ex.hash4 5 true Ex.key [1, 2, 3, 4] 6
    let b' := leak.pssSignDigest Ex.countingRng 3 Ex.hash4 8 true Ex.keySwapped [9, 9, 9, 9] 6
    a.res ≠ b.res ∧ a.ev = b.ev ∧ a'.ev = b'.ev ∧ a.ev ≠ a'.ev ∧ Spec.outputOctets Spec.octetsOf a.res = .ok 27 := by
  decide +kernel

/-- Encryption of two messages of equal length: equal observations when the ciphertexts have equally many leading zero
octets, and different ones for messages of different lengths. -/
example : Ex.key.pub.Coherent ∧
    (let a := leak.pkcs1v15Encrypt Ex.countingRng 3 5 Ex.key.pub [1, 2, 3]
     let b := leak.pkcs1v15Encrypt Ex.countingRng 3 5 Ex.key.pub [0, 0, 0]
     let c := leak.pkcs1v15Encrypt Ex.countingRng 3 5 Ex.key.pub [0, 0]
     Spec.outputOctets (fun p => Spec.octetsOf p.1) a.res = .ok 27 ∧ a.res ≠ b.res ∧ a.ev = b.ev ∧ a.ev ≠ c.ev) ∧
    (let enc := fun (s : Nat) (m : Bytes) =>
      leak.oaepSchemeEncrypt Ex.countingRng s Ex.key.pub m (DigestState.new Ex.hash4) (DigestState.new Ex.tailHash) none
     Spec.outputOctets (fun p => Spec.octetsOf p.1) (enc 5 [1, 2, 3]).res = .ok 27 ∧
      (enc 5 [1, 2, 3]).ev = (enc 8 [0, 0, 0]).ev ∧
     (enc 5 [1, 2, 3]).ev ≠ (enc 5 [1, 2]).ev) :=
  ⟨rfl, by decide +kernel, by decide +kernel⟩

theorem Ex.sameShape : Spec.SameShape Ex.key Ex.keySwapped := ⟨by decide, by decide, by decide, by decide, by decide⟩
example := C76_private_operation Ex.countingRng Ex.countingRng 3 (some 5) (some 8) Ex.sameShape Ex.key_wf Ex.keySwapped_wf
  (wrap 4 12345) (wrap 4 54321) rfl rfl (by decide +kernel) (by decide +kernel)
example := C76_same_key Ex.countingRng 3 (some 5) Ex.key_wf (wrap 4 12345) (wrap 4 54321) rfl rfl (by decide +kernel)
  (by decide +kernel)
example := C76_pss_sign_with_salt Ex.countingRng Ex.countingRng 0 none none Ex.sameShape Ex.key_wf Ex.keySwapped_wf
  (by decide +kernel) (by decide) (by simp [Spec.SameBlinding]) Ex.hash4 (by decide) [1, 2, 3, 4] [9, 9, 9, 9] [5, 6] [7, 8]
  rfl rfl (by decide)
example := C76_pss_sign Ex.countingRng Ex.countingRng 0 5 8 false Ex.sameShape Ex.key_wf Ex.keySwapped_wf
  (by decide +kernel) (by decide) Ex.hash4 (by decide) [1, 2, 3, 4] [9, 9, 9, 9] rfl 6 (by decide) rfl (by simp)
example := C76_pkcs1v15_encrypt Ex.countingRng 3 5 (k := Ex.key.pub) Ex.key_wf.coherent [1, 2, 3] [0, 0, 0] rfl

end RSA
