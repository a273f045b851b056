import Verif.Proof.WordsPrivate
import Verif.Props.Words
import Verif.Props.Pss
import Verif.Props.EndToEnd

/-! C104: the private operations on machines with words of other sizes. -/
namespace RSA
open Spec
open words (PubKey PrivKey)
open BoxedUint (beBytes beVal beVal_lt beVal_eq_os2ip i2osp_eq pow256 beVal_beBytes natInvMod)

/-! ### Words of eight octets -/

def MontyParams.atWord8 (p : MontyParams) : words.Params 8 := ⟨p.modulus.toBoxedUint.atWord8, p.modulus.odd⟩
def MontyForm.atWord8 (x : MontyForm) : words.Monty 8 := ⟨x.params.atWord8, x.res⟩
def Precomputed.atWord8 (p : Precomputed) : words.Pre 8 :=
  ⟨p.dp.atWord8, p.dq.atWord8, p.qinv.atWord8, p.pParams.atWord8, p.qParams.atWord8⟩
/-- A private key of the other model files, as one of the parametrised model. -/
def PrivateKey.atWord8 (k : PrivateKey) (ho : k.pub.n.val % 2 = 1) : PrivKey 8 :=
  ⟨k.pub.atWord8 ho, k.d.atWord8, k.primes.map BoxedUint.atWord8, k.precomputed.map Precomputed.atWord8⟩

theorem params_atWord8_inj {p q : MontyParams} : p.atWord8 = q.atWord8 ↔ p = q := by
  constructor
  · intro h
    rcases p with ⟨⟨⟨l, v, h1⟩, h2⟩⟩
    rcases q with ⟨⟨⟨l', v', h1'⟩, h2'⟩⟩
    simp only [MontyParams.atWord8, BoxedUint.atWord8, words.Params.mk.injEq, words.Uint.mk.injEq] at h
    obtain ⟨rfl, rfl⟩ := h
    rfl
  · rintro rfl; rfl

theorem montyNew_word8 (x : BoxedUint) (p : MontyParams) :
    words.Monty.new x.atWord8 p.atWord8 = (MontyForm.new x p >>= fun m => .ok m.atWord8) := by
  unfold words.Monty.new MontyForm.new
  have h1 : x.atWord8.prec = x.prec := rfl
  have h2 : p.atWord8.prec = p.prec := rfl
  rw [h1, h2]
  split <;> rfl

theorem montySub_word8 (x y : MontyForm) :
    words.Monty.sub x.atWord8 y.atWord8 = (x.sub y >>= fun m => .ok m.atWord8) := by
  unfold words.Monty.sub MontyForm.sub
  have : (x.atWord8.params = y.atWord8.params) ↔ x.params = y.params := params_atWord8_inj
  by_cases h : x.params = y.params
  · rw [if_pos h, if_pos (this.mpr h)]; rfl
  · rw [if_neg h, if_neg (fun h' => h (this.mp h'))]; rfl

theorem montyMul_word8 (x y : MontyForm) :
    words.Monty.mul x.atWord8 y.atWord8 = (x.mul y >>= fun m => .ok m.atWord8) := by
  unfold words.Monty.mul MontyForm.mul
  have : (x.atWord8.params = y.atWord8.params) ↔ x.params = y.params := params_atWord8_inj
  by_cases h : x.params = y.params
  · rw [if_pos h, if_pos (this.mpr h)]; rfl
  · rw [if_neg h, if_neg (fun h' => h (this.mp h'))]; rfl

theorem widen_word8 (x : BoxedUint) (b : Nat) : x.atWord8.widen b = (x.widen b >>= fun m => .ok m.atWord8) := by
  unfold words.Uint.widen BoxedUint.widen
  have : x.atWord8.prec = x.prec := rfl
  rw [this]
  split <;> rfl

theorem shorten_word8 (x : BoxedUint) (b : Nat) : x.atWord8.shorten b = (x.shorten b >>= fun m => .ok m.atWord8) := by
  unfold words.Uint.shorten BoxedUint.shorten
  have : x.atWord8.prec = x.prec := rfl
  rw [this]
  split <;> rfl

theorem primeAt_word8 (l : List BoxedUint) (i : Nat) :
    words.primeAt (l.map BoxedUint.atWord8) i = (primeAt l i >>= fun m => .ok m.atWord8) := by
  unfold words.primeAt primeAt
  rw [List.getElem?_map]
  cases l[i]? <;> rfl

theorem powModParams_word8 (k : PublicKey) (hk : k.Coherent) (ho : k.n.val % 2 = 1) (x y : BoxedUint) :
    words.powModParams x.atWord8 y.atWord8 k.n.atWord8 = (powModParams x y k.nParams >>= fun m => .ok m.atWord8) :=
  rsaEncrypt_word8 { k with e := y } hk ho x

theorem mulModParams_word8 (x y : BoxedUint) (p : MontyParams) :
    words.mulModParams x.atWord8 y.atWord8 p.atWord8 = (mulModParams x y p >>= fun m => .ok m.atWord8) := by
  unfold words.mulModParams mulModParams
  rw [montyNew_word8, montyNew_word8]
  cases MontyForm.new x p with
  | ok a =>
    simp only [Res.ok_bind]
    cases MontyForm.new y p with
    | ok b =>
      simp only [Res.ok_bind]
      rw [montyMul_word8]
      cases a.mul b <;> rfl
    | _ => rfl
  | _ => rfl

theorem rsaPrivateExp_word8 (k : PrivateKey) (hk : k.pub.Coherent) (ho : k.pub.n.val % 2 = 1) (c : BoxedUint) :
    words.rsaPrivateExp (k.atWord8 ho) c.atWord8 = (rsaPrivateExp k c >>= fun m => .ok m.atWord8) := by
  have hplain := powModParams_word8 k.pub hk ho c k.d
  have hlen : (k.primes.map BoxedUint.atWord8).length = k.primes.length := List.length_map ..
  unfold words.rsaPrivateExp rsaPrivateExp
  have hdec : decide ((k.atWord8 ho).primes.length > 2) = decide (k.primes.length > 2) := by
    have : (k.atWord8 ho).primes.length = k.primes.length := hlen
    simp only [this]
  have hpre : (k.atWord8 ho).precomputed = k.precomputed.map Precomputed.atWord8 := rfl
  have hpr : (k.atWord8 ho).primes = k.primes.map BoxedUint.atWord8 := rfl
  dsimp only
  rw [hdec, hpre, hpr]
  cases k.precomputed with
  | none => exact hplain
  | some pre =>
    cases decide (k.primes.length > 2) with
    | true => exact hplain
    | false =>
      simp only [Option.map_some]
      rw [primeAt_word8, primeAt_word8]
      cases primeAt k.primes 0 with
      | ok p =>
        simp only [Res.ok_bind]
        cases primeAt k.primes 1 with
        | ok q =>
          simp only [Res.ok_bind]
          have e1 : pre.atWord8.pParams = pre.pParams.atWord8 := rfl
          have e2 : pre.atWord8.qParams = pre.qParams.atWord8 := rfl
          rw [e1, e2, montyNew_word8, montyNew_word8]
          cases MontyForm.new c pre.pParams with
          | ok cp =>
            simp only [Res.ok_bind]
            cases MontyForm.new c pre.qParams with
            | ok cq =>
              simp only [Res.ok_bind]
              have e3 : (cq.atWord8.pow pre.atWord8.dq).retrieve = (cq.pow pre.dq).retrieve.atWord8 := rfl
              rw [e3, montyNew_word8]
              cases MontyForm.new (cq.pow pre.dq).retrieve pre.pParams with
              | ok m2 =>
                simp only [Res.ok_bind]
                have e4 : cp.atWord8.pow pre.atWord8.dp = (cp.pow pre.dp).atWord8 := rfl
                rw [e4, montySub_word8]
                cases (cp.pow pre.dp).sub m2 with
                | ok m1 =>
                  simp only [Res.ok_bind]
                  have e5 : pre.atWord8.qinv = pre.qinv.atWord8 := rfl
                  rw [e5, montyMul_word8]
                  cases pre.qinv.mul m1 <;> rfl
                | _ => rfl
              | _ => rfl
            | _ => rfl
          | _ => rfl
        | _ => rfl
      | _ => rfl

theorem blindLoop_word8 {σ : Type} (R : RngImpl σ) (n : BoxedUint) : ∀ (fuel : Nat) (s : σ),
    words.blindLoop R n.atWord8 fuel s =
      (blindLoop R n fuel s >>= fun x => .ok ((x.1.1.atWord8, x.1.2.atWord8), x.2)) := by
  intro fuel
  induction fuel with
  | zero => intro s; rfl
  | succ f ih =>
    intro s
    rw [words.blindLoop, blindLoop]
    have e0 : n.atWord8.val = n.val := rfl
    rw [e0]
    rcases R.randMod s n.val with ⟨_ | rv, s1⟩
    · rfl
    · dsimp only
      have e1 : (if (words.Uint.wrap (w := 8) n.atWord8.nlimbs rv).isZero = true then
            words.Uint.oneWithPrecision (w := 8) n.atWord8.prec else words.Uint.wrap (w := 8) n.atWord8.nlimbs rv) =
          (if (BoxedUint.wrap n.nlimbs rv).isZero = true then BoxedUint.oneWithPrecision n.prec
            else BoxedUint.wrap n.nlimbs rv).atWord8 := by
        have e2 : (words.Uint.wrap (w := 8) n.atWord8.nlimbs rv).isZero = (BoxedUint.wrap n.nlimbs rv).isZero := rfl
        rw [e2]
        split <;> rfl
      rw [e1]
      generalize (if (BoxedUint.wrap n.nlimbs rv).isZero = true then BoxedUint.oneWithPrecision n.prec
            else BoxedUint.wrap n.nlimbs rv) = r
      have e3 : r.atWord8.invMod n.atWord8 = (r.invMod n).map BoxedUint.atWord8 := by
        unfold words.Uint.invMod BoxedUint.invMod
        have : natInvMod r.atWord8.val n.atWord8.val = natInvMod r.val n.val := rfl
        rw [this]
        cases natInvMod r.val n.val <;> rfl
      rw [e3]
      cases r.invMod n with
      | none => exact ih s1
      | some ir => rfl

theorem rsaDecrypt_word8 {σ : Type} (R : RngImpl σ) (fuel : Nat) (rng : Option σ) (k : PrivateKey) (hk : k.pub.Coherent)
    (ho : k.pub.n.val % 2 = 1) (c : BoxedUint) :
    words.rsaDecrypt R fuel rng (k.atWord8 ho) c.atWord8 =
      (rsaDecrypt R fuel rng k c >>= fun x => .ok (x.1.atWord8, x.2)) := by
  have hnp : (k.atWord8 ho).pub.nParams = k.pub.nParams.atWord8 := by
    have : k.pub.nParams.modulus.toBoxedUint = k.pub.n := hk
    unfold words.PubKey.nParams MontyParams.atWord8
    simp only [this]
    rfl
  unfold words.rsaDecrypt rsaDecrypt
  have hge : c.atWord8.ge (k.atWord8 ho).pub.n = c.ge k.pub.n := rfl
  simp only [hge]
  by_cases hg : c.ge k.pub.n = true
  · rw [if_pos hg, if_pos hg]; rfl
  · rw [if_neg hg, if_neg hg]
    have hd : (k.atWord8 ho).d.prec = k.d.prec := rfl
    have hpp : (k.atWord8 ho).pub.nParams.prec = k.pub.nParams.prec := by rw [hnp]; rfl
    rw [hd, hpp]
    cases rng with
    | none =>
      dsimp only
      rw [widen_word8]
      cases c.widen k.d.prec with
      | ok c' =>
        simp only [Res.ok_bind]
        rw [rsaPrivateExp_word8 k hk ho]
        cases rsaPrivateExp k c' with
        | ok m =>
          simp only [Res.ok_bind]
          rw [shorten_word8]
          cases m.shorten k.pub.nParams.prec <;> rfl
        | _ => rfl
      | _ => rfl
    | some s =>
      dsimp only
      have hb : words.blind R fuel s (k.atWord8 ho).pub c.atWord8 =
          (blind R fuel s k.pub c k.pub.nParams >>= fun x => .ok ((x.1.1.atWord8, x.1.2.atWord8), x.2)) := by
        have hbe : k.pub.n.beq k.pub.nParams.modulus.toBoxedUint = true := by
          have : k.pub.nParams.modulus.toBoxedUint = k.pub.n := hk
          simp [BoxedUint.beq, this]
        unfold words.blind blind
        simp only [hbe, Bool.not_true, Bool.false_eq_true, if_false]
        have e1 : (k.atWord8 ho).pub.n = k.pub.n.atWord8 := rfl
        rw [e1, blindLoop_word8]
        cases blindLoop R k.pub.n fuel s with
        | ok x =>
          obtain ⟨⟨r, ir⟩, s'⟩ := x
          simp only [Res.ok_bind]
          have e2 : (k.atWord8 ho).pub.e = k.pub.e.atWord8 := rfl
          rw [e2, powModParams_word8 k.pub hk ho]
          cases powModParams r k.pub.e k.pub.nParams with
          | ok rp =>
            simp only [Res.ok_bind]
            rw [hnp, mulModParams_word8]
            cases mulModParams c rp k.pub.nParams with
            | ok b =>
              simp only [Res.ok_bind]
              have e3 : b.atWord8.prec = b.prec := rfl
              have e4 : ir.atWord8.prec = ir.prec := rfl
              have e5 : (k.atWord8 ho).pub.nBitsPrecision = k.pub.nBitsPrecision := rfl
              rw [e3, e4, e5]
              split
              · rfl
              · split <;> rfl
            | _ => rfl
          | _ => rfl
        | _ => rfl
      rw [hb]
      cases blind R fuel s k.pub c k.pub.nParams with
      | ok x =>
        obtain ⟨⟨b, u⟩, s'⟩ := x
        simp only [Res.ok_bind]
        rw [widen_word8]
        cases b.widen k.d.prec with
        | ok c' =>
          simp only [Res.ok_bind]
          rw [rsaPrivateExp_word8 k hk ho]
          cases rsaPrivateExp k c' with
          | ok m =>
            simp only [Res.ok_bind]
            rw [shorten_word8]
            cases m.shorten k.pub.nParams.prec with
            | ok m' =>
              simp only [Res.ok_bind]
              have hu : words.unblind m'.atWord8 u.atWord8 (k.atWord8 ho).pub.nParams =
                  (unblind m' u k.pub.nParams >>= fun x => .ok x.atWord8) := by
                unfold words.unblind unblind
                have e3 : m'.atWord8.prec = m'.prec := rfl
                have e4 : u.atWord8.prec = u.prec := rfl
                rw [e3, e4, hpp, hnp, mulModParams_word8]
                split
                · rfl
                · split
                  · rfl
                  · rfl
              rw [hu]
              cases unblind m' u k.pub.nParams <;> rfl
            | _ => rfl
          | _ => rfl
        | _ => rfl
      | _ => rfl

/-- C104: with words of eight octets the parametrised private operation is that of the rest of the model. -/
theorem C104_word8 {σ : Type} (R : RngImpl σ) (fuel : Nat) (rng : Option σ) (k : PrivateKey) (hk : k.pub.Coherent)
    (ho : k.pub.n.val % 2 = 1) (c : BoxedUint) :
    words.rsaDecryptAndCheck R fuel (k.atWord8 ho) rng c.atWord8 =
      (rsaDecryptAndCheck R fuel k rng c >>= fun x => .ok (x.1.atWord8, x.2)) := by
  unfold words.rsaDecryptAndCheck rsaDecryptAndCheck
  rw [rsaDecrypt_word8 R fuel rng k hk ho]
  cases rsaDecrypt R fuel rng k c with
  | ok x =>
    obtain ⟨m, r⟩ := x
    simp only [Res.ok_bind]
    have e1 : (k.atWord8 ho).pub = k.pub.atWord8 ho := rfl
    rw [e1, rsaEncrypt_word8 k.pub hk ho]
    cases rsaEncrypt k.pub m with
    | ok ch =>
      simp only [Res.ok_bind]
      have e2 : c.atWord8.beq ch.atWord8 = c.beq ch := rfl
      rw [e2]
      split <;> rfl
    | _ => rfl
  | _ => rfl

theorem privateBytes_word8 {σ α : Type} (R : RngImpl σ) (fuel : Nat) (rng : Option σ) (k : PrivateKey)
    (hk : k.pub.Coherent) (ho : k.pub.n.val % 2 = 1) (b : Bytes) (f : Bytes → Res α) :
    (words.Uint.fromBeSlice 8 b (k.atWord8 ho).pub.nBitsPrecision >>= fun c =>
      words.rsaDecryptAndCheck R fuel (k.atWord8 ho) rng c >>= fun x =>
      words.uintToZeroizingBePad x.1 (k.atWord8 ho).pub.size >>= f) =
    (BoxedUint.fromBeSlice b k.pub.nBitsPrecision >>= fun c =>
      rsaDecryptAndCheck R fuel k rng c >>= fun x => uintToZeroizingBePad x.1 k.pub.size >>= f) := by
  have e1 : (k.atWord8 ho).pub.nBitsPrecision = k.pub.nBitsPrecision := rfl
  rw [e1, fromBeSlice_word8]
  cases BoxedUint.fromBeSlice b k.pub.nBitsPrecision with
  | ok c =>
    simp only [Res.ok_bind]
    rw [C104_word8 R fuel rng k hk ho]
    cases rsaDecryptAndCheck R fuel k rng c with
    | ok x => rfl
    | _ => rfl
  | _ => rfl

/-- C104: with words of eight octets, signing, decryption and the computation of the cached values are those of the rest of
the model. -/
theorem C104_word8_schemes {σ : Type} (R : RngImpl σ) (fuel : Nat) (rng : Option σ) (k : PrivateKey)
    (hk : k.pub.Coherent) (ho : k.pub.n.val % 2 = 1) :
    (∀ pfx hashed, words.pkcs1v15Sign R fuel rng (k.atWord8 ho) pfx hashed = pkcs1v15.sign R fuel rng k pfx hashed) ∧
    (∀ hashed salt digest, words.signPssWithSalt R fuel rng (k.atWord8 ho) hashed salt digest =
      pss.signPssWithSalt R fuel rng k hashed salt digest) ∧
    (∀ ct, words.pkcs1v15Decrypt R fuel rng (k.atWord8 ho) ct = pkcs1v15.decrypt R fuel rng k ct) ∧
    (∀ ct digest mgfDigest label, words.oaepDecrypt R fuel rng (k.atWord8 ho) ct digest mgfDigest label =
      oaep.decrypt R fuel rng k ct digest mgfDigest label) := by
  have hb := fun b => @privateBytes_word8 σ Bytes R fuel rng k hk ho b
  have hid : ∀ x : Res Bytes, (x >>= Res.ok) = x := by intro x; cases x <;> rfl
  have hs : (k.atWord8 ho).pub.size = k.pub.size := rfl
  refine ⟨?_, ?_, ?_, ?_⟩
  · intro pfx hashed
    unfold words.pkcs1v15Sign pkcs1v15.sign
    rw [hs]
    cases pkcs1v15SignPad pfx hashed k.pub.size with
    | ok em => have := hb em Res.ok; simp only [hid] at this; exact this
    | _ => rfl
  · intro hashed salt digest
    unfold words.signPssWithSalt pss.signPssWithSalt
    have hn : (k.atWord8 ho).pub.n.bits = k.pub.n.bits := rfl
    rw [hn]
    cases subU k.pub.n.bits 1 with
    | ok emBits =>
      simp only [Res.ok_bind]
      cases emsaPssEncode hashed emBits salt digest with
      | ok em => have := hb em Res.ok; simp only [hid] at this; exact this
      | _ => rfl
    | _ => rfl
  · intro ct
    unfold words.pkcs1v15Decrypt pkcs1v15.decrypt
    have hc : words.checkPublic (k.atWord8 ho).pub = checkPublic k.pub := by
      unfold words.checkPublic words.checkPublicWithMaxSize checkPublic checkPublicWithMaxSize
      have h1 : (BoxedUint.ofU64 minPubExponent).val = minPubExponent.toNat := by decide
      have h2 : (BoxedUint.ofU64 maxPubExponent).val = maxPubExponent.toNat := by decide
      simp only [BoxedUint.lt, BoxedUint.gt, h1, h2]
      simp only [decide_eq_true_eq]
      rfl
    rw [hc]
    cases checkPublic k.pub with
    | ok u => exact hb ct _
    | _ => rfl
  · intro ct digest mgfDigest label
    unfold words.oaepDecrypt oaep.decrypt
    rw [hs]
    split
    · rfl
    · exact hb ct _

theorem oddOrInvalid_word8 (x : BoxedUint) :
    words.oddOrInvalid x.atWord8 = (PrivateKey.oddOrInvalid x >>= fun o => .ok (MontyParams.atWord8 ⟨o⟩)) := by
  unfold words.oddOrInvalid PrivateKey.oddOrInvalid OddUint.new
  by_cases h : x.val % 2 = 1
  · rw [dif_pos (show x.atWord8.val % 2 = 1 from h), dif_pos h]; rfl
  · rw [dif_neg (show ¬ x.atWord8.val % 2 = 1 from h), dif_neg h]; rfl

theorem nonZeroDec_word8 (x : BoxedUint) : words.nonZeroOrInvalid x.atWord8.wrappingDec =
    (PrivateKey.nonZeroOrInvalid (x.wrappingSub BoxedUint.one) >>= fun y => .ok y.atWord8) := by
  have h : x.atWord8.wrappingDec = (x.wrappingSub BoxedUint.one).atWord8 := rfl
  rw [h]
  unfold words.nonZeroOrInvalid PrivateKey.nonZeroOrInvalid BoxedUint.nonZero
  by_cases h0 : (x.wrappingSub BoxedUint.one).val = 0
  · rw [if_pos (show (x.wrappingSub BoxedUint.one).atWord8.val = 0 from h0)]
    simp [h0]
  · rw [if_neg (show ¬ (x.wrappingSub BoxedUint.one).atWord8.val = 0 from h0)]
    simp [h0]

/-- C104: with words of eight octets, `precompute` computes the values of the rest of the model. -/
theorem C104_word8_precompute (d : BoxedUint) (primes : List BoxedUint) :
    words.precomputeValues d.atWord8 (primes.map BoxedUint.atWord8) =
      (PrivateKey.precomputeValues d primes >>= fun x => .ok x.atWord8) := by
  have hat : ∀ i, words.primeAt (primes.map BoxedUint.atWord8) i =
      (primeAt primes i >>= fun x => .ok x.atWord8) := by
    intro i
    unfold words.primeAt primeAt
    rw [List.getElem?_map]
    cases primes[i]? <;> rfl
  unfold words.precomputeValues PrivateKey.precomputeValues
  rw [hat, hat]
  have hd : d.atWord8.prec = d.prec := rfl
  cases primeAt primes 0 with
  | ok p =>
    simp only [Res.ok_bind]
    rw [hd, widen_word8]
    cases p.widen d.prec with
    | ok p =>
      simp only [Res.ok_bind]
      cases primeAt primes 1 with
      | ok q =>
        simp only [Res.ok_bind]
        rw [widen_word8]
        cases q.widen d.prec with
        | ok q =>
          simp only [Res.ok_bind]
          rw [oddOrInvalid_word8]
          cases PrivateKey.oddOrInvalid p with
          | ok po =>
            simp only [Res.ok_bind]
            rw [oddOrInvalid_word8]
            cases PrivateKey.oddOrInvalid q with
            | ok qo =>
              simp only [Res.ok_bind]
              rw [nonZeroDec_word8]
              cases PrivateKey.nonZeroOrInvalid (p.wrappingSub BoxedUint.one) with
              | ok x =>
                simp only [Res.ok_bind]
                rw [nonZeroDec_word8]
                cases PrivateKey.nonZeroOrInvalid (q.wrappingSub BoxedUint.one) with
                | ok y =>
                  simp only [Res.ok_bind]
                  rw [montyNew_word8]
                  cases MontyForm.new q ⟨po⟩ with
                  | ok qm =>
                    simp only [Res.ok_bind]
                    have hi : qm.atWord8.invert = qm.invert.map MontyForm.atWord8 := by
                      unfold words.Monty.invert MontyForm.invert
                      show (natInvMod qm.res qm.params.mod).map _ = _
                      cases natInvMod qm.res qm.params.mod <;> rfl
                    rw [hi]
                    cases qm.invert with
                    | none => rfl
                    | some qinv =>
                      simp only [Option.map_some]
                      by_cases hc : (d.rem x).prec ≠ d.prec ∨ (d.rem y).prec ≠ d.prec ∨ qinv.params.prec ≠ d.prec ∨
                          MontyParams.prec ⟨po⟩ ≠ d.prec ∨ MontyParams.prec ⟨qo⟩ ≠ d.prec
                      · rw [if_pos hc]; exact if_pos hc
                      · rw [if_neg hc]; exact if_neg hc
                  | _ => rfl
                | _ => rfl
              | _ => rfl
            | _ => rfl
          | _ => rfl
        | _ => rfl
      | _ => rfl
    | _ => rfl
  | _ => rfl

variable {w w' : Nat}

/-! ### Words of any size -/

/-- C104: on every machine the checked private operation of a well-formed key returns `c ^ d mod n` at the width of the
modulus, whatever the blinding factor; failing that, the generator failed or never gave a usable value. A number not below
the modulus is refused. -/
theorem C104_private {σ : Type} (hw : 0 < w) (R : RngImpl σ) (fuel : Nat) (rng : Option σ) {K : PrivKey w}
    (hK : WordsWellFormed K) (c : words.Uint w) :
    (K.pub.n.val ≤ c.val → words.rsaDecryptAndCheck R fuel K rng c = .err .decryption) ∧
    (c.val < K.pub.n.val → c.nlimbs = K.pub.n.nlimbs →
      ((∃ m rng', words.rsaDecryptAndCheck R fuel K rng c = .ok (m, rng') ∧ m.nlimbs = K.pub.n.nlimbs ∧
          m.val = c.val ^ K.d.val % K.pub.n.val ∧ m.val ^ K.pub.e.val % K.pub.n.val = c.val) ∨
        (rng.isSome ∧ words.rsaDecryptAndCheck R fuel K rng c = .err .rng) ∨
        (rng.isSome ∧ words.rsaDecryptAndCheck R fuel K rng c = .loop)) ∧
      (BlindingOk R K.pub.n.val fuel rng → ∃ m rng', words.rsaDecryptAndCheck R fuel K rng c = .ok (m, rng') ∧
        m.nlimbs = K.pub.n.nlimbs ∧ m.val = c.val ^ K.d.val % K.pub.n.val)) := by
  refine ⟨words.rsaDecryptAndCheck_ge R fuel rng K c, fun hc hl => ⟨?_, fun hb => ?_⟩⟩
  · rcases words.rsaDecryptAndCheck_cases hw R fuel rng hK c hl hc with ⟨r, h⟩ | h | h
    · refine Or.inl ⟨_, r, h, rfl, words.Uint.wrap_mod_val _ K.pub.pos _, ?_⟩
      rw [words.Uint.wrap_mod_val _ K.pub.pos, ← Nat.pow_mod, ← pow_mul, words.wf_rsa hK, Nat.mod_eq_of_lt hc]
    · exact Or.inr (Or.inl h)
    · exact Or.inr (Or.inr h)
  · obtain ⟨r, h⟩ := words.rsaDecryptAndCheck_ok hw R fuel rng hK c hl hc hb
    exact ⟨_, r, h, rfl, words.Uint.wrap_mod_val _ K.pub.pos _⟩

/-- C104: on every machine, `precompute` on a well-formed key whose first two primes are no wider than `d` computes values
with which the key is well-formed. -/
theorem C104_precompute (hw : 0 < w) {K : PrivKey w} (hK : WordsWellFormed K)
    (hwide : ∀ p ∈ K.primes, p.nlimbs ≤ K.d.nlimbs) :
    ∃ pre, words.precomputeValues K.d K.primes = .ok pre ∧ WordsWellFormed { K with precomputed := some pre } := by
  have hnum := hK.numbers
  have hdl : 1 ≤ K.d.nlimbs := le_trans (words.Uint.nlimbs_pos _ K.pub.pos) hK.width
  obtain ⟨p, q, rest, hpr⟩ : ∃ p q rest, K.primes = p :: q :: rest := by
    have := hnum.two
    rcases hl : K.primes with _ | ⟨p, _ | ⟨q, rest⟩⟩
    · simp [hl] at this
    · simp [hl] at this
    · exact ⟨p, q, rest, rfl⟩
  have hodd : ∀ x ∈ K.primes, x.val % 2 = 1 := by
    intro x hx
    have hp := hnum.prime _ (List.mem_map_of_mem hx)
    rcases hp.eq_two_or_odd with h | h
    · have := hnum.exp _ (List.mem_map_of_mem hx)
      rw [h] at this; simp [Nat.mod_one] at this
    · exact h
  have hpm : p ∈ K.primes := by rw [hpr]; simp
  have hqm : q ∈ K.primes := by rw [hpr]; simp
  have hpp := hnum.prime _ (List.mem_map_of_mem hpm)
  have hqq := hnum.prime _ (List.mem_map_of_mem hqm)
  have hne : p.val ≠ q.val := by
    have := hnum.nodup
    rw [hpr] at this
    simp only [List.map_cons, List.nodup_cons, List.mem_cons, not_or] at this
    exact this.1.1
  obtain ⟨pre, h1, h2, h3, h4, h5, h6, h7, h8, h9⟩ := words.precomputeValues_exists hw (d := K.d) (p := p) (q := q)
    (rest := rest) hdl (hwide p hpm) (hwide q hqm) (hodd p hpm) (hodd q hqm) hpp.one_lt hqq.one_lt
    ((Nat.coprime_primes hqq hpp).mpr (Ne.symm hne))
  refine ⟨pre, by rw [hpr]; exact h1, hnum, hK.width, ?_⟩
  intro pre' hpre
  obtain rfl : pre = pre' := Option.some.inj hpre
  exact ⟨⟨p, q, rest, hpr, h2, h3, h4, h5, h6⟩, h7, h8, h9⟩

/-- C104: two machines with the same key make the same signatures, and find the same plaintexts in ciphertexts that both
can read, whatever their generators and the values they cache. -/
theorem C104_same {σ σ' : Type} (hw : 0 < w) (hw' : 0 < w') (R : RngImpl σ) (R' : RngImpl σ') (fuel fuel' : Nat)
    (rng : Option σ) (rng' : Option σ') {K : PrivKey w} {K' : PrivKey w'} (hK : WordsWellFormed K)
    (hK' : WordsWellFormed K') (hn : K.pub.n.val = K'.pub.n.val) (hd : K.d.val = K'.d.val)
    (hb : BlindingOk R K.pub.n.val fuel rng) (hb' : BlindingOk R' K'.pub.n.val fuel' rng') :
    (∀ pfx hashed, words.pkcs1v15Sign R fuel rng K pfx hashed = words.pkcs1v15Sign R' fuel' rng' K' pfx hashed) ∧
    (∀ (D : HashFn) hashed salt, 0 < D.outLen → K.pub.n.val.size < 2 ^ 32 → hashed.length = D.outLen →
      D.outLen + salt.length + 2 < 2 ^ 64 →
      words.signPssWithSalt R fuel rng K hashed salt (DigestState.new D) =
        words.signPssWithSalt R' fuel' rng' K' hashed salt (DigestState.new D)) ∧
    (∀ ct digest mgfDigest label, words.oaepDecrypt R fuel rng K ct digest mgfDigest label =
      words.oaepDecrypt R' fuel' rng' K' ct digest mgfDigest label) ∧
    (∀ ct, ct.length ≤ w * K.pub.n.nlimbs → ct.length ≤ w' * K'.pub.n.nlimbs →
      words.checkPublic K.pub = words.checkPublic K'.pub →
      words.pkcs1v15Decrypt R fuel rng K ct = words.pkcs1v15Decrypt R' fuel' rng' K' ct) := by
  refine ⟨?_, ?_, ?_, ?_⟩
  · intro pfx hashed
    rw [words.pkcs1v15Sign_eq hw R fuel rng hK pfx hashed hb, words.pkcs1v15Sign_eq hw' R' fuel' rng' hK' pfx hashed hb',
      K.pub.size_eq, K'.pub.size_eq, hn, hd]
  · intro D hashed salt hpos hs hh hadd
    rw [words.signPssWithSalt_eq hw R fuel rng hK hashed salt D hpos hs hh hadd hb,
      words.signPssWithSalt_eq hw' R' fuel' rng' hK' hashed salt D hpos (hn ▸ hs) hh hadd hb', K.pub.size_eq,
      K'.pub.size_eq, hn, hd]
  · intro ct digest mgfDigest label
    unfold words.oaepDecrypt
    by_cases hl : ct.length = octetLen K.pub.n.val
    · rw [if_neg (by rw [K.pub.size_eq]; simpa using hl), if_neg (by rw [K'.pub.size_eq, ← hn]; simpa using hl)]
      rw [words.privateBytes_ok hw R fuel rng hK hb ct, words.privateBytes_ok hw' R' fuel' rng' hK' hb' ct,
        if_pos (show ct.length ≤ w * K.pub.n.nlimbs by rw [hl, ← K.pub.size_eq]; exact K.pub.size_le),
        if_pos (show ct.length ≤ w' * K'.pub.n.nlimbs by rw [hl, hn, ← K'.pub.size_eq]; exact K'.pub.size_le), K.pub.size_eq,
        K'.pub.size_eq, hn, hd]
    · rw [if_pos (by rw [K.pub.size_eq]; exact hl), if_pos (by rw [K'.pub.size_eq, ← hn]; exact hl)]
  · intro ct h h' hc
    unfold words.pkcs1v15Decrypt
    rw [hc, words.privateBytes_ok hw R fuel rng hK hb ct, words.privateBytes_ok hw' R' fuel' rng' hK' hb' ct,
      if_pos h, if_pos h', K.pub.size_eq, K'.pub.size_eq, hn, hd]

/-- C104: machines whose words divide the greatest size allowed agree on which public keys, stored without spare words, are
acceptable. -/
theorem C104_check (hw : 0 < w) (hw' : 0 < w') (hd : 8 * w ∣ 4096) (hd' : 8 * w' ∣ 4096) (K : PubKey w) (K' : PubKey w')
    (hn : K.n.val = K'.n.val) (he : K.e.val = K'.e.val) (hK : WordsFor w (octetLen K.n.val) K.n.nlimbs)
    (hK' : WordsFor w' (octetLen K'.n.val) K'.n.nlimbs) : words.checkPublic K = words.checkPublic K' := by
  have key : ∀ {v : Nat}, 0 < v → 8 * v ∣ 4096 → ∀ Q : PubKey v, WordsFor v (octetLen Q.n.val) Q.n.nlimbs →
      (Q.n.prec > maxSize ↔ 512 < octetLen Q.n.val) := by
    intro v hv hdv Q hQ
    obtain ⟨m, hm⟩ := hdv
    have hm1 : 1 ≤ m := by
      rcases Nat.eq_zero_or_pos m with h | h
      · rw [h] at hm; omega
      · exact h
    have := hQ.le_iff hm1
    have h512 : v * m = 512 := by rw [Nat.mul_assoc] at hm; omega
    rw [h512] at this
    have hpm : Q.n.prec > maxSize ↔ m < Q.n.nlimbs := by
      unfold words.Uint.prec maxSize
      rw [hm]
      exact Nat.mul_lt_mul_left (by omega)
    rw [hpm]; omega
  unfold words.checkPublic words.checkPublicWithMaxSize words.Uint.ge words.Uint.lt words.Uint.isZero
  simp only [key hw hd K hK, key hw' hd' K' hK', hn, he]

/-- C104: a PKCS#1 v1.5 signature made on one machine is that of RFC 8017, and is accepted on another exactly if its octets
take there as many words as the modulus is stored in. -/
theorem C104_pkcs1v15 {σ : Type} (hw : 0 < w) (hw' : 0 < w') (R : RngImpl σ) (fuel : Nat) (rng : Option σ)
    {K : PrivKey w} (hK : WordsWellFormed K) (hb : BlindingOk R K.pub.n.val fuel rng) (K' : PubKey w')
    (hn : K.pub.n.val = K'.n.val) (he : K.pub.e.val = K'.e.val) (h29 : octetLen K.pub.n.val < 2 ^ 29)
    (S : pkcs1v15.Pkcs1v15Sign) (hashed em : Bytes) (hl : ∀ l, S.hashLen = some l → hashed.length = l)
    (hem : emsaPkcs1v15 (S.pfx ++ hashed) (octetLen K.pub.n.val) = some em) :
    ∃ s, words.pkcs1v15Sign R fuel rng K S.pfx hashed = .ok s ∧
      i2osp (os2ip em ^ K.d.val % K.pub.n.val) (octetLen K.pub.n.val) = some s ∧
      (words.Pkcs1v15Sign.verify S K' hashed s = .ok () ↔ WordsFor w' (octetLen K.pub.n.val) K'.n.nlimbs) ∧
      (words.pkcs1v15VerifyBytes K' S.pfx hashed s = .ok () ↔ WordsFor w' (octetLen K.pub.n.val) K'.n.nlimbs) := by
  have hmlt : beVal em ^ K.d.val % K.pub.n.val < K.pub.n.val := Nat.mod_lt _ K.pub.pos
  have hv : os2ip (beBytes K.pub.size (beVal em ^ K.d.val % K.pub.n.val)) = beVal em ^ K.d.val % K.pub.n.val := by
    rw [← beVal_eq_os2ip, beVal_beBytes, Nat.mod_eq_of_lt (hmlt.trans K.pub.lt_pow)]
  have hlen : (beBytes K.pub.size (beVal em ^ K.d.val % K.pub.n.val)).length = octetLen K.pub.n.val := by
    rw [BoxedUint.beBytes_length, K.pub.size_eq]
  have hshape : em.length = octetLen K.pub.n.val ∧ beVal em < K.pub.n.val := by
    have h1 := words.pkcs1v15Sign_shape K.pub hem
    exact h1
  have hinv : (beVal em ^ K.d.val % K.pub.n.val) ^ K.pub.e.val % K.pub.n.val = beVal em := by
    rw [← Nat.pow_mod, ← pow_mul, words.wf_rsa hK, Nat.mod_eq_of_lt hshape.2]
  refine ⟨beBytes K.pub.size (beVal em ^ K.d.val % K.pub.n.val), ?_, ?_, ?_, ?_⟩
  · rw [words.pkcs1v15Sign_eq hw R fuel rng hK _ _ hb, K.pub.size_eq, hem]
  · rw [← beVal_eq_os2ip, ← K.pub.size_eq, i2osp_eq _ _ (hmlt.trans K.pub.lt_pow)]
  · rw [(C103_pkcs1v15 hw' K' S hashed _ (by rw [hlen]; exact h29)).1, hlen, hv]
    constructor
    · exact fun h => h.2.2.1
    · intro h
      refine ⟨hl, by rw [← hn]; exact hmlt, h, em, by rw [← hn]; exact hem, ?_⟩
      rw [← hn, ← he, hinv, ← K.pub.size_eq, i2osp_eq _ _ (hshape.2.trans K.pub.lt_pow), K.pub.size_eq, ← hshape.1,
        BoxedUint.beBytes_beVal]
  · rw [words.pkcs1v15VerifyBytes_eq hw' _ _ _ _ (by rw [hlen]; exact h29), hlen, beVal_eq_os2ip, hv, wordsFor_iff hw',
      ← hn, ← he, hinv, K'.size_eq, ← hn, pkcs1v15SignUnpad_eq _ _ _ _ (BoxedUint.beBytes_length _ _), ← hshape.1,
      BoxedUint.beBytes_beVal, hshape.1, hem]
    simp [hmlt]

/-- C104: a PSS signature made on one machine is accepted by the scheme on every other, and by a verifying key exactly if
its octets take there as many words as the modulus is stored in. -/
theorem C104_pss {σ : Type} (hw : 0 < w) (hw' : 0 < w') (R : RngImpl σ) (fuel : Nat) (rng : Option σ)
    {K : PrivKey w} (hK : WordsWellFormed K) (hb : BlindingOk R K.pub.n.val fuel rng) (K' : PubKey w')
    (hn : K.pub.n.val = K'.n.val) (he : K.pub.e.val = K'.e.val) (h29 : octetLen K.pub.n.val < 2 ^ 29)
    (D : HashFn) (hpos : 0 < D.outLen) (hashed salt : Bytes) (hh : hashed.length = D.outLen)
    (hfit : D.outLen + salt.length + 2 ≤ (K.pub.n.val.size - 1 + 7) / 8) :
    ∃ s, words.signPssWithSalt R fuel rng K hashed salt (DigestState.new D) = .ok s ∧
      s.length = octetLen K.pub.n.val ∧
      (∀ blinded, words.Pss.verify ⟨blinded, DigestState.new D, salt.length⟩ K' hashed s = .ok ()) ∧
      (words.pssVerifyBytes D K' salt.length hashed s = .ok () ↔ WordsFor w' (octetLen K.pub.n.val) K'.n.nlimbs) := by
  have hb0 : 0 < K.pub.n.val.size := Nat.size_pos.mpr K.pub.pos
  have hs32 : K.pub.n.val.size < 2 ^ 32 := by unfold octetLen at h29; omega
  obtain ⟨em, hem⟩ : ∃ em, emsaPss D.hash D.mgf D.outLen hashed salt (K.pub.n.val.size - 1) = some em := by
    unfold emsaPss
    dsimp only
    rw [if_neg (by omega)]
    exact ⟨_, rfl⟩
  have hlt : beVal em < K.pub.n.val := lt_of_lt_of_le (emsaPss_lt hpos hem) (Nat.lt_size.mp (by omega))
  have hinv : (beVal em ^ K.d.val % K.pub.n.val) ^ K.pub.e.val % K.pub.n.val = beVal em := by
    rw [← Nat.pow_mod, ← pow_mul, words.wf_rsa hK, Nat.mod_eq_of_lt hlt]
  have hel := (emsaPss_length hpos hem).1
  have hoct : octetLen K.pub.n.val = (K.pub.n.val.size + 7) / 8 := rfl
  have hdrop : (beBytes (octetLen K.pub.n.val) (beVal em)).drop
      ((K.pub.n.val.size + 7) / 8 - (K.pub.n.val.size - 1 + 7) / 8) = em := by
    rw [beBytes_drop _ _ _ (by rw [hoct]; omega)]
    · rw [hoct, show (K.pub.n.val.size + 7) / 8 - ((K.pub.n.val.size + 7) / 8 - (K.pub.n.val.size - 1 + 7) / 8) =
        em.length by rw [hel]; omega, BoxedUint.beBytes_beVal]
    · rw [hoct, show (K.pub.n.val.size + 7) / 8 - ((K.pub.n.val.size + 7) / 8 - (K.pub.n.val.size - 1 + 7) / 8) =
        em.length by rw [hel]; omega]
      exact beVal_lt em
  have hmlt : beVal em ^ K.d.val % K.pub.n.val < K.pub.n.val := Nat.mod_lt _ K.pub.pos
  have hv : beVal (beBytes K.pub.size (beVal em ^ K.d.val % K.pub.n.val)) = beVal em ^ K.d.val % K.pub.n.val := by
    rw [beVal_beBytes, Nat.mod_eq_of_lt (hmlt.trans K.pub.lt_pow)]
  have hlen : (beBytes K.pub.size (beVal em ^ K.d.val % K.pub.n.val)).length = octetLen K.pub.n.val := by
    rw [BoxedUint.beBytes_length, K.pub.size_eq]
  have hver : emsaPssVerify hashed (beBytes (octetLen K.pub.n.val) (beVal em)) salt.length (DigestState.new D)
      K.pub.n.val.size = .ok () := by
    rcases emsaPssVerify_eq hashed (beBytes (octetLen K.pub.n.val) (beVal em)) salt.length D hpos K.pub.n.val.size hb0 hs32
      (by rw [BoxedUint.beBytes_length, hoct]) (by omega) with h | h
    · exact h.1
    · exact absurd ⟨hh, salt, rfl, by rw [hdrop]; exact hem⟩ h.2
  refine ⟨beBytes K.pub.size (beVal em ^ K.d.val % K.pub.n.val), ?_, hlen, ?_, ?_⟩
  · rw [words.signPssWithSalt_eq hw R fuel rng hK hashed salt D hpos hs32 hh (by omega) hb, hem]
  · intro blinded
    rw [words.Pss_verify_eq hw' _ _ _ _ (by rw [hlen]; exact h29), if_neg (by rw [hlen, K'.size_eq, hn]; simp), hv, ← hn,
      ← he, hinv, K'.size_eq, words.Uint.bits_eq_size, ← hn]
    exact hver
  · rw [words.pssVerifyBytes_eq hw' _ _ _ _ _ (by rw [hlen]; exact h29), hlen, hv, wordsFor_iff hw', ← hn, ← he, hinv,
      K'.size_eq, words.Uint.bits_eq_size, ← hn, emsaPssVerifyDigest_agree, hver]
    simp [hmlt]

/-- C104: a modulus of `2b` bits multiplied from two primes of `b` bits, stored without spare words, has no spare words
exactly if `b`, divided by the bits of a word, leaves no remainder or more than half a word. -/
theorem C104_product (hw : 0 < w) (b : Nat) (hb : 0 < b) (p q : words.Uint w) (hp : p.nlimbs = divCeil b (8 * w))
    (hq : q.nlimbs = divCeil b (8 * w)) (hbits : (p.val * q.val).size = 2 * b) :
    (p.mul q).val = p.val * q.val ∧
    (WordsFor w (octetLen (p.mul q).val) (p.mul q).nlimbs ↔ b % (8 * w) = 0 ∨ 4 * w < b % (8 * w)) := by
  have hval : (p.mul q).val = p.val * q.val := by
    apply words.Uint.wrap_val_of_lt
    rw [Nat.mul_add, pow_add]
    exact Nat.mul_lt_mul'' p.isLt q.isLt
  refine ⟨hval, ?_⟩
  have h8 : 0 < 8 * w := by omega
  have hl : (p.mul q).nlimbs = 2 * divCeil b (8 * w) := by
    show p.nlimbs + q.nlimbs = _
    rw [hp, hq]; omega
  have hoct : divCeil (octetLen (p.mul q).val) w = divCeil (2 * b) (8 * w) := by
    rw [hval]
    unfold octetLen
    rw [hbits]
    apply le_antisymm
    · rw [words.Uint.divCeil_le_iff hw]
      have := words.Uint.le_divCeil h8 (2 * b)
      rw [Nat.mul_assoc] at this
      omega
    · rw [words.Uint.divCeil_le_iff h8]
      have := words.Uint.le_divCeil hw ((2 * b + 7) / 8)
      rw [Nat.mul_assoc]
      omega
  rw [wordsFor_iff hw, hoct, hl]
  have hdm := Nat.div_add_mod b (8 * w)
  have hmod := Nat.mod_lt b h8
  generalize hqq : b / (8 * w) = c at *
  generalize hr : b % (8 * w) = r at *
  have hc1 : divCeil b (8 * w) = if r = 0 then c else c + 1 := by
    unfold divCeil
    rw [← hdm]
    split
    · next h => rw [h, Nat.add_zero, Nat.mul_add_div h8, Nat.div_eq_of_lt (by omega)]; omega
    · next h =>
      rw [Nat.add_assoc, Nat.mul_add_div h8, show (r + (8 * w - 1)) / (8 * w) = 1 from by
        rw [show r + (8 * w - 1) = (r - 1) + 8 * w by omega, Nat.add_div_right _ h8, Nat.div_eq_of_lt (by omega)]]
  have hc2 : divCeil (2 * b) (8 * w) = if r = 0 then 2 * c else if r ≤ 4 * w then 2 * c + 1 else 2 * c + 2 := by
    unfold divCeil
    rw [← hdm, show 2 * (8 * w * c + r) + (8 * w - 1) = 8 * w * (2 * c) + (2 * r + (8 * w - 1)) by ring_nf,
      Nat.mul_add_div h8]
    split
    · next h => rw [h, Nat.div_eq_of_lt (by omega)]; omega
    · next h =>
      split
      · next h4 =>
        rw [show 2 * r + (8 * w - 1) = (2 * r - 1) + 8 * w by omega, Nat.add_div_right _ h8,
          Nat.div_eq_of_lt (by omega)]
      · next h4 =>
        rw [show 2 * r + (8 * w - 1) = (2 * r - 1 - 8 * w) + 8 * w + 8 * w by omega, Nat.add_div_right _ h8,
          Nat.add_div_right _ h8, Nat.div_eq_of_lt (by omega)]
  rw [hc1, hc2]
  have hcpos : r = 0 → 1 ≤ c := by
    intro h
    rcases Nat.eq_zero_or_pos c with h0 | h0
    · rw [h, h0] at hdm; simp at hdm; omega
    · exact h0
  by_cases h0 : r = 0
  · have := hcpos h0
    simp only [h0, if_true, true_or, iff_true]
    omega
  · by_cases h4 : r ≤ 4 * w
    · simp only [h0, h4, if_true, if_false, false_or]
      omega
    · simp only [h0, h4, if_false, false_or]
      omega

/-- C104: a key whose modulus is the product of two primes of `b` bits, each stored without spare words, accepts its own
PKCS#1 v1.5 signatures exactly if `b`, divided by the bits of a word, leaves no remainder or more than half a word. -/
theorem C104_own {σ : Type} (hw : 0 < w) (R : RngImpl σ) (fuel : Nat) (rng : Option σ) {K : PrivKey w}
    (hK : WordsWellFormed K) (hb : BlindingOk R K.pub.n.val fuel rng) (b : Nat) (h0 : 0 < b) (p q : words.Uint w)
    (hp : p.nlimbs = divCeil b (8 * w)) (hq : q.nlimbs = divCeil b (8 * w)) (hn : K.pub.n = p.mul q)
    (hbits : (p.val * q.val).size = 2 * b) (h29 : octetLen K.pub.n.val < 2 ^ 29) (S : pkcs1v15.Pkcs1v15Sign)
    (hashed em : Bytes) (hl : ∀ l, S.hashLen = some l → hashed.length = l)
    (hem : emsaPkcs1v15 (S.pfx ++ hashed) (octetLen K.pub.n.val) = some em) :
    ∃ s, words.pkcs1v15Sign R fuel rng K S.pfx hashed = .ok s ∧
      (words.Pkcs1v15Sign.verify S K.pub hashed s = .ok () ↔ b % (8 * w) = 0 ∨ 4 * w < b % (8 * w)) := by
  obtain ⟨s, h1, -, h3, -⟩ := C104_pkcs1v15 hw hw R fuel rng hK hb K.pub rfl rfl h29 S hashed em hl hem
  refine ⟨s, h1, h3.trans ?_⟩
  have := (C104_product hw b h0 p q hp hq hbits).2
  rw [← hn] at this
  exact this

/-! ### Examples -/

/-- The CRT values of the example key on a 32-bit machine. -/
def Ex.pre4 : words.Pre 4 :=
  { dp := words.Uint.wrap 7 463625422192654777564758143
    dq := words.Uint.wrap 7 113429186379523348228037317453566814889
    qinv := ⟨⟨words.Uint.wrap 7 (2 ^ 89 - 1), by decide +kernel⟩, 618818885466241885456556029⟩
    pParams := ⟨words.Uint.wrap 7 (2 ^ 89 - 1), by decide +kernel⟩
    qParams := ⟨words.Uint.wrap 7 (2 ^ 127 - 1), by decide +kernel⟩ }

/-- The example key on a 32-bit machine: its modulus and exponent take seven words, its primes three and four. -/
def Ex.key4 : PrivKey 4 :=
  { pub := Ex.pub4, d := words.Uint.wrap 7 Ex.dVal
    primes := [words.Uint.wrap 3 (2 ^ 89 - 1), words.Uint.wrap 4 (2 ^ 127 - 1)], precomputed := some Ex.pre4 }

/-- The example key on a 64-bit machine. -/
def Ex.key8 : PrivKey 8 := Ex.key.atWord8 (by decide)

theorem Ex.key4_wf : WordsWellFormed Ex.key4 where
  numbers := by
    have h1 : Ex.key4.pub.n.val = (2 ^ 89 - 1) * (2 ^ 127 - 1) := by decide +kernel
    have h2 : Ex.key4.pub.e.val = 65537 := by decide +kernel
    have h3 : Ex.key4.d.val = Ex.dVal := by decide +kernel
    have h4 : Ex.key4.primes.map words.Uint.val = [2 ^ 89 - 1, 2 ^ 127 - 1] := by decide +kernel
    rw [h1, h2, h3, h4]; exact Ex.numbers
  width := by decide +kernel
  cache := by
    intro pre' h
    obtain rfl : Ex.pre4 = pre' := Option.some.inj h
    exact ⟨⟨_, _, _, rfl, by decide +kernel, by decide +kernel, by decide +kernel, by decide +kernel, by decide +kernel⟩,
      rfl, by decide +kernel, by decide +kernel⟩

theorem Ex.key8_wf : WordsWellFormed Ex.key8 where
  numbers := by
    have h1 : Ex.key8.pub.n.val = (2 ^ 89 - 1) * (2 ^ 127 - 1) := by decide +kernel
    have h2 : Ex.key8.pub.e.val = 65537 := by decide +kernel
    have h3 : Ex.key8.d.val = Ex.dVal := by decide +kernel
    have h4 : Ex.key8.primes.map words.Uint.val = [2 ^ 89 - 1, 2 ^ 127 - 1] := by decide +kernel
    rw [h1, h2, h3, h4]; exact Ex.numbers
  width := by decide +kernel
  cache := by
    intro pre' h
    obtain rfl : Ex.pre.atWord8 = pre' := Option.some.inj h
    exact ⟨⟨_, _, _, rfl, by decide +kernel, by decide +kernel, by decide +kernel, by decide +kernel, by decide +kernel⟩,
      rfl, by decide +kernel, by decide +kernel⟩

theorem Ex.blinding (n : Nat) : BlindingOk Ex.countingRng n 3 none := trivial

/-- A padded message encrypted for the example key, on as many octets as four words of eight. -/
def Ex.longCiphertext : Bytes :=
  beBytes 32 (MontyForm.powMod (beVal ([0, 2] ++ List.replicate 21 7 ++ [0, 1, 2, 3])) 65537
    ((2 ^ 89 - 1) * (2 ^ 127 - 1)))

/-- C104: a ciphertext with leading zeros that a 64-bit machine decrypts and a 32-bit machine refuses; without the zeros
both decrypt it. -/
theorem C104_long_ciphertext :
    words.pkcs1v15Decrypt Ex.countingRng 3 none Ex.key8 Ex.longCiphertext = .ok [1, 2, 3] ∧
    words.pkcs1v15Decrypt Ex.countingRng 3 none Ex.key4 Ex.longCiphertext = .err (.decode .inputSize) ∧
    Ex.longCiphertext.take 5 = [0, 0, 0, 0, 0] ∧
    words.pkcs1v15Decrypt Ex.countingRng 3 none Ex.key8 (Ex.longCiphertext.drop 5) = .ok [1, 2, 3] ∧
    words.pkcs1v15Decrypt Ex.countingRng 3 none Ex.key4 (Ex.longCiphertext.drop 5) = .ok [1, 2, 3] := by
  decide +kernel

example := C104_word8 Ex.countingRng 3 (some 5) Ex.key rfl (by decide)
example := C104_word8_schemes Ex.countingRng 3 (some 5) Ex.key rfl (by decide)
example : ∃ pre, words.precomputeValues Ex.key8.d Ex.key8.primes = .ok pre :=
  ⟨_, C104_word8_precompute Ex.key.d Ex.key.primes |>.trans (by decide +kernel : _ = Res.ok Ex.pre.atWord8)⟩
example := (C104_private (w := 4) (by norm_num) Ex.countingRng 3 (some 5) Ex.key4_wf (words.Uint.wrap 7 12345)).2
  (by decide +kernel) (by decide +kernel)
example := (C104_private (w := 4) (by norm_num) Ex.countingRng 3 (some 5) Ex.key4_wf (words.Uint.wrap 7 (2 ^ 220))).1
  (by decide +kernel)
example := C104_precompute (w := 4) (by norm_num) Ex.key4_wf (by decide +kernel)
example : words.precomputeValues Ex.key4.d Ex.key4.primes = .ok Ex.pre4 := by decide +kernel
example := C104_same (w := 4) (w' := 8) (by norm_num) (by norm_num) Ex.countingRng Ex.countingRng 3 3 none none Ex.key4_wf
  Ex.key8_wf (by decide +kernel) (by decide +kernel) trivial trivial
example := C104_check (w := 4) (w' := 8) (by norm_num) (by norm_num) (by norm_num) (by norm_num) Ex.pub4 Ex.pub8
  (by decide +kernel) (by decide +kernel) Ex.pub4_words Ex.pub8_words
example := C104_pkcs1v15 (w := 4) (w' := 8) (by norm_num) (by norm_num) Ex.countingRng 3 none Ex.key4_wf trivial Ex.pub8
  (by decide +kernel) (by decide +kernel) (by rw [show Ex.key4.pub = Ex.pub4 from rfl, Ex.octets27.2]; norm_num)
  ⟨some 4, [9]⟩ [1, 2, 3, 4] ([0, 1] ++ List.replicate 19 255 ++ [0, 9, 1, 2, 3, 4]) (by decide)
  (by rw [show Ex.key4.pub = Ex.pub4 from rfl, Ex.octets27.2]; decide +kernel)
example := C104_pss (w := 4) (w' := 8) (by norm_num) (by norm_num) Ex.countingRng 3 none Ex.key4_wf trivial Ex.pub8
  (by decide +kernel) (by decide +kernel) (by rw [show Ex.key4.pub = Ex.pub4 from rfl, Ex.octets27.2]; norm_num)
  Ex.hash4 (by decide) [1, 2, 3, 4] [5, 6, 7] (by decide) (by decide +kernel)
/-- Primes of 100 bits: no spare words with words of eight octets, one with words of four. -/
example : (100 % (8 * 8) = 0 ∨ 4 * 8 < 100 % (8 * 8)) ∧ ¬ (100 % (8 * 4) = 0 ∨ 4 * 4 < 100 % (8 * 4)) := by decide
example := C104_product (w := 4) (by norm_num) 100 (by norm_num) (words.Uint.wrap 4 (2 ^ 100 - 1))
  (words.Uint.wrap 4 (2 ^ 100 - 1)) (by decide) (by decide) (by decide +kernel)
/-- Primes of 544 bits, as of a key of 1088: one spare word with words of eight octets, none with words of four. -/
example : ¬ (544 % (8 * 8) = 0 ∨ 4 * 8 < 544 % (8 * 8)) ∧ (544 % (8 * 4) = 0 ∨ 4 * 4 < 544 % (8 * 4)) := by decide


theorem Ex.prime88a : Nat.Prime (50551 * 2 ^ 72 + 1) :=
  lucas_proth (g := 3) (by norm_num) (by decide +kernel) (by decide +kernel) (by decide +kernel)

theorem Ex.prime88b : Nat.Prime (50671 * 2 ^ 72 + 1) :=
  lucas_proth (g := 3) (by norm_num) (by decide +kernel) (by decide +kernel) (by decide +kernel)

/-- A key with two primes of 88 bits, on a machine with words of `w` octets. -/
def Ex.key88 (w : Nat) (h : (words.Uint.mul (words.Uint.wrap (w := w) (divCeil 88 (8 * w)) (50551 * 2 ^ 72 + 1))
    (words.Uint.wrap (divCeil 88 (8 * w)) (50671 * 2 ^ 72 + 1))).val % 2 = 1) : PrivKey w :=
  { pub := ⟨_, words.Uint.wrap 4 65537, h⟩
    d := words.Uint.wrap (2 * divCeil 88 (8 * w)) 10466994698086831870112891338753
    primes := [words.Uint.wrap (divCeil 88 (8 * w)) (50551 * 2 ^ 72 + 1),
      words.Uint.wrap (divCeil 88 (8 * w)) (50671 * 2 ^ 72 + 1)]
    precomputed := none }

theorem Ex.numbers88 : RsaNumbers ((50551 * 2 ^ 72 + 1) * (50671 * 2 ^ 72 + 1)) 65537 10466994698086831870112891338753
    [50551 * 2 ^ 72 + 1, 50671 * 2 ^ 72 + 1] where
  prime := by
    intro p hp
    rcases List.mem_cons.mp hp with rfl | hp
    · exact Ex.prime88a
    · obtain rfl := List.mem_singleton.mp hp
      exact Ex.prime88b
  nodup := by decide
  two := by decide
  prod := by decide
  exp := by decide

/-- Words of eight octets: the key, stored in four words, does not accept its own signatures. -/
example : ∃ s, words.pkcs1v15Sign Ex.countingRng 3 none (Ex.key88 8 (by decide +kernel)) [9] [1, 2, 3, 4] = .ok s ∧
    words.Pkcs1v15Sign.verify ⟨some 4, [9]⟩ (Ex.key88 8 (by decide +kernel)).pub [1, 2, 3, 4] s ≠ .ok () := by
  have hv : (Ex.key88 8 (by decide +kernel)).pub.n.val = (50551 * 2 ^ 72 + 1) * (50671 * 2 ^ 72 + 1) := by
    decide +kernel
  have ho : octetLen ((50551 * 2 ^ 72 + 1) * (50671 * 2 ^ 72 + 1)) = 22 := by
    rw [← hv, ← PubKey.size_eq]; decide +kernel
  obtain ⟨s, h1, h2⟩ := C104_own (w := 8) (by norm_num) Ex.countingRng 3 none (K := Ex.key88 8 (by decide +kernel))
    ⟨Ex.numbers88, by decide, by intro pre h; cases h⟩ trivial 88 (by norm_num) _ _ rfl rfl rfl (by decide +kernel)
    (by rw [hv, ho]; norm_num) ⟨some 4, [9]⟩ [1, 2, 3, 4] ([0, 1] ++ List.replicate 14 255 ++ [0, 9, 1, 2, 3, 4])
    (by decide) (by rw [hv, ho]; decide +kernel)
  exact ⟨s, h1, fun h => absurd (h2.mp h) (by decide)⟩

/-- Words of four octets: the same key, stored in six words, accepts them. -/
example : ∃ s, words.pkcs1v15Sign Ex.countingRng 3 none (Ex.key88 4 (by decide +kernel)) [9] [1, 2, 3, 4] = .ok s ∧
    words.Pkcs1v15Sign.verify ⟨some 4, [9]⟩ (Ex.key88 4 (by decide +kernel)).pub [1, 2, 3, 4] s = .ok () := by
  have hv : (Ex.key88 4 (by decide +kernel)).pub.n.val = (50551 * 2 ^ 72 + 1) * (50671 * 2 ^ 72 + 1) := by
    decide +kernel
  have ho : octetLen ((50551 * 2 ^ 72 + 1) * (50671 * 2 ^ 72 + 1)) = 22 := by
    rw [← hv, ← PubKey.size_eq]; decide +kernel
  obtain ⟨s, h1, h2⟩ := C104_own (w := 4) (by norm_num) Ex.countingRng 3 none (K := Ex.key88 4 (by decide +kernel))
    ⟨Ex.numbers88, by decide, by intro pre h; cases h⟩ trivial 88 (by norm_num) _ _ rfl rfl rfl (by decide +kernel)
    (by rw [hv, ho]; norm_num) ⟨some 4, [9]⟩ [1, 2, 3, 4] ([0, 1] ++ List.replicate 14 255 ++ [0, 9, 1, 2, 3, 4])
    (by decide) (by rw [hv, ho]; decide +kernel)
  exact ⟨s, h1, h2.mpr (by decide)⟩

end RSA
