import Verif.Proof.Chance
import Verif.Props.Generator

/-
C98: with a perfect generator, the exact probability of every outcome of each request that takes a generator.
-/
namespace RSA
open BoxedUint Spec
open scoped ENNReal

/-! ### Encryption -/

theorem expect_encryptPkcs1v15 {k : PrivateKey} (hk : WellFormed k) (hc : checkPublic k.pub = .ok ()) (fuel : Nat)
    (msg x : Bytes) (hx : x.length + msg.length + 3 = k.pub.size) (h8 : 8 ≤ x.length) (hnz : ∀ b ∈ x, b ≠ 0) :
    (expect (fun _ R => gen.pkcs1v15Encrypt R fuel k.pub msg) fun r => if r = .ok (beBytes k.pub.size
      (beVal ([0x00, 0x02] ++ x ++ [0x00] ++ msg) ^ k.pub.e.val % k.pub.n.val)) then 1 else 0) =
      firstOctet (fuel + 1) ^ x.length := by
  rw [← expect_nonZero fuel x hnz]
  refine expect_iff fun cs => ?_
  rw [same_iff (gen.same_pkcs1v15Encrypt scripted fuel k.pub msg (some cs)),
    same_iff (gen.same_nonZeroRandomBytes scripted fuel x.length (some cs)),
    pkcs1v15.encrypt_eq _ fuel _ k.pub hk.coherent hc msg, if_neg (by omega), Res.bind_eq_ok,
    show k.pub.size - msg.length - 3 = x.length by omega]
  constructor
  · rintro ⟨⟨p, s1⟩, h1, h2⟩
    obtain ⟨h3, rfl⟩ := Prod.mk.inj (Res.ok.inj h2)
    obtain ⟨hp, hpz⟩ : p.length = x.length ∧ ∀ b ∈ p, b ≠ 0 := by
      rcases nonZeroRandomBytes_cases scripted fuel (some cs) x.length with ⟨p', s2, h3, a, b⟩ | h3 | h3
      · rw [h1] at h3
        obtain ⟨rfl, -⟩ := Prod.mk.inj (Res.ok.inj h3)
        exact ⟨a, b⟩
      · rw [h1] at h3; cases h3
      · rw [h1] at h3; cases h3
    have hem := block_inj hk (by simp; omega) (by simp; omega) rfl rfl h3
    simp only [List.append_assoc, List.cons_append, List.nil_append, List.cons.injEq, true_and] at hem
    obtain ⟨rfl, -⟩ := nonzero_prefix_inj hpz hnz hem
    exact h1
  · intro h
    exact ⟨(x, some []), h, rfl⟩

/-- C98, PKCS#1 v1.5 encryption: the ciphertext made with the padding `x` has the probability of drawing each octet of `x`
in turn, the first octet other than zero within `fuel + 1` draws counting; the same for every padding. -/
theorem C98_pkcs1v15 {k : PrivateKey} (hk : WellFormed k) (hc : checkPublic k.pub = .ok ()) (fuel : Nat)
    (msg x : Bytes) (hx : x.length + msg.length + 3 = octetLen k.pub.n.val) (h8 : 8 ≤ x.length) (hnz : ∀ b ∈ x, b ≠ 0) :
    ∃ ct, i2osp (os2ip ([0x00, 0x02] ++ x ++ [0x00] ++ msg) ^ k.pub.e.val % k.pub.n.val) (octetLen k.pub.n.val) = some ct ∧
      chance [.encryptPkcs1v15 fuel k.pub msg] [.ok ct] = firstOctet (fuel + 1) ^ x.length := by
  have hn := coherent_pos hk.coherent
  rw [← size_eq_octetLen] at hx ⊢
  rw [← beVal_eq_os2ip]
  refine ⟨_, i2osp_eq _ _ (mod_lt_pow_size _ hn _), ?_⟩
  rw [← expect_encryptPkcs1v15 hk hc fuel msg x hx h8 hnz, chance_one]
  rfl

theorem state_encryptPkcs1v15 {σ : Type} (R : RngImpl σ) (fuel : Nat) (k : PublicKey) (hc : checkPublic k = .ok ())
    (msg : Bytes) (hm : msg.length + 11 ≤ k.size) (s : σ) :
    (gen.pkcs1v15Encrypt R fuel k msg s).2 = (gen.nonZeroRandomBytes R fuel (k.size - msg.length - 3) s).2 := by
  have h1 : gen.pkcs1v15Encrypt R fuel k msg = (gen.pkcs1v15EncryptPad R fuel msg k.size >>= fun em =>
      (liftM (fromBeSlice em k.nBitsPrecision) : Gen σ BoxedUint) >>= fun int =>
      (liftM (rsaEncrypt k int) : Gen σ BoxedUint) >>= fun c => liftM (uintToBePad c k.size)) := by
    unfold gen.pkcs1v15Encrypt
    rw [hc]
    rfl
  rw [h1, silent (fun _ _ => silent_res (fun _ _ => silent_res (fun _ _ => rfl) _) _)]
  unfold gen.pkcs1v15EncryptPad
  rw [if_neg (by omega)]
  have e1 : setIdx (List.replicate k.size (0 : UInt8)) 1 2 = .ok ((List.replicate k.size (0 : UInt8)).set 1 2) := by
    unfold setIdx
    rw [if_pos (by simp; omega)]
  have e2 : subU k.size msg.length = .ok (k.size - msg.length) := subU_of_le (by omega)
  have e3 : subU (k.size - msg.length) 1 = .ok (k.size - msg.length - 1) := subU_of_le (by omega)
  obtain ⟨cur, e4, e5⟩ : ∃ cur, slice ((List.replicate k.size (0 : UInt8)).set 1 2) 2 (k.size - msg.length - 1) = .ok cur ∧
      cur.length = k.size - msg.length - 3 := by
    unfold slice
    rw [if_pos (by simp; omega)]
    exact ⟨_, rfl, by simp; omega⟩
  simp only [e1, e2, e3, e4, res_ok]
  rw [← e5]
  exact silent (fun _ _ => silent_res (fun _ _ => silent_res (fun _ _ => silent_res (fun _ _ => rfl) _) _) _) _

/-- C98, PKCS#1 v1.5 encryption: with what is left, the draws do not end within the bound. Nothing else can happen: the
`255 ^ len` paddings and this make up the whole. -/
theorem C98_pkcs1v15_endless {k : PrivateKey} (hk : WellFormed k) (hc : checkPublic k.pub = .ok ()) (fuel len : Nat)
    (msg : Bytes) (hl : len + msg.length + 3 = octetLen k.pub.n.val) (h8 : 8 ≤ len) :
    255 ^ len * firstOctet (fuel + 1) ^ len + chance [.encryptPkcs1v15 fuel k.pub msg] [.loop] = 1 := by
  rw [← mul_pow, ← expect_nonZero_loop fuel len, chance_one]
  congr 1
  rw [← size_eq_octetLen] at hl
  refine expect_congr (fun cs => ?_) (fun cs _ => ?_)
  · show (gen.pkcs1v15Encrypt scripted fuel k.pub msg (some cs)).2 = _
    rw [state_encryptPkcs1v15 scripted fuel k.pub hc msg (by omega), show k.pub.size - msg.length - 3 = len by omega]
  · have he := pkcs1v15.encrypt_eq scripted fuel (some cs) k.pub hk.coherent hc msg
    rw [if_neg (by omega), show k.pub.size - msg.length - 3 = len by omega] at he
    show (if (gen.pkcs1v15Encrypt scripted fuel k.pub msg (some cs)).1 = .loop then (1 : ℝ≥0∞) else 0) = _
    rw [gen.out_same (gen.same_pkcs1v15Encrypt scripted fuel k.pub msg (some cs)),
      gen.out_same (gen.same_nonZeroRandomBytes scripted fuel len (some cs)), he]
    rcases nonZeroRandomBytes scripted fuel (some cs) len with ⟨x, s⟩ | _ | _ | _ <;> simp

/-- C98, OAEP encryption: the ciphertext made with each seed has the probability of the seed. -/
theorem C98_oaep {k : PrivateKey} (hk : WellFormed k) (hc : checkPublic k.pub = .ok ()) (D MGD : HashFn)
    (hpos : 0 < MGD.outLen) (label : Option Bytes) (hl : (label.getD []).length < maxLabelLen) (msg seed : Bytes)
    (hs : seed.length = D.outLen) (hm : msg.length + 2 * D.outLen + 2 ≤ octetLen k.pub.n.val) :
    ∃ ct, i2osp (os2ip (emeOaep (D.hash (label.getD [])) (mgf1 MGD.hash MGD.outLen) D.outLen
        (octetLen k.pub.n.val) seed msg) ^ k.pub.e.val % k.pub.n.val) (octetLen k.pub.n.val) = some ct ∧
      chance [.encryptOaep k.pub msg (DigestState.new D) (DigestState.new MGD) label] [.ok ct] = (256 ^ D.outLen)⁻¹ ∧
      chance [.encryptOaepTyped D MGD k.pub msg label] [.ok ct] = (256 ^ D.outLen)⁻¹ := by
  have hn := coherent_pos hk.coherent
  rw [← size_eq_octetLen] at hm ⊢
  rw [← beVal_eq_os2ip]
  have key : ∀ cs, oaep.encrypt scripted (some cs) k.pub msg (DigestState.new D) (DigestState.new MGD) label =
      .ok (beBytes k.pub.size (beVal (emeOaep (D.hash (label.getD [])) (mgf1 MGD.hash MGD.outLen) D.outLen k.pub.size seed msg)
        ^ k.pub.e.val % k.pub.n.val), some []) ↔ scripted.tryFill (some cs) seed.length = .ok (seed, some []) := by
    intro cs
    rw [oaep.encrypt_eq _ _ k.pub hk.coherent hc msg D MGD hpos label hl, if_neg (by omega), Res.bind_eq_ok, hs]
    constructor
    · rintro ⟨⟨p, s1⟩, h1, h2⟩
      obtain ⟨h3, rfl⟩ := Prod.mk.inj (Res.ok.inj h2)
      have hp : p.length = D.outLen := by
        unfold RngImpl.tryFill at h1
        rcases hf : scripted.fill (some cs) D.outLen with ⟨_ | b, s'⟩
        · rw [hf] at h1; cases h1
        · have hb := scripted.fill_len (some cs) D.outLen b (by rw [hf])
          rw [hf] at h1
          obtain ⟨rfl, -⟩ := Prod.mk.inj (Res.ok.inj h1)
          exact hb
      have hg := MGD.mgf_length hpos
      have hem := block_inj hk (emeOaep_length _ _ _ _ _ _ (D.hash_len _) hp hg hm)
        (emeOaep_length _ _ _ _ _ _ (D.hash_len _) hs hg hm) rfl rfl h3
      rw [← (emeOaep_inj_msg hg (D.hash_len _) (D.hash_len _) hp hs hm hm hem).2.1]
      exact h1
    · intro h
      exact ⟨(seed, some []), h, rfl⟩
  refine ⟨_, i2osp_eq _ _ (mod_lt_pow_size _ hn _), ?_, ?_⟩ <;>
    rw [chance_one, show ((256 : ℝ≥0∞) ^ D.outLen)⁻¹ = (256 ^ seed.length)⁻¹ by rw [hs], ← expect_tryFill]
  · refine expect_iff fun cs => ?_
    rw [same_iff (gen.same_tryFill scripted seed.length (some cs)), ← key]
    exact same_iff (gen.same_oaepSchemeEncrypt scripted k.pub msg _ _ label (some cs)) _ _
  · refine expect_iff fun cs => ?_
    rw [same_iff (gen.same_tryFill scripted seed.length (some cs)), ← key, ← oaep.encryptDigest_agree]
    exact same_iff (gen.same_oaepSchemeEncryptDigest scripted D MGD k.pub msg label (some cs)) _ _

/-! ### Decryption and PKCS#1 v1.5 signing -/

/-- The request as one with or without blinding. -/
theorem request_plain {k : PrivateKey} (hk : WellFormed k) {fuel : Nat} {q : Request} (hq : q.BlindedBy k fuel) :
    ∃ op : Bool → Op Bytes, Plain k fuel op ∧ q.op = op true ∧ q.unblinded.op = op false := by
  cases q with
  | decryptPkcs1v15 f b k' ct =>
    obtain ⟨rfl, rfl, rfl⟩ := hq
    exact ⟨_, plain_decryptPkcs1v15 hk f ct, rfl, rfl⟩
  | decryptOaep f b k' ct dg mg label =>
    obtain ⟨rfl, rfl, rfl⟩ := hq
    exact ⟨_, plain_decryptOaep hk f ct dg mg label, rfl, rfl⟩
  | decryptOaepTyped f D MGD b k' ct label =>
    obtain ⟨rfl, rfl, rfl⟩ := hq
    exact ⟨_, plain_decryptOaepTyped hk f D MGD ct label, rfl, rfl⟩
  | signPkcs1v15 f S b k' hashed =>
    obtain ⟨rfl, rfl, rfl⟩ := hq
    exact ⟨_, plain_schemeSign hk f S hashed, rfl, rfl⟩
  | signPkcs1v15Typed f b k' pfx hashed =>
    obtain ⟨rfl, rfl, rfl⟩ := hq
    exact ⟨_, plain_sign hk f pfx hashed, rfl, rfl⟩
  | encryptPkcs1v15 _ _ _ => exact hq.elim
  | encryptOaep _ _ _ _ _ => exact hq.elim
  | encryptOaepTyped _ _ _ _ _ => exact hq.elim
  | signPss _ _ _ _ _ _ => exact hq.elim
  | signPssTyped _ _ _ _ _ _ => exact hq.elim

/-- C98, decryption and PKCS#1 v1.5 signing by a correct key: with `x` what the request gives without blinding and a
generator in any state, the request without blinding gives `x` with probability one. With blinding it gives `x`, or never
ends with probability `useless n ^ fuel`, that of drawing `fuel` numbers without an invertible one; except that if it fails
before the private-key operation it gives `x` for sure. The two cases tell themselves apart: in the one the generator is not
touched, in the other the request fails if the first draw does. -/
theorem C98_private {k : PrivateKey} (hk : WellFormed k) {fuel : Nat} {q : Request} (hq : q.BlindedBy k fuel) :
    ∃ x, (∀ (σ : Type) (R : RngImpl σ) (s : σ), q.unblinded.outcome R s = x) ∧
      (∀ r, chance [q.unblinded] [r] = if r = x then 1 else 0) ∧
      ((∀ r, chance [q] [r] = if r = x then 1 else 0) ∧ (∀ a, x ≠ .ok a) ∧ (∀ σ R s, q.op σ R s = (x, s)) ∨
        (∀ r, chance [q] [r] = (1 - useless k.pub.n.val ^ fuel) * (if r = x then 1 else 0) +
          useless k.pub.n.val ^ fuel * (if r = .loop then 1 else 0)) ∧
        ∀ σ R s, 0 < fuel → (R.randMod s k.pub.n.val).1 = none → (q.op σ R s).1 = .err .rng) := by
  obtain ⟨op, hp, h1, h2⟩ := request_plain hk hq
  obtain ⟨x, ho, hx, hb⟩ := plain_expect hk hp
  refine ⟨x, ?_, fun r => ?_, ?_⟩
  · intro σ R s
    rw [← out_request, h2, ho]
  · rw [chance_one, h2, hx]
    simp only [eq_comm]
  · rcases hb with ⟨hb, hne, hs⟩ | ⟨hb, hs⟩
    · refine .inl ⟨fun r => ?_, hne, by rw [h1]; exact hs⟩
      rw [chance_one, h1, hb]
      simp only [eq_comm]
    · refine .inr ⟨fun r => ?_, by rw [h1]; exact hs⟩
      rw [chance_one, h1, hb]
      simp only [eq_comm]

/-- C98: a request that succeeds without blinding gives the same with blinding with probability `1 - useless n ^ fuel`. -/
theorem C98_private_ok {k : PrivateKey} (hk : WellFormed k) {fuel : Nat} {q : Request} (hq : q.BlindedBy k fuel)
    {σ : Type} {R : RngImpl σ} {s : σ} {a : Bytes} (ha : q.unblinded.outcome R s = .ok a) :
    chance [q] [.ok a] = 1 - useless k.pub.n.val ^ fuel ∧ chance [q] [.loop] = useless k.pub.n.val ^ fuel := by
  obtain ⟨x, ho, -, ⟨-, hne, -⟩ | ⟨hb, -⟩⟩ := C98_private hk hq
  · exact absurd ((ho σ R s).symm.trans ha) (hne a)
  · obtain rfl := (ho σ R s).symm.trans ha
    exact ⟨by rw [hb]; simp, by rw [hb]; simp⟩

/-! ### PSS -/

theorem expect_pss {k : PrivateKey} (hk : WellFormed k) (hp : k.pub.n.prec < 2 ^ 32) (fuel : Nat) (b : Bool) (D : HashFn)
    (hpos : 0 < D.outLen) (hashed salt em : Bytes) (hadd : D.outLen + salt.length + 2 < 2 ^ 64)
    (hh : hashed.length = D.outLen)
    (hem : emsaPss D.hash (mgf1 D.hash D.outLen) D.outLen hashed salt (k.pub.n.val.size - 1) = some em) (g : Res Bytes → ℝ≥0∞) :
    expect (fun _ R => gen.signPssWithSalt R fuel b k hashed salt (DigestState.new D)) g =
      if b then (1 - useless k.pub.n.val ^ fuel) * g (.ok (beBytes k.pub.size (os2ip em ^ k.d.val % k.pub.n.val))) +
          useless k.pub.n.val ^ fuel * g .loop
        else g (.ok (beBytes k.pub.size (os2ip em ^ k.d.val % k.pub.n.val))) := by
  have hco : k.pub.Coherent := hk.coherent
  have hn := coherent_pos hco
  have hbp := bits_pos hn
  have hbl := bits_le_prec k.pub.n
  rw [← bits_eq_size] at hem
  have hlt : beVal em < k.pub.n.val := lt_of_lt_of_le (emsaPss_lt hpos hem) (pow_bits_le hn)
  have hle : em.length ≤ 8 * k.pub.n.nlimbs := by
    rw [(emsaPss_length hpos hem).1]; unfold prec at hbl; omega
  have hwv : (wrap k.pub.n.nlimbs (beVal em)).val = beVal em := wrap_lt_val hlt
  have hop : (fun (σ : Type) (R : RngImpl σ) => gen.signPssWithSalt R fuel b k hashed salt (DigestState.new D)) =
      fun σ R => (gen.rsaDecryptAndCheck R fuel k b (wrap k.pub.n.nlimbs (beVal em)) >>= fun m =>
        Gen.lift (uintToZeroizingBePad m k.pub.size) : Gen σ Bytes) := by
    funext σ R
    unfold gen.signPssWithSalt
    rw [subU_of_le (by omega), res_ok, emsaPssEncode_eq hashed _ salt D hpos hh (by omega) (by omega)]
    unfold HashFn.mgf
    rw [hem]
    simp only [res_ok]
    rw [fromBeSlice_nprec _ hco, if_pos hle, res_ok]
    rfl
  have hval : uintToZeroizingBePad (wrap k.pub.n.nlimbs (beVal em ^ k.d.val % k.pub.n.val)) k.pub.size =
      .ok (beBytes k.pub.size (os2ip em ^ k.d.val % k.pub.n.val)) := by
    rw [uintToZeroizingBePad_eq, wrap_mod_val _ hn, if_pos (mod_lt_pow_size _ hn _), beVal_eq_os2ip]
  have h := expect_check hk fuel (wrap k.pub.n.nlimbs (beVal em)) rfl (by rw [hwv]; exact hlt)
    (fun m => uintToZeroizingBePad m k.pub.size) g
  rw [hwv, hval] at h
  rw [hop]
  cases b with
  | true => exact h.1
  | false => exact h.2

theorem tree_signPss {k : PrivateKey} (hk : WellFormed k) (fuel : Nat) (b : Bool) (hashed salt : Bytes) (dg : DigestState) :
    Treed True (fun _ R => gen.signPssWithSalt R fuel b k hashed salt dg) :=
  tree_res fun _ => tree_res fun _ => tree_res fun _ =>
    tree_bind (gen.tree_rsaDecryptAndCheck fuel k b _ fun _ => (coherent_pos hk.coherent).ne') fun _ => tree_lift _

theorem emsaPss_of_length {D : HashFn} {hashed salt salt' em : Bytes} {bits : Nat} (hl : salt'.length = salt.length)
    (hem : emsaPss D.hash (mgf1 D.hash D.outLen) D.outLen hashed salt bits = some em) :
    ∃ em', emsaPss D.hash (mgf1 D.hash D.outLen) D.outLen hashed salt' bits = some em' := by
  unfold emsaPss at hem ⊢
  dsimp only at hem ⊢
  rw [hl]
  split at hem
  · cases hem
  · next h => rw [if_neg h]; exact ⟨_, rfl⟩

theorem request_pss (fuel : Nat) (b : Bool) (k : PrivateKey) (hashed : Bytes) (saltLen : Nat) (D : HashFn) (q : Request)
    (hq : q = .signPss fuel b k hashed saltLen (DigestState.new D) ∨ q = .signPssTyped fuel D b k hashed saltLen) :
    q.op = fun σ R => (gen.tryFill R saltLen >>= fun x =>
      gen.signPssWithSalt R fuel b k hashed x (DigestState.new D) : Gen σ Bytes) := by
  rcases hq with rfl | rfl
  · rfl
  · funext σ R
    show gen.pssSignDigest R fuel D b k hashed saltLen = _
    unfold gen.pssSignDigest
    have : ∀ x, gen.signPssWithSaltDigest R fuel D b k hashed x = gen.signPssWithSalt R fuel b k hashed x (DigestState.new D) := by
      intro x
      unfold gen.signPssWithSaltDigest gen.signPssWithSalt
      simp only [emsaPssEncodeDigest_agree]
    simp only [this]

/-- C98, PSS signing by a correct key, when the digest has the right length and an encoding fits: the signature made with
each salt has the probability of the salt, times that of blinding to end; with what is left blinding does not end. -/
theorem C98_pss {k : PrivateKey} (hk : WellFormed k) (hp : k.pub.n.prec < 2 ^ 32) (fuel : Nat) (b : Bool) (D : HashFn)
    (hpos : 0 < D.outLen) (hashed salt em : Bytes) (hadd : D.outLen + salt.length + 2 < 2 ^ 64)
    (hh : hashed.length = D.outLen)
    (hem : emsaPss D.hash (mgf1 D.hash D.outLen) D.outLen hashed salt (k.pub.n.val.size - 1) = some em) (q : Request)
    (hq : q = .signPss fuel b k hashed salt.length (DigestState.new D) ∨ q = .signPssTyped fuel D b k hashed salt.length) :
    ∃ sig, i2osp (os2ip em ^ k.d.val % k.pub.n.val) (octetLen k.pub.n.val) = some sig ∧
      chance [q] [.ok sig] = (256 ^ salt.length)⁻¹ * (1 - if b then useless k.pub.n.val ^ fuel else 0) ∧
      chance [q] [.loop] = if b then useless k.pub.n.val ^ fuel else 0 := by
  have hn := coherent_pos hk.coherent
  have hop : ∀ g, expect q.op g = ∑' x : {x : Bytes // x.length = salt.length}, (256 ^ salt.length)⁻¹ *
      expect (fun _ R => gen.signPssWithSalt R fuel b k hashed x.1 (DigestState.new D)) g := by
    intro g
    rw [request_pss fuel b k hashed salt.length D q hq]
    exact expect_fill salt.length (fun _ R x => gen.signPssWithSalt R fuel b k hashed x (DigestState.new D))
      (fun _ => tree_signPss hk fuel b hashed _ _) g
  have hx : ∀ x : {x : Bytes // x.length = salt.length}, ∃ em',
      emsaPss D.hash (mgf1 D.hash D.outLen) D.outLen hashed x.1 (k.pub.n.val.size - 1) = some em' := fun x =>
    emsaPss_of_length x.2 hem
  choose e he using hx
  have hex := fun x g => expect_pss hk hp fuel b D hpos hashed x.1 (e x) (by rw [x.2]; exact hadd) hh (he x) g
  refine ⟨beBytes k.pub.size (os2ip em ^ k.d.val % k.pub.n.val), ?_, ?_, ?_⟩
  · rw [← size_eq_octetLen]; exact i2osp_eq _ _ (mod_lt_pow_size _ hn _)
  · have hinj : ∀ x, beBytes k.pub.size (os2ip (e x) ^ k.d.val % k.pub.n.val) =
        beBytes k.pub.size (os2ip em ^ k.d.val % k.pub.n.val) ↔ x = ⟨salt, rfl⟩ := by
      intro x
      constructor
      · intro h
        have h3 := congrArg beVal h
        rw [beVal_beBytes, beVal_beBytes, Nat.mod_eq_of_lt (mod_lt_pow_size _ hn _),
          Nat.mod_eq_of_lt (mod_lt_pow_size _ hn _), ← beVal_eq_os2ip, ← beVal_eq_os2ip] at h3
        have h3' : beVal (e x) ^ k.d.val ≡ beVal em ^ k.d.val [MOD k.pub.n.val] := h3
        have h4 := h3'.pow k.pub.e.val
        rw [← pow_mul, ← pow_mul] at h4
        have h5 := (wf_rsa hk _).symm.trans (h4.trans (wf_rsa hk _))
        have hem' := he x
        have hem0 := hem
        rw [← bits_eq_size] at hem0 hem'
        have h6 := Nat.ModEq.eq_of_lt_of_lt h5 (lt_of_lt_of_le (emsaPss_lt hpos hem') (pow_bits_le hn))
          (lt_of_lt_of_le (emsaPss_lt hpos hem0) (pow_bits_le hn))
        have h7 := beVal_inj ((emsaPss_length hpos hem').1.trans (emsaPss_length hpos hem0).1.symm) h6
        rw [h7] at hem'
        exact Subtype.ext (emsaPss_inj hpos hem' hem0).1
      · rintro rfl
        rw [Option.some.inj ((he ⟨salt, rfl⟩).symm.trans hem)]
    rw [chance_one, hop, tsum_eq_single (⟨salt, rfl⟩ : {x : Bytes // x.length = salt.length})]
    · rw [hex, (hinj _).mpr rfl]
      cases b <;> simp
    · intro x hne
      have hz : (if Res.ok (beBytes k.pub.size (os2ip (e x) ^ k.d.val % k.pub.n.val)) =
          Res.ok (beBytes k.pub.size (os2ip em ^ k.d.val % k.pub.n.val)) then (1 : ℝ≥0∞) else 0) = 0 :=
        if_neg fun h => hne ((hinj x).mp (Res.ok.inj h))
      rw [hex]
      simp only [hz]
      cases b <;> simp
  · rw [chance_one, hop, tsum_congr fun x => by rw [hex]]
    cases b
    · simp
    · simp only [if_true, reduceCtorEq, if_false, mul_zero, zero_add, mul_one]
      rw [ENNReal.tsum_mul_right, Ask.card_octets, one_mul]

/-- A generator that counts the calls and answers none. -/
def tally : RngImpl Nat where
  fill s _ := (none, s + 1)
  randMod s _ := (none, s + 1)
  fill_len := by intro s n b h; cases h
  randMod_lt := by intro s n r h; cases h

theorem tally_le {ρ : Type} : ∀ (t : Ask ρ) (s : Nat), s ≤ (t.run tally s).2
  | .done _, _ => le_rfl
  | .octets _ f, s => (Nat.le_succ s).trans (tally_le (f none) (s + 1))
  | .number _ f, s => (Nat.le_succ s).trans (tally_le (f none) (s + 1))

/-- C98: a request that leaves the generator alone has one outcome; the refusals of `C96_refused` are such requests. -/
theorem C98_untouched (q : Request) (h : ∀ (σ : Type) (R : RngImpl σ) (s : σ), (q.op σ R s).2 = s) :
    ∃ x, (∀ (σ : Type) (R : RngImpl σ) (s : σ), q.outcome R s = x) ∧ ∀ r, chance [q] [r] = if r = x then 1 else 0 := by
  obtain ⟨t, -, ht⟩ := tree_request q
  have h0 := h Nat tally 0
  rw [ht] at h0
  rcases t with x | ⟨n, f⟩ | ⟨n, f⟩
  · refine ⟨x, fun σ R s => by rw [← out_request, ht]; rfl, fun r => ?_⟩
    rw [chance_one, show q.op = fun _ _ => Gen.lift x from by funext σ R s; exact ht σ R s, expect_lift]
    simp only [eq_comm]
  · have := tally_le (f none) 1
    have h1 : ((f none).run tally 1).2 = 0 := h0
    omega
  · have := tally_le (f none) 1
    have h1 : ((f none).run tally 1).2 = 0 := h0
    omega

/-! ### As the bound grows -/

/-- C98: as the bound on the draws grows, each padding gets the probability `1 / 255 ^ len`, and blinding ends. -/
theorem C98_limits (len n : Nat) (hn : 1 < n) :
    Filter.Tendsto (fun fuel => firstOctet (fuel + 1) ^ len) Filter.atTop (nhds ((255 : ℝ≥0∞) ^ len)⁻¹) ∧
      Filter.Tendsto (fun fuel => useless n ^ fuel) Filter.atTop (nhds 0) := by
  constructor
  · have h1 : Filter.Tendsto (fun m => firstOctet m) Filter.atTop (nhds (∑' j : Nat, ((256 : ℝ≥0∞) ^ (j + 1))⁻¹)) :=
      ENNReal.summable.hasSum.tendsto_sum_nat
    have h2 : (∑' j : Nat, ((256 : ℝ≥0∞) ^ (j + 1))⁻¹) = 255⁻¹ := by
      have : ∀ j : Nat, ((256 : ℝ≥0∞) ^ (j + 1))⁻¹ = 256⁻¹ * (256⁻¹ : ℝ≥0∞) ^ j := by
        intro j
        rw [ENNReal.inv_pow, pow_succ']
      rw [tsum_congr this, ENNReal.tsum_mul_left, ENNReal.tsum_geometric]
      have h256 : (256 : ℝ≥0∞)⁻¹ * 256 = 1 := ENNReal.inv_mul_cancel (by simp) (by simp)
      have h255 : (1 - 256⁻¹ : ℝ≥0∞) = 255 * 256⁻¹ := by
        refine ENNReal.sub_eq_of_eq_add (by simp) ?_
        rw [← h256]
        ring
      rw [h255, ENNReal.mul_inv (by simp) (by simp), inv_inv]
      calc (256⁻¹ : ℝ≥0∞) * (255⁻¹ * 256) = 255⁻¹ * (256⁻¹ * 256) := by ring
        _ = 255⁻¹ := by rw [h256, mul_one]
    rw [h2] at h1
    rw [ENNReal.inv_pow]
    exact ((ENNReal.continuous_pow len).tendsto _).comp (h1.comp (Filter.tendsto_add_atTop_nat 1))
  · refine ENNReal.tendsto_pow_atTop_nhds_zero_of_lt_one ?_
    unfold useless
    rw [← div_eq_mul_inv]
    refine ENNReal.div_lt_of_lt_mul ?_
    rw [one_mul]
    exact_mod_cast (show n - 1 - n.totient < n by omega)

/-! ### Examples -/

/-- A three-octet message under the 27-octet key, at most four redraws of each octet: every padding of 21 octets. -/
example (x : Bytes) (hx : x.length = 21) (hnz : ∀ b ∈ x, b ≠ 0) :
    ∃ ct, chance [.encryptPkcs1v15 4 Ex.key.pub [1, 2, 3]] [.ok ct] = firstOctet 5 ^ 21 := by
  obtain ⟨ct, -, h⟩ := C98_pkcs1v15 Ex.key_wf (by decide +kernel) 4 [1, 2, 3] x (by rw [hx]; decide +kernel) (by omega) hnz
  rw [hx] at h
  exact ⟨ct, h⟩

example : ([5, 5, 5, 5, 5, 5, 5, 5, 5, 5, 5, 5, 5, 5, 5, 5, 5, 5, 5, 5, 9] : Bytes).length = 21 ∧
    ∀ b ∈ ([5, 5, 5, 5, 5, 5, 5, 5, 5, 5, 5, 5, 5, 5, 5, 5, 5, 5, 5, 5, 9] : Bytes), b ≠ 0 := by decide

example : 255 ^ 21 * firstOctet 5 ^ 21 + chance [.encryptPkcs1v15 4 Ex.key.pub [1, 2, 3]] [.loop] = 1 :=
  C98_pkcs1v15_endless Ex.key_wf (by decide +kernel) 4 21 [1, 2, 3] (by decide +kernel) (by decide)

/-- With no redraws at all, an octet comes out as itself with probability `1 / 256`. -/
example : firstOctet 1 = 256⁻¹ := by simp [firstOctet]

/-- A seed of four octets. -/
example : ∃ ct, chance [.encryptOaepTyped Ex.hash4 Ex.hash4 Ex.key.pub [7] none] [.ok ct] = (256 ^ 4)⁻¹ := by
  obtain ⟨ct, -, -, h⟩ := C98_oaep Ex.key_wf (by decide +kernel) Ex.hash4 Ex.hash4 (by decide) none (by decide) [7]
    [1, 2, 3, 4] rfl (by decide +kernel)
  exact ⟨ct, h⟩

/-- Modulo 15, six of fifteen numbers are of no use. -/
example : useless 15 = 6 * 15⁻¹ := by
  rw [useless, show 15 - 1 - Nat.totient 15 = 6 by decide +kernel]
  rfl

/-- A signature with blinding and at most one draw. -/
example : ∃ sig, chance [.signPkcs1v15 1 .newUnprefixed true Ex.key [1, 2, 3]] [.ok sig] = 1 - useless Ex.key.pub.n.val ∧
    chance [.signPkcs1v15 1 .newUnprefixed true Ex.key [1, 2, 3]] [.loop] = useless Ex.key.pub.n.val := by
  obtain ⟨a, ha⟩ : ∃ a, (Request.signPkcs1v15 1 .newUnprefixed false Ex.key [1, 2, 3]).outcome Ex.countingRng 0 = .ok a :=
    ⟨match (Request.signPkcs1v15 1 .newUnprefixed false Ex.key [1, 2, 3]).outcome Ex.countingRng 0 with
      | .ok a => a | _ => [], by decide +kernel⟩
  have h := C98_private_ok Ex.key_wf (q := .signPkcs1v15 1 .newUnprefixed true Ex.key [1, 2, 3]) (fuel := 1)
    ⟨rfl, rfl, rfl⟩ ha
  simp only [pow_one] at h
  exact ⟨a, h⟩

/-- A ciphertext that is not below the modulus is refused before anything is drawn. -/
example : chance [.decryptOaep 1 true Ex.key (List.replicate 27 255) (DigestState.new Ex.hash4) (DigestState.new Ex.hash4) none]
    [.err .decryption] = 1 := by
  obtain ⟨x, ho, -, ⟨hb, -⟩ | ⟨-, hb⟩⟩ := C98_private Ex.key_wf (fuel := 1) (q := .decryptOaep 1 true Ex.key
    (List.replicate 27 255) (DigestState.new Ex.hash4) (DigestState.new Ex.hash4) none) ⟨rfl, rfl, rfl⟩
  · have hx : x = .err .decryption := by
      rw [← ho Nat Ex.countingRng 0]; decide +kernel
    rw [hb, hx, if_pos rfl]
  · exact absurd (hb _ scripted none (by decide) rfl) (by decide +kernel)

/-- A salt of three octets. -/
example : ∃ sig, chance [.signPss 2 true Ex.key (Ex.hash4.hash [1]) 3 (DigestState.new Ex.hash4)] [.ok sig] =
    (256 ^ 3)⁻¹ * (1 - useless Ex.key.pub.n.val ^ 2) := by
  obtain ⟨em, hem⟩ : ∃ em, emsaPss Ex.hash4.hash (mgf1 Ex.hash4.hash Ex.hash4.outLen) Ex.hash4.outLen
      (Ex.hash4.hash [1]) [1, 2, 3] (Ex.key.pub.n.val.size - 1) = some em :=
    Option.isSome_iff_exists.mp (by decide +kernel)
  obtain ⟨sig, -, h, -⟩ := C98_pss Ex.key_wf (by decide) 2 true Ex.hash4 (by decide) _ [1, 2, 3] em (by decide) (by decide) hem
    _ (.inl rfl)
  exact ⟨sig, h⟩

/-- A message too long for the key. -/
example : chance [.encryptPkcs1v15 4 Ex.key.pub (List.replicate 17 7)] [.err .messageTooLong] = 1 := by
  obtain ⟨x, h1, h2⟩ := C98_untouched (.encryptPkcs1v15 4 Ex.key.pub (List.replicate 17 7)) fun σ R s =>
    (C96_refused R s).1 4 Ex.key.pub (List.replicate 17 7) (by decide +kernel)
  have hx : x = .err .messageTooLong := by
    rw [← h1 Nat Ex.countingRng 0]; decide +kernel
  rw [h2, hx, if_pos rfl]

end RSA
