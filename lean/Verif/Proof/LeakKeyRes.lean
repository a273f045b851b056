import Verif.Proof.LeakKey
import Verif.Proof.Res

/- C89: recording the observations does not change what is computed. -/
namespace RSA
open BoxedUint

namespace leak
open Leak
variable {α β : Type}

@[simp] theorem res_bn (name : String) (s : List Nat) : (bn name s).res = .ok () := rfl

@[simp] theorem res_guardNot (c : Bool) (fail : Res α) (next : Leak α) :
    (guardNot c fail next).res = if c then fail else next.res := by
  unfold guardNot branch
  simp [res_ite]

@[simp] theorem res_check (o : Option α) (fail : Res α) :
    (check o fail).res = match o with | some a => .ok a | none => fail := by
  cases o <;> rfl

@[simp] theorem res_sub (x y : BoxedUint) : (leak.sub x y).res = x.sub y := rfl
@[simp] theorem res_add (x y : BoxedUint) : (leak.add x y).res = x.add y := rfl
@[simp] theorem res_op (name : String) (f : BoxedUint → BoxedUint → BoxedUint) (x y : BoxedUint) :
    (op name f x y).res = .ok (f x y) := rfl
@[simp] theorem res_op1 (name : String) (f : BoxedUint → BoxedUint) (x : BoxedUint) : (op1 name f x).res = .ok (f x) := rfl
@[simp] theorem res_cmp (name : String) (f : BoxedUint → BoxedUint → Bool) (x y : BoxedUint) :
    (cmp name f x y).res = .ok (f x y) := rfl
@[simp] theorem res_test (name : String) (f : BoxedUint → Bool) (x : BoxedUint) : (test name f x).res = .ok (f x) := rfl
@[simp] theorem res_widen (x : BoxedUint) (b : Nat) : (leak.widen x b).res = x.widen b := rfl
@[simp] theorem res_expectNonZero (x : BoxedUint) : (leak.expectNonZero x).res = RSA.expectNonZero x := by
  simp only [leak.expectNonZero, RSA.expectNonZero, res_bind, res_bn, Res.ok_bind, res_check]
  cases x.nonZero <;> rfl
@[simp] theorem res_montyParams (x : OddUint) : (montyParams x).res = .ok ⟨x⟩ := rfl
@[simp] theorem res_montyNew (x : BoxedUint) (p : MontyParams) : (leak.montyNew x p).res = MontyForm.new x p := rfl
@[simp] theorem res_primeAt (l : List BoxedUint) (i : Nat) : (leak.primeAt l i).res = RSA.primeAt l i := rfl
@[simp] theorem res_oddOrInvalid (x : BoxedUint) : (leak.oddOrInvalid x).res = PrivateKey.oddOrInvalid x := by
  simp only [leak.oddOrInvalid, PrivateKey.oddOrInvalid, res_bind, res_bn, Res.ok_bind, res_check]
  cases OddUint.new x <;> rfl
@[simp] theorem res_nonZeroOrInvalid (x : BoxedUint) : (leak.nonZeroOrInvalid x).res = PrivateKey.nonZeroOrInvalid x := by
  simp only [leak.nonZeroOrInvalid, PrivateKey.nonZeroOrInvalid, res_bind, res_bn, Res.ok_bind, res_check]
  cases x.nonZero <;> rfl
@[simp] theorem res_debugAssert (c : Bool) : (leak.debugAssert c).res = if c then .ok () else .panic .assert := by
  cases c <;> rfl

theorem checkPublicWithMaxSize_res (n e : BoxedUint) (sz : Nat) :
    (checkPublicWithMaxSize n e sz).res = RSA.checkPublicWithMaxSize n e sz := by
  unfold checkPublicWithMaxSize RSA.checkPublicWithMaxSize
  simp only [res_guardNot, res_bind, res_cmp, res_test, Res.ok_bind, res_ofRes, decide_eq_true_eq, Bool.or_eq_true]
  by_cases h1 : n.prec > sz
  · simp [h1]
  · cases h2 : e.ge n <;> cases h3 : n.isEven <;> cases h4 : n.isZero <;> simp [h1]

theorem validateProduct_res : ∀ (ps : List BoxedUint) (m : BoxedUint),
    (validateProduct ps m).res = PrivateKey.validateProduct ps m
  | [], _ => rfl
  | p :: ps, m => by
    simp [validateProduct, PrivateKey.validateProduct, validateProduct_res ps]

theorem validateExponents_res (de : BoxedUint) (dp : Nat) : ∀ ps : List BoxedUint,
    (validateExponents de dp ps).res = PrivateKey.validateExponents de dp ps
  | [] => rfl
  | p :: ps => by
    simp [validateExponents, PrivateKey.validateExponents, validateExponents_res de dp ps]

theorem validate_res (k : PrivateKey) : (validate k).res = k.validate := by
  simp [validate, PrivateKey.validate, leak.checkPublic, RSA.checkPublic, checkPublicWithMaxSize_res, validateProduct_res,
    validateExponents_res]

theorem precomputeValues_res (d : BoxedUint) (ps : List BoxedUint) :
    (precomputeValues d ps).res = PrivateKey.precomputeValues d ps := by
  unfold precomputeValues PrivateKey.precomputeValues
  simp only [res_bind, res_primeAt, res_widen, res_oddOrInvalid, res_montyParams, res_op, res_nonZeroOrInvalid, res_montyNew,
    res_bn, res_check, Res.ok_bind, res_debugAssert, res_ofRes]
  refine congrArg _ (funext fun p0 => congrArg _ (funext fun p => congrArg _ (funext fun q0 => congrArg _ (funext fun q =>
    congrArg _ (funext fun po => congrArg _ (funext fun qo => congrArg _ (funext fun x => congrArg _ (funext fun y =>
    congrArg _ (funext fun qm => ?_)))))))))
  rcases qm.invert with _ | qi
  · rfl
  · simp only [Res.ok_bind, decide_eq_true_eq]
    split_ifs <;> simp_all

theorem precompute_res (k : PrivateKey) : (precompute k).res = k.precompute := by
  simp [precompute, PrivateKey.precompute, precomputeValues_res]

theorem tryPrecompute_res (k : PrivateKey) : (tryPrecompute k).res = k.tryPrecompute := by
  unfold tryPrecompute PrivateKey.tryPrecompute
  have h := precompute_res k
  rcases hr : (precompute k).res with a | e | c | _ <;> rw [hr] at h <;> simp only [hr, ← h]

theorem sub_cases (x y : BoxedUint) : x.sub y = .panic .arith ∨ ∃ r, x.sub y = .ok r := by
  unfold BoxedUint.sub
  split
  · exact Or.inr ⟨_, rfl⟩
  · exact Or.inl rfl

theorem add_one_cases (x y : BoxedUint) (hy : y.val = 1) :
    x.add y = .panic .arith ∨ ∃ r, x.add y = .ok r ∧ RSA.expectNonZero r = .ok r := by
  have hz : ∀ z : BoxedUint, z.val ≠ 0 → RSA.expectNonZero z = .ok z := by
    intro z hz
    simp only [RSA.expectNonZero, BoxedUint.nonZero, hz, if_false]
  unfold BoxedUint.add
  split
  · next h =>
    refine Or.inr ⟨_, rfl, hz _ ?_⟩
    show (x.val + y.val) % 2 ^ (64 * max x.nlimbs y.nlimbs) ≠ 0
    rw [Nat.mod_eq_of_lt h, hy]
    omega
  · exact Or.inl rfl

theorem widen_one_cases (b : Nat) :
    BoxedUint.one.widen b = .panic .precision ∨ ∃ r, BoxedUint.one.widen b = .ok r ∧ r.val = 1 := by
  unfold BoxedUint.widen
  split
  · refine Or.inr ⟨_, rfl, ?_⟩
    show 1 % 2 ^ (64 * limbsFor b) = 1
    refine Nat.mod_eq_of_lt (Nat.one_lt_two_pow ?_)
    unfold limbsFor
    omega
  · exact Or.inl rfl

theorem recoverPrimes_res (n e d : BoxedUint) : (recoverPrimes n e d).res = RSA.recoverPrimes n e d := by
  unfold recoverPrimes RSA.recoverPrimes
  simp only [res_bind, res_cmp, res_guardNot, res_widen, res_op, res_op1, res_sub, res_add, res_expectNonZero, res_test,
    Res.ok_bind, res_ofRes]
  by_cases hle : e.le (ofU64 65536) = true
  · rw [if_pos hle, if_pos hle]
  · rw [if_neg hle, if_neg hle]
    rcases widen_one_cases (d.prec * 2) with h1 | ⟨one, h1, hone⟩
    · rw [h1, Res.panic_bind, Res.panic_bind]
    rw [h1]
    simp only [Res.ok_bind]
    refine congrArg _ (funext fun e => congrArg _ (funext fun d => congrArg _ (funext fun n => congrArg _ (funext fun a1 =>
      congrArg _ (funext fun n1 => congrArg _ (funext fun n => congrArg _ (funext fun nz => congrArg _ (funext fun r =>
      ?_))))))))
    rcases sub_cases n r with h | ⟨num, h⟩
    · rcases add_one_cases (BoxedUint.div (a1.mul (n1.gcd a1)) nz) one hone with h' | ⟨r', h', h''⟩
      · simp only [h, h', Res.panic_bind]
      · simp only [h, h', h'', Res.ok_bind, Res.panic_bind]
    · rcases add_one_cases (BoxedUint.div (a1.mul (n1.gcd a1)) nz) one hone with h' | ⟨r', h', h''⟩
      · simp only [h, h', Res.ok_bind, Res.panic_bind]
      · simp only [h, h', h'', Res.ok_bind]

theorem productLoop_res : ∀ (ps : List BoxedUint) (o : BoxedUint), (productLoop ps o).res = .ok (ps.foldl BoxedUint.mul o)
  | [], _ => rfl
  | p :: ps, o => by simp [productLoop, productLoop_res ps]

theorem computeModulus_res (ps : List BoxedUint) : (computeModulus ps).res = RSA.computeModulus ps := by
  cases ps with
  | nil => rfl
  | cons p ps =>
    simp only [computeModulus, RSA.computeModulus, res_bind, productLoop_res, Res.ok_bind, res_bn, res_check]
    cases OddUint.new (ps.foldl BoxedUint.mul p) <;> rfl

theorem totientLoop_res : ∀ (ps : List BoxedUint) (t : BoxedUint), (totientLoop ps t).res = RSA.totientLoop ps t
  | [], _ => rfl
  | p :: ps, t => by simp [totientLoop, RSA.totientLoop, totientLoop_res ps]

theorem euler_res (ps : List BoxedUint) (e : BoxedUint) :
    (computePrivateExponentEulerTotient ps e).res = RSA.computePrivateExponentEulerTotient ps e := by
  simp only [computePrivateExponentEulerTotient, RSA.computePrivateExponentEulerTotient, res_guardNot, decide_eq_true_eq,
    res_bind, res_primeAt, totientLoop_res, res_widen, leak.invMod, res_bn, Res.ok_bind, res_check]
  split
  · rfl
  · refine congrArg _ (funext fun p0 => congrArg _ (funext fun t => congrArg _ (funext fun e => ?_)))
    cases e.invMod t <;> rfl

theorem carmichael_res (p q e : BoxedUint) :
    (computePrivateExponentCarmichael p q e).res = RSA.computePrivateExponentCarmichael p q e := by
  simp only [computePrivateExponentCarmichael, RSA.computePrivateExponentCarmichael, res_bind, res_sub, res_op,
    res_expectNonZero, res_widen, leak.invMod, res_bn, Res.ok_bind, res_check]
  refine congrArg _ (funext fun p1 => congrArg _ (funext fun q1 => congrArg _ (funext fun g => congrArg _ (funext fun e =>
    ?_))))
  cases e.invMod ((p1.div g).mul q1) <;> rfl

theorem fromComponents_res (n : OddUint) (e d : BoxedUint) (ps : List BoxedUint) :
    (fromComponents n e d ps).res = PrivateKey.fromComponents n e d ps := by
  unfold fromComponents PrivateKey.fromComponents factorsOrRecover
  simp only [res_bind, res_montyParams, res_bn, res_check, Res.ok_bind, res_emit, validate_res, tryPrecompute_res]
  rcases n.toBoxedUint.nonZero with _ | nC
  · rfl
  · rcases ps with _ | ⟨p, _ | ⟨q, l⟩⟩
    · simp only [Res.ok_bind, res_bind, recoverPrimes_res, res_ofRes]
      rcases RSA.recoverPrimes nC e d with _ | _ | _ | _ <;> rfl
    · rfl
    · rfl

theorem fromPQ_res (p q e : BoxedUint) : (fromPQ p q e).res = PrivateKey.fromPQ p q e := by
  simp [fromPQ, PrivateKey.fromPQ, carmichael_res, computeModulus_res, fromComponents_res]

theorem anyEqual_res (p : BoxedUint) : ∀ xs : List BoxedUint, (anyEqual p xs).res = .ok (xs.any fun x => p.beq x)
  | [] => rfl
  | x :: xs => by
    unfold anyEqual branch
    cases h : p.beq x <;> simp [h, anyEqual_res p xs]

theorem hasDuplicate_res : ∀ ps seen : List BoxedUint, (hasDuplicate seen ps).res = .ok (PrivateKey.hasDuplicate seen ps)
  | [], _ => rfl
  | p :: ps, seen => by
    unfold hasDuplicate PrivateKey.hasDuplicate
    simp only [res_bind, anyEqual_res, Res.ok_bind]
    cases h : seen.any fun x => p.beq x <;> simp [hasDuplicate_res ps]

theorem fromPrimes_res (ps : List BoxedUint) (e : BoxedUint) : (fromPrimes ps e).res = PrivateKey.fromPrimes ps e := by
  simp [fromPrimes, PrivateKey.fromPrimes, hasDuplicate_res, res_ite, computeModulus_res, euler_res, fromComponents_res]

theorem generatePrimes_res {σ : Type} (G : PrimeGen σ) : ∀ (left todo : Nat) (s : σ),
    (generatePrimes G left todo s).res = RSA.generatePrimes G left todo s
  | 0, _, _ => rfl
  | left + 1, todo, s => by
    have hs : ∀ a b : Nat, (leak.subU a b).res = RSA.subU a b := by
      intro a b
      unfold leak.subU RSA.subU branch
      split_ifs <;> simp_all
    simp [generatePrimes, RSA.generatePrimes, leak.generatePrimeWithRng, generatePrimes_res G left, hs]

theorem generateLoop_res {σ : Type} (G : PrimeGen σ) (np bs : Nat) (e : BoxedUint) : ∀ (fuel : Nat) (s : σ),
    (generateLoop G np bs e fuel s).res = RSA.generateLoop G np bs e fuel s
  | 0, _ => rfl
  | fuel + 1, s => by
    have hb : (branch (np ≥ 7) (ofRes (.ok (bs + (np - 2) / 5))) (ofRes (.ok bs))).res =
        .ok (if np ≥ 7 then bs + (np - 2) / 5 else bs) := by
      unfold branch; split_ifs <;> rfl
    rw [generateLoop, RSA.generateLoop]
    unfold generateTurn
    simp only [res_bind, hb, Res.ok_bind, generatePrimes_res]
    generalize RSA.generatePrimes G np _ s = r
    rcases r with ⟨ps, s1⟩ | _ | _ | _
    swap; rfl
    swap; rfl
    swap; rfl
    simp only [Res.ok_bind, hasDuplicate_res]
    cases PrivateKey.hasDuplicate [] ps with
    | true => simp [generateLoop_res G np bs e fuel]
    | false =>
      simp only [Bool.false_eq_true, if_false, res_bind, computeModulus_res]
      rcases RSA.computeModulus ps with n | _ | _ | _
      swap; rfl
      swap; rfl
      swap; rfl
      simp only [Res.ok_bind, res_bn]
      unfold branch
      by_cases hc : n.toBoxedUint.bits ≠ bs
      · simp [hc, generateLoop_res G np bs e fuel]
      · simp only [hc, if_false, res_bind, res_emit, Res.ok_bind]
        have he := euler_res ps e
        rcases hr : (computePrivateExponentEulerTotient ps e).res with d | _ | _ | _ <;> rw [hr] at he <;>
          simp only [← he, Res.ok_bind, generateLoop_res G np bs e fuel] <;> rfl

theorem generateMulti_res {σ : Type} (G : PrimeGen σ) (fuel : Nat) (s : σ) (np bs : Nat) (e : BoxedUint) :
    (generateMultiPrimeKeyWithExp G fuel s np bs e).res = RSA.generateMultiPrimeKeyWithExp G fuel s np bs e := by
  simp [generateMultiPrimeKeyWithExp, RSA.generateMultiPrimeKeyWithExp, generateLoop_res]

theorem newWithExp_res {σ : Type} (G : PrimeGen σ) (fuel : Nat) (s : σ) (bs : Nat) (e : BoxedUint) :
    (newWithExp G fuel s bs e).res = PrivateKey.newWithExp G fuel s bs e := by
  simp [newWithExp, PrivateKey.newWithExp, generateMulti_res, fromComponents_res]

/-! ### What a whole generation shows -/

theorem generateMulti_shows {σ : Type} {G : PrimeGen σ} (hG : Spec.ExactBits G) (fuel : Nat) (s s' : σ) (np bs : Nat)
    (e : BoxedUint) (c : Components) (h : (generateMultiPrimeKeyWithExp G fuel s np bs e).res = .ok (c, s')) :
    Sized np bs e c ∧ ∃ turns : List (List Ev), turns.length < fuel ∧
      (∀ t ∈ turns, Spec.CutOff (Spec.turnTrace np bs e.nlimbs) t) ∧
      (generateMultiPrimeKeyWithExp G fuel s np bs e).ev =
        [.branch false, .branch (decide (bs < 64)), .branch false] ++ turns.flatten ++ Spec.turnTrace np bs e.nlimbs := by
  unfold generateMultiPrimeKeyWithExp guardNot branch at h ⊢
  by_cases h1 : np < 2
  · simp only [h1, decide_true, if_true] at h
    cases h
  · by_cases h2 : (decide (bs < 64) && tooFewPrimes np bs) = true
    · simp only [h1, h2, decide_true, decide_false, Bool.false_eq_true, if_true, if_false] at h
      cases h
    · simp only [h1, h2, decide_false, Bool.false_eq_true, if_false] at h ⊢
      have h' : (generateLoop G np bs e fuel s).res = .ok (c, s') := h
      obtain ⟨h3, turns, h4, h5, h6⟩ := generateLoop_shows hG np bs e fuel s s' c h'
      refine ⟨h3, turns, h4, h5, ?_⟩
      show .branch false :: .branch _ :: .branch false :: (generateLoop G np bs e fuel s).ev = _
      rw [h6]
      simp

theorem newWithExp_shows {σ : Type} {G : PrimeGen σ} (hG : Spec.ExactBits G) (fuel : Nat) (s s' : σ) (bs : Nat)
    (e : BoxedUint) (k : PrivateKey) (h : (newWithExp G fuel s bs e).res = .ok (k, s')) (hk : k.precomputed.isSome) :
    ∃ turns : List (List Ev), turns.length < fuel ∧ (∀ t ∈ turns, Spec.CutOff (Spec.turnTrace 2 bs e.nlimbs) t) ∧
      (newWithExp G fuel s bs e).ev = Spec.generateTrace bs e.nlimbs turns := by
  unfold newWithExp at h ⊢
  rcases hg : generateMultiPrimeKeyWithExp G fuel s 2 bs e with ⟨ev, r⟩
  rw [hg] at h
  rcases r with ⟨c, s1⟩ | _ | _ | _
  swap; cases h
  swap; cases h
  swap; cases h
  obtain ⟨⟨hp, hn, he, hd⟩, turns, h1, h2, h3⟩ := generateMulti_shows hG fuel s s1 2 bs e c (by rw [hg])
  rw [hg] at h3
  have hf := fromComponents_mostly c.n c.e c.d c.primes
  rcases hx : fromComponents c.n c.e c.d c.primes with ⟨ev', r'⟩
  have h' : ((fromComponents c.n c.e c.d c.primes >>= fun k => ofRes (.ok (k, s1))) : Leak _).res = .ok (k, s') := h
  rw [hx] at h'
  rcases r' with k' | _ | _ | _
  swap; cases h'
  swap; cases h'
  swap; cases h'
  have hk' : Res.ok (k', s1) = Res.ok (k, s') := h'
  cases hk'
  have hev := (hf.ok k (by rw [hx]) hk).1
  refine ⟨turns, h1, h2, ?_⟩
  show ev ++ (fromComponents c.n c.e c.d c.primes >>= fun k => ofRes (.ok (k, s'))).ev = _
  have : (fromComponents c.n c.e c.d c.primes >>= fun k => ofRes (.ok (k, s'))).ev = (fromComponents c.n c.e c.d c.primes).ev := by
    rw [hx]
    show ev' ++ [] = ev'
    exact List.append_nil _
  rw [this, hev]
  have h3' : ev = _ := h3
  rw [h3', hn, he, hd, hp]
  rfl

end leak
end RSA
