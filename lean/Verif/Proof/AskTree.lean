import Verif.Proof.Generator
import Verif.Proof.Bytes
import Mathlib.Data.Fintype.Card

/- Operations that only call a generator, as trees of calls: what perfect generators make of them. -/
namespace RSA
open Spec BoxedUint
open scoped ENNReal

/-- What to ask next, or the outcome. -/
inductive Ask (ρ : Type) : Type
  | done (r : ρ)
  | octets (n : Nat) (f : Option Bytes → Ask ρ)
  | number (n : Nat) (f : Option Nat → Ask ρ)

namespace Ask

variable {ρ τ : Type}

def run {σ : Type} (R : RngImpl σ) : Ask ρ → σ → ρ × σ
  | done r, s => (r, s)
  | octets n f, s => (f (R.fill s n).1).run R (R.fill s n).2
  | number n f, s => (f (R.randMod s n).1).run R (R.randMod s n).2

def bind : Ask ρ → (ρ → Ask τ) → Ask τ
  | done r, g => g r
  | octets n f, g => octets n fun a => (f a).bind g
  | number n f, g => number n fun a => (f a).bind g

theorem run_bind {σ : Type} (R : RngImpl σ) (g : ρ → Ask τ) : ∀ (t : Ask ρ) (s : σ),
    (t.bind g).run R s = (g (t.run R s).1).run R (t.run R s).2
  | done _, _ => rfl
  | octets _ f, _ => run_bind R g (f _) _
  | number _ f, _ => run_bind R g (f _) _

/-- No number is asked for below zero. -/
def Live : Ask ρ → Prop
  | done _ => True
  | octets _ f => ∀ a, (f a).Live
  | number n f => n ≠ 0 ∧ ∀ a, (f a).Live

theorem live_bind {g : ρ → Ask τ} (hg : ∀ r, (g r).Live) : ∀ {t : Ask ρ}, t.Live → (t.bind g).Live
  | done r, _ => hg r
  | octets _ _, h => fun a => live_bind hg (h a)
  | number _ _, h => ⟨h.1, fun a => live_bind hg (h.2 a)⟩

/-- The outcome the script leads to, if it is fair and used up. -/
def follow : Ask ρ → List Call → Option ρ
  | done r, [] => some r
  | octets n f, .octets m (some b) :: cs => if m = n ∧ b.length = n then (f (some b)).follow cs else none
  | number n f, .number m (some a) :: cs => if m = n ∧ a < n then (f (some a)).follow cs else none
  | _, _ => none

theorem run_broken : ∀ t : Ask ρ, (t.run scripted none).2 = none
  | done _ => rfl
  | octets _ f => run_broken (f none)
  | number _ f => run_broken (f none)

theorem run_broken_ne (t : Ask ρ) (r : ρ) : t.run scripted none ≠ (r, some []) := fun h => by
  have := run_broken t
  rw [h] at this
  cases this

theorem run_scripted : ∀ (t : Ask ρ) (cs : List Call) (r : ρ), t.run scripted (some cs) = (r, some []) ↔ t.follow cs = some r
  | done r', [], r => by
    show (r', some []) = (r, some []) ↔ some r' = some r
    simp
  | done r', c :: cs, r => by
    show (r', some (c :: cs)) = (r, some []) ↔ none = some r
    simp
  | octets n f, cs, r => by
    have hb : ∀ {cs}, scripted.fill (some cs) n = (none, none) → follow (octets n f) cs = none →
        ((octets n f).run scripted (some cs) = (r, some []) ↔ follow (octets n f) cs = some r) := by
      intro cs h1 h2
      rw [h2]
      simp only [run, h1, reduceCtorEq, iff_false]
      exact run_broken_ne _ _
    rcases cs with _ | ⟨⟨m, _ | b⟩ | ⟨m, a⟩, t⟩
    · exact hb rfl rfl
    · exact hb rfl rfl
    · by_cases h : m = n ∧ b.length = n
      · have h1 : scripted.fill (some (.octets m (some b) :: t)) n = (some b, some t) := if_pos h
        have h2 : follow (octets n f) (.octets m (some b) :: t) = (f (some b)).follow t := if_pos h
        rw [h2, ← run_scripted]
        simp only [run, h1]
      · exact hb (if_neg h) (if_neg h)
    · exact hb rfl rfl
  | number n f, cs, r => by
    have hb : ∀ {cs}, scripted.randMod (some cs) n = (none, none) → follow (number n f) cs = none →
        ((number n f).run scripted (some cs) = (r, some []) ↔ follow (number n f) cs = some r) := by
      intro cs h1 h2
      rw [h2]
      simp only [run, h1, reduceCtorEq, iff_false]
      exact run_broken_ne _ _
    rcases cs with _ | ⟨⟨m, a⟩ | ⟨m, _ | a⟩, t⟩
    · exact hb rfl rfl
    · exact hb rfl rfl
    · exact hb rfl rfl
    · by_cases h : m = n ∧ a < n
      · have h1 : scripted.randMod (some (.number m (some a) :: t)) n = (some a, some t) := if_pos h
        have h2 : follow (number n f) (.number m (some a) :: t) = (f (some a)).follow t := if_pos h
        rw [h2, ← run_scripted]
        simp only [run, h1]
      · exact hb (if_neg h) (if_neg h)

/-- What one script contributes to a mean. -/
noncomputable def part (g : ρ → ℝ≥0∞) (o : Option ρ) (w : ℝ≥0∞) : ℝ≥0∞ :=
  match o with
  | some r => w * g r
  | none => 0

/-- The mean of `g` over the outcomes. -/
noncomputable def mean (t : Ask ρ) (g : ρ → ℝ≥0∞) : ℝ≥0∞ := ∑' cs : List Call, part g (t.follow cs) (weight cs)

theorem mean_done (r : ρ) (g : ρ → ℝ≥0∞) : mean (done r) g = g r := by
  unfold mean
  rw [tsum_eq_single []]
  · show weight [] * g r = g r
    simp [weight]
  · intro cs h
    rcases cs with _ | ⟨c, cs⟩
    · exact absurd rfl h
    · rfl

theorem part_mul (g : ρ → ℝ≥0∞) (o : Option ρ) (w v : ℝ≥0∞) : part g o (w * v) = w * part g o v := by
  cases o with
  | none => exact (mul_zero _).symm
  | some r => exact mul_assoc _ _ _

theorem mean_octets (n : Nat) (f : Option Bytes → Ask ρ) (g : ρ → ℝ≥0∞) :
    mean (octets n f) g = ∑' b : {b : Bytes // b.length = n}, (256 ^ n)⁻¹ * mean (f (some b.1)) g := by
  let i : {b : Bytes // b.length = n} × List Call → List Call := fun x => .octets n (some x.1.1) :: x.2
  have hi : Function.Injective i := by
    rintro ⟨⟨b, hb⟩, cs⟩ ⟨⟨b', hb'⟩, cs'⟩ h
    simp only [i, List.cons.injEq, Call.octets.injEq, Option.some.injEq, true_and] at h
    obtain ⟨rfl, rfl⟩ := h
    rfl
  have hs : Function.support (fun cs => part g ((octets n f).follow cs) (weight cs)) ⊆ Set.range i := by
    intro cs h
    rcases cs with _ | ⟨⟨m, _ | b⟩ | ⟨m, a⟩, t⟩
    · exact absurd rfl h
    · exact absurd rfl h
    · by_cases hm : m = n ∧ b.length = n
      · obtain ⟨rfl, hb⟩ := hm
        exact ⟨(⟨b, hb⟩, t), rfl⟩
      · refine absurd ?_ h
        show part g (if m = n ∧ b.length = n then _ else _) _ = 0
        rw [if_neg hm]; rfl
    · exact absurd rfl h
  unfold mean
  rw [← hi.tsum_eq hs]
  refine (ENNReal.tsum_prod (f := fun b cs => part g ((octets n f).follow (i (b, cs))) (weight (i (b, cs))))).trans ?_
  congr 1
  funext b
  rw [← ENNReal.tsum_mul_left]
  congr 1
  funext cs
  have h1 : (octets n f).follow (.octets n (some b.1) :: cs) = (f (some b.1)).follow cs := if_pos ⟨rfl, b.2⟩
  show part g ((octets n f).follow (.octets n (some b.1) :: cs)) _ = _
  rw [h1, show weight (i (b, cs)) = (256 ^ n)⁻¹ * weight cs from by simp [weight, i, Call.weight], part_mul]

theorem mean_number (n : Nat) (f : Option Nat → Ask ρ) (g : ρ → ℝ≥0∞) :
    mean (number n f) g = ∑' a : {a : Nat // a < n}, (n : ℝ≥0∞)⁻¹ * mean (f (some a.1)) g := by
  let i : {a : Nat // a < n} × List Call → List Call := fun x => .number n (some x.1.1) :: x.2
  have hi : Function.Injective i := by
    rintro ⟨⟨b, hb⟩, cs⟩ ⟨⟨b', hb'⟩, cs'⟩ h
    simp only [i, List.cons.injEq, Call.number.injEq, Option.some.injEq, true_and] at h
    obtain ⟨rfl, rfl⟩ := h
    rfl
  have hs : Function.support (fun cs => part g ((number n f).follow cs) (weight cs)) ⊆ Set.range i := by
    intro cs h
    rcases cs with _ | ⟨⟨m, a⟩ | ⟨m, _ | b⟩, t⟩
    · exact absurd rfl h
    · exact absurd rfl h
    · exact absurd rfl h
    · by_cases hm : m = n ∧ b < n
      · obtain ⟨rfl, hb⟩ := hm
        exact ⟨(⟨b, hb⟩, t), rfl⟩
      · refine absurd ?_ h
        show part g (if m = n ∧ b < n then _ else _) _ = 0
        rw [if_neg hm]; rfl
  unfold mean
  rw [← hi.tsum_eq hs]
  refine (ENNReal.tsum_prod (f := fun b cs => part g ((number n f).follow (i (b, cs))) (weight (i (b, cs))))).trans ?_
  congr 1
  funext b
  rw [← ENNReal.tsum_mul_left]
  congr 1
  funext cs
  have h1 : (number n f).follow (.number n (some b.1) :: cs) = (f (some b.1)).follow cs := if_pos ⟨rfl, b.2⟩
  show part g ((number n f).follow (.number n (some b.1) :: cs)) _ = _
  rw [h1, show weight (i (b, cs)) = (n : ℝ≥0∞)⁻¹ * weight cs from by simp [weight, i, Call.weight], part_mul]

theorem mean_bind (h : ρ → Ask τ) (g : τ → ℝ≥0∞) : ∀ t : Ask ρ, mean (t.bind h) g = mean t fun r => mean (h r) g
  | done r => (mean_done r fun r => mean (h r) g).symm
  | octets n f => by
    show mean (octets n fun a => (f a).bind h) g = _
    rw [mean_octets, mean_octets]
    congr 1; funext b
    rw [mean_bind h g (f _)]
  | number n f => by
    show mean (number n fun a => (f a).bind h) g = _
    rw [mean_number, mean_number]
    congr 1; funext b
    rw [mean_bind h g (f _)]

theorem mean_mul (t : Ask ρ) (g : ρ → ℝ≥0∞) (c : ℝ≥0∞) : (mean t fun r => g r * c) = mean t g * c := by
  unfold mean
  rw [← ENNReal.tsum_mul_right]
  congr 1; funext cs
  cases t.follow cs with
  | none => exact (zero_mul _).symm
  | some r => exact (mul_assoc _ _ _).symm

theorem card_octets (n : Nat) : ∑' _ : {b : Bytes // b.length = n}, ((256 : ℝ≥0∞) ^ n)⁻¹ = 1 := by
  let e : {b : Bytes // b.length = n} ≃ Fin (256 ^ n) :=
    Equiv.ofBijective (fun b => ⟨beVal b.1, by have := beVal_lt b.1; rwa [b.2] at this⟩) ⟨by
      rintro ⟨a, ha⟩ ⟨b, hb⟩ h
      have := congrArg Fin.val h
      exact Subtype.ext (beVal_inj (ha.trans hb.symm) this), by
      intro ⟨v, hv⟩
      refine ⟨⟨beBytes n v, beBytes_length n v⟩, Fin.ext ?_⟩
      show beVal (beBytes n v) = v
      rw [beVal_beBytes]
      exact Nat.mod_eq_of_lt hv⟩
  rw [← e.symm.tsum_eq, tsum_fintype, Finset.sum_const, Finset.card_univ, Fintype.card_fin, nsmul_eq_mul, Nat.cast_pow]
  exact ENNReal.mul_inv_cancel (by simp) (by simp)

theorem card_number {n : Nat} (hn : n ≠ 0) : ∑' _ : {a : Nat // a < n}, (n : ℝ≥0∞)⁻¹ = 1 := by
  let e : {a : Nat // a < n} ≃ Fin n := ⟨fun a => ⟨a.1, a.2⟩, fun a => ⟨a.1, a.2⟩, fun _ => rfl, fun _ => rfl⟩
  rw [← e.symm.tsum_eq, tsum_fintype, Finset.sum_const, Finset.card_univ, Fintype.card_fin, nsmul_eq_mul]
  exact ENNReal.mul_inv_cancel (by simpa using hn) (by simp)

theorem mean_one : ∀ {t : Ask ρ}, t.Live → (mean t fun _ => 1) = 1
  | done r, _ => mean_done r _
  | octets n f, h => by
    rw [mean_octets]
    simp only [mean_one (h _), mul_one]
    exact card_octets n
  | number n f, h => by
    rw [mean_number]
    simp only [mean_one (h.2 _), mul_one]
    exact card_number h.1

end Ask

/-! ### Operations as trees -/

variable {α β : Type} {N : Prop}

/-- The operation follows a tree of calls. -/
def Treed (N : Prop) (op : Op α) : Prop := ∃ t : Ask (Res α), (N → t.Live) ∧ ∀ σ R s, op σ R s = t.run R s

theorem tree_lift (r : Res α) : Treed N (fun _ _ => Gen.lift r) := ⟨.done r, fun _ => trivial, fun _ _ _ => rfl⟩

theorem tree_fill (n : Nat) : Treed N (fun _ R => gen.tryFill R n) := by
  refine ⟨.octets n fun a => .done (match a with | some b => .ok b | none => .err .rng), fun _ _ => trivial, fun σ R s => ?_⟩
  show gen.tryFill R n s = ((match (R.fill s n).1 with | some b => Res.ok b | none => Res.err .rng), (R.fill s n).2)
  unfold gen.tryFill
  rcases R.fill s n with ⟨_ | b, s'⟩ <;> rfl

theorem tree_number (n : Nat) (hn : N → n ≠ 0) : Treed N (fun _ R => gen.tryRandomMod R n) := by
  refine ⟨.number n fun a => .done (match a with | some b => .ok b | none => .err .rng), fun h => ⟨hn h, fun _ => trivial⟩,
    fun σ R s => ?_⟩
  show gen.tryRandomMod R n s = ((match (R.randMod s n).1 with | some b => Res.ok b | none => Res.err .rng), (R.randMod s n).2)
  unfold gen.tryRandomMod
  rcases R.randMod s n with ⟨_ | b, s'⟩ <;> rfl

theorem tree_bind {m : ∀ σ : Type, RngImpl σ → Gen σ α} {f : ∀ σ : Type, RngImpl σ → α → Gen σ β} (hm : Treed N m)
    (hf : ∀ a, Treed N (fun σ R => f σ R a)) : Treed N (fun σ R => (m σ R >>= fun a => f σ R a : Gen σ β)) := by
  obtain ⟨t, h1, h2⟩ := hm
  choose u g1 g2 using hf
  refine ⟨t.bind fun r => match r with
    | .ok a => u a
    | .err e => .done (.err e)
    | .panic k => .done (.panic k)
    | .loop => .done .loop, fun h => Ask.live_bind ?_ (h1 h), fun σ R s => ?_⟩
  · intro r
    rcases r with a | e | k | _
    · exact g1 a h
    all_goals trivial
  · rw [Ask.run_bind, ← h2]
    show Gen.bind _ _ s = _
    unfold Gen.bind
    rcases m σ R s with ⟨a | e | k | _, s'⟩
    · exact g2 a σ R s'
    all_goals rfl

theorem tree_res {r : Res α} {f : ∀ σ : Type, RngImpl σ → α → Gen σ β} (hf : ∀ a, Treed N (fun σ R => f σ R a)) :
    Treed N (fun σ R => ((liftM r : Gen σ α) >>= fun a => f σ R a : Gen σ β)) :=
  tree_bind (m := fun σ _ => (liftM r : Gen σ α)) (tree_lift r) hf

theorem tree_ite {p : Prop} [Decidable p] {a b : ∀ σ : Type, RngImpl σ → Gen σ α} (ha : Treed N a) (hb : Treed N b) :
    Treed N (fun σ R => if p then a σ R else b σ R) := by
  by_cases h : p
  · have : (fun (σ : Type) (R : RngImpl σ) => if p then a σ R else b σ R) = a := by funext σ R; exact if_pos h
    rw [this]; exact ha
  · have : (fun (σ : Type) (R : RngImpl σ) => if p then a σ R else b σ R) = b := by funext σ R; exact if_neg h
    rw [this]; exact hb

namespace gen

theorem tree_rerollByte : ∀ fuel, Treed N (fun _ R => rerollByte R fuel)
  | 0 => tree_lift _
  | fuel + 1 => tree_bind (tree_fill 1) fun _ => tree_res fun _ => tree_ite (tree_rerollByte fuel) (tree_lift _)

theorem tree_fixZeros (fuel : Nat) : ∀ data, Treed N (fun _ R => fixZeros R fuel data)
  | [] => tree_lift _
  | el :: rest => tree_bind (m := fun σ R => if el = 0 then rerollByte R fuel else Gen.lift (.ok el))
      (tree_ite (tree_rerollByte fuel) (tree_lift _))
      (fun _ => tree_bind (tree_fixZeros fuel rest) fun _ => tree_lift _)

theorem tree_pkcs1v15EncryptPad (fuel : Nat) (msg : Bytes) (k : Nat) :
    Treed N (fun _ R => pkcs1v15EncryptPad R fuel msg k) :=
  tree_ite (tree_lift _) (tree_res fun _ => tree_res fun _ => tree_res fun _ => tree_res fun _ =>
    tree_bind (m := fun _ R => nonZeroRandomBytes R fuel _) (tree_bind (tree_fill _) fun _ => tree_fixZeros fuel _) fun _ =>
    tree_res fun _ => tree_res fun _ => tree_res fun _ => tree_lift _)

theorem tree_oaepEncryptInternal (msg pHash : Bytes) (hSize k : Nat) (mgf : Bytes → Bytes → Res (Bytes × Bytes)) :
    Treed N (fun _ R => oaepEncryptInternal R msg pHash hSize k mgf) :=
  tree_ite (tree_lift _) (tree_res fun ⟨_, _⟩ => tree_res fun ⟨_, _⟩ => tree_bind (tree_fill _) fun _ => tree_res fun _ =>
    tree_res fun _ => tree_res fun _ => tree_res fun _ => tree_res fun _ => tree_res fun _ => tree_res fun _ =>
    tree_res fun ⟨_, _⟩ => tree_lift _)

theorem tree_blindLoop (n : BoxedUint) (hn : N → n.val ≠ 0) : ∀ fuel, Treed N (fun _ R => blindLoop R n fuel)
  | 0 => tree_lift _
  | fuel + 1 => tree_bind (tree_number n.val hn) fun rv => by
      dsimp only
      rcases h : ((if (wrap n.nlimbs rv).isZero then oneWithPrecision n.prec else wrap n.nlimbs rv).invMod n) with _ | ir
      · exact tree_blindLoop n hn fuel
      · exact tree_lift _

theorem tree_blind (fuel : Nat) (key : PublicKey) (c : BoxedUint) (p : MontyParams) (hn : N → key.n.val ≠ 0) :
    Treed N (fun _ R => blind R fuel key c p) :=
  tree_ite (tree_lift _) (tree_bind (tree_blindLoop key.n hn fuel) fun ⟨_, _⟩ => tree_res fun _ => tree_res fun _ =>
    tree_ite (tree_lift _) (tree_ite (tree_lift _) (tree_lift _)))

theorem tree_rsaDecrypt (fuel : Nat) (blinding : Bool) (k : PrivateKey) (c : BoxedUint) (hn : N → k.pub.n.val ≠ 0) :
    Treed N (fun _ R => rsaDecrypt R fuel blinding k c) := by
  refine tree_ite (tree_lift _) ?_
  cases blinding with
  | true => exact tree_bind (tree_blind fuel _ _ _ hn) fun ⟨_, _⟩ => tree_res fun _ => tree_res fun _ =>
      tree_res fun _ => tree_lift _
  | false => exact tree_res fun _ => tree_res fun _ => tree_lift _

theorem tree_rsaDecryptAndCheck (fuel : Nat) (k : PrivateKey) (blinding : Bool) (c : BoxedUint) (hn : N → k.pub.n.val ≠ 0) :
    Treed N (fun _ R => rsaDecryptAndCheck R fuel k blinding c) :=
  tree_bind (tree_rsaDecrypt fuel blinding k c hn) fun _ => tree_res fun _ => tree_ite (tree_lift _) (tree_lift _)

theorem tree_pkcs1v15Sign (fuel : Nat) (blinding : Bool) (k : PrivateKey) (pfx hashed : Bytes) (hn : N → k.pub.n.val ≠ 0) :
    Treed N (fun _ R => pkcs1v15Sign R fuel blinding k pfx hashed) :=
  tree_res fun _ => tree_res fun _ => tree_bind (tree_rsaDecryptAndCheck fuel k blinding _ hn) fun _ => tree_lift _

end gen

theorem tree_request (q : Request) : Treed (q.modulus ≠ 0) q.op := by
  open gen in
  cases q with
  | encryptPkcs1v15 fuel key msg =>
    exact tree_res fun _ => tree_bind (tree_pkcs1v15EncryptPad fuel msg _) fun _ => tree_res fun _ => tree_res fun _ => tree_lift _
  | encryptOaep key msg dg mg label =>
    exact tree_res fun _ => tree_bind (m := fun _ R => gen.oaepEncrypt R msg dg mg label key.size)
      (tree_ite (tree_lift _) (tree_oaepEncryptInternal _ _ _ _ _)) fun _ => tree_res fun _ => tree_res fun _ => tree_lift _
  | encryptOaepTyped D MGD key msg label =>
    exact tree_res fun _ => tree_bind (m := fun _ R => gen.oaepEncryptDigest R msg D MGD label key.size)
      (tree_ite (tree_lift _) (tree_oaepEncryptInternal _ _ _ _ _)) fun _ => tree_res fun _ => tree_res fun _ => tree_lift _
  | decryptPkcs1v15 fuel b k ct =>
    exact tree_res fun _ => tree_res fun _ => tree_bind (tree_rsaDecryptAndCheck fuel k b _ id) fun _ => tree_res fun _ => tree_lift _
  | decryptOaep fuel b k ct dg mg label =>
    exact tree_ite (tree_lift _) (tree_res fun _ =>
      tree_bind (tree_rsaDecryptAndCheck fuel k b _ id) fun _ => tree_res fun _ => tree_lift _)
  | decryptOaepTyped fuel D MGD b k ct label =>
    exact tree_res fun _ => tree_ite (tree_lift _) (tree_res fun _ =>
      tree_bind (tree_rsaDecryptAndCheck fuel k b _ id) fun _ => tree_res fun _ => tree_lift _)
  | signPkcs1v15 fuel S b k hashed => exact tree_res fun _ => tree_pkcs1v15Sign fuel b k _ hashed id
  | signPkcs1v15Typed fuel b k pfx hashed => exact tree_pkcs1v15Sign fuel b k pfx hashed id
  | signPss fuel b k hashed saltLen dg =>
    exact tree_bind (tree_fill saltLen) fun _ => tree_res fun _ => tree_res fun _ => tree_res fun _ =>
      tree_bind (tree_rsaDecryptAndCheck fuel k b _ id) fun _ => tree_lift _
  | signPssTyped fuel D b k hashed saltLen =>
    exact tree_bind (tree_fill saltLen) fun _ => tree_res fun _ => tree_res fun _ => tree_res fun _ =>
      tree_bind (tree_rsaDecryptAndCheck fuel k b _ id) fun _ => tree_lift _

/-- The tree of a request. -/
noncomputable def askOf (q : Request) : Ask (Res Bytes) := (tree_request q).choose

theorem askOf_live {q : Request} (h : q.modulus ≠ 0) : (askOf q).Live := (tree_request q).choose_spec.1 h

theorem askOf_run (q : Request) {σ : Type} (R : RngImpl σ) (s : σ) : q.op σ R s = (askOf q).run R s :=
  (tree_request q).choose_spec.2 σ R s

/-- The tree of requests made in turn. -/
noncomputable def askAll : List Request → Ask (List (Res Bytes))
  | [] => .done []
  | q :: qs => (askOf q).bind fun r => (askAll qs).bind fun rs => .done (r :: rs)

theorem askAll_live : ∀ {qs : List Request}, (∀ q ∈ qs, q.modulus ≠ 0) → (askAll qs).Live
  | [], _ => trivial
  | q :: qs, h => Ask.live_bind (fun r => Ask.live_bind (g := fun rs => .done (r :: rs)) (fun _ => trivial)
      (askAll_live fun q hq => h q (List.mem_cons_of_mem _ hq))) (askOf_live (h q (List.mem_cons_self ..)))

theorem askAll_run {σ : Type} (R : RngImpl σ) : ∀ (qs : List Request) (s : σ), inTurn R qs s = (askAll qs).run R s
  | [], _ => rfl
  | q :: qs, s => by
    show ((q.op σ R s).1 :: (inTurn R qs (q.op σ R s).2).1, (inTurn R qs (q.op σ R s).2).2) = _
    rw [askAll, Ask.run_bind, Ask.run_bind, askAll_run R qs, askOf_run]
    rfl

open Classical in
theorem chance_eq (qs : List Request) (rs : List (Res Bytes)) :
    chance qs rs = (askAll qs).mean fun x => if x = rs then 1 else 0 := by
  unfold chance Ask.mean
  rw [show (∑' cs : {cs : List Call // inTurn scripted qs (some cs) = (rs, some [])}, weight cs.1) =
    ∑' cs, Set.indicator {cs | inTurn scripted qs (some cs) = (rs, some [])} weight cs from tsum_subtype _ _]
  congr 1
  funext cs
  by_cases h : inTurn scripted qs (some cs) = (rs, some [])
  · rw [Set.indicator_of_mem (show cs ∈ {cs | inTurn scripted qs (some cs) = (rs, some [])} from h)]
    rw [askAll_run, Ask.run_scripted] at h
    rw [h]
    show _ = weight cs * (if rs = rs then 1 else 0)
    rw [if_pos rfl, mul_one]
  · rw [Set.indicator_of_notMem (show cs ∉ {cs | inTurn scripted qs (some cs) = (rs, some [])} from h)]
    rw [askAll_run, Ask.run_scripted] at h
    rcases hf : (askAll qs).follow cs with _ | x
    · rfl
    · show 0 = weight cs * (if x = rs then 1 else 0)
      rw [if_neg (fun hx => h (by rw [hf, hx])), mul_zero]

theorem chance_cons (q : Request) (r : Res Bytes) (qs : List Request) (rs : List (Res Bytes)) :
    chance (q :: qs) (r :: rs) = chance [q] [r] * chance qs rs := by
  classical
  have key : ∀ qs rs, chance (q :: qs) (r :: rs) =
      ((askOf q).mean fun x => if x = r then 1 else 0) * chance qs rs := by
    intro qs rs
    rw [chance_eq, chance_eq, askAll, Ask.mean_bind, ← Ask.mean_mul]
    congr 1
    funext x
    rw [Ask.mean_bind]
    simp only [Ask.mean_done, List.cons.injEq]
    by_cases h : x = r
    · simp only [h, true_and, if_true, one_mul]
    · simp only [h, false_and, if_false, zero_mul]
      rw [show (fun _ : List (Res Bytes) => (0 : ℝ≥0∞)) = fun _ => 0 * 0 from by simp, Ask.mean_mul, mul_zero]
  have one : chance [] [] = 1 := by
    rw [chance_eq, askAll, Ask.mean_done, if_pos rfl]
  rw [key, key [] [], one, mul_one]

theorem chance_total (qs : List Request) (h : ∀ q ∈ qs, q.modulus ≠ 0) : ∑' rs, chance qs rs = 1 := by
  classical
  rw [← Ask.mean_one (askAll_live h)]
  unfold Ask.mean
  simp only [chance_eq, Ask.mean]
  rw [ENNReal.tsum_comm]
  congr 1
  funext cs
  rcases (askAll qs).follow cs with _ | x
  · exact tsum_zero
  · show ∑' rs, weight cs * (if x = rs then 1 else 0) = weight cs * 1
    rw [ENNReal.tsum_mul_left]
    congr 1
    exact tsum_ite_eq' x _

end RSA
