import Verif.Model.Prelude

/- Comparing a build with overflow checks and debug assertions with one without. -/
namespace RSA.Spec

/-- The two builds do the same, unless the one with checks stops at one of its checks. -/
def SameUnlessStopped {α : Type} (checked release : Res α) : Prop :=
  checked = release ∨ checked = .panic .arith ∨ checked = .panic .assert

end RSA.Spec
