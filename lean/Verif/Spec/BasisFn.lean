import Mathlib.Analysis.Calculus.Deriv.Basic

/-!
# Radial functions given with their slope
-/

namespace Verif.Spec

/-- The value `v` computed alone, and the pair `d` of value and slope, are those of the function `F` at `r`. -/
def ValueAndSlope (F : ℝ → ℝ) (r v : ℝ) (d : ℝ × ℝ) : Prop :=
  v = F r ∧ d.1 = F r ∧ HasDerivAt F d.2 r

end Verif.Spec
