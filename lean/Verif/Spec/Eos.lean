import Verif.Model.Eos
import Mathlib.Analysis.Calculus.Deriv.Basic

/-!
# Grids of volume ratios and the pressure of a free energy

Specification side.
-/

namespace Verif.Spec

/-- Every point of `[lo, hi)` that fulfils `P` has a grid point at most a step below it (less than a step away). -/
def Dense (xs : List ℝ) (lo hi step : ℝ) (P : ℝ → Prop) : Prop :=
  ∀ t, lo ≤ t → t < hi → P t → ∃ x ∈ xs, x ≤ t ∧ t - x < step

/-- The equilibrium of the last run of a history whose fit was requested and succeeded. -/
def lastFit (fits : List (Option Eos.Fit)) : Option (ℝ × ℝ × ℝ) :=
  (fits.filterMap id).getLast?.map fun f => (f.b0, f.e0, f.v0)

end Verif.Spec
