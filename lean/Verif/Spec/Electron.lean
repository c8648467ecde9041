import Mathlib.Analysis.SpecialFunctions.ExpDeriv
import Mathlib.Algebra.BigOperators.Group.List.Basic

/-!
Electrons in fixed levels, without reference to the program.
-/

namespace Verif.Spec

/-- The occupation of a level of energy `ε` at chemical potential `μ` and temperature `T`. -/
noncomputable def fermi (k ε μ T : ℝ) : ℝ := 1 / (Real.exp ((ε - μ) / (k * T)) + 1)

/-- A sum over the k-points and their levels; `g` is the spin degeneracy. -/
noncomputable def levelSum (g : ℝ) (weights : List ℝ) (levels : List (List ℝ)) (q : ℝ → ℝ) : ℝ :=
  g * (List.zipWith (fun w row => w * (row.map q).sum) weights levels).sum

/-- `μ` keeps the number of electrons at temperatures near `T`. -/
def KeepsNumber (k g : ℝ) (weights : List ℝ) (levels : List (List ℝ)) (μ : ℝ → ℝ) (T : ℝ) : Prop :=
  ∃ N : ℝ, ∀ᶠ t in nhds T, levelSum g weights levels (fun ε => fermi k ε (μ t) t) = N

/-- The energy of the electrons. -/
noncomputable def bandEnergy (k g : ℝ) (weights : List ℝ) (levels : List (List ℝ)) (μ : ℝ → ℝ)
    (t : ℝ) : ℝ := levelSum g weights levels (fun ε => fermi k ε (μ t) t * ε)

end Verif.Spec
