import Mathlib.Analysis.Convex.Hull
import Mathlib.Analysis.Real.Sqrt
import Mathlib.Data.Matrix.Mul

/-!
# Ridge regression
-/

namespace Verif.Spec
open Matrix
variable {N n : ℕ}

/-- Half the gradient of `|x c - y|² + alpha |c|²`. -/
def ridgeGradient (x : Matrix (Fin N) (Fin n) ℝ) (y : Fin N → ℝ) (alpha : ℝ) (c : Fin n → ℝ) : Fin n → ℝ :=
  xᵀ *ᵥ (x *ᵥ c - y) + alpha • c

/-- No coefficient of `c` differs from that of `c'` by more than `D`. -/
def Within (D : ℝ) (c c' : Fin n → ℝ) : Prop := ∀ j, |c j - c' j| ≤ D

/-- Length per component. -/
noncomputable def lengthPer (v : Fin n → ℝ) : ℝ := √(∑ j, v j ^ 2) / n

end Verif.Spec
