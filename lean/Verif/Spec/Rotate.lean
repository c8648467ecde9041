import Verif.Model.Neighbor
import Mathlib.Analysis.SpecialFunctions.Trigonometric.Basic

/-!
# Rotations of space

Specification side.  Every proper rotation is a rotation by some angle about some unit vector.
-/

namespace Verif.Spec
open Verif.Neighbor (Vec)

/-- The scalar product. -/
def dot3 (u d : Vec ℝ) : ℝ := u 0 * d 0 + u 1 * d 1 + u 2 * d 2

/-- The vector product. -/
def cross3 (u d : Vec ℝ) : Vec ℝ :=
  ![u 1 * d 2 - u 2 * d 1, u 2 * d 0 - u 0 * d 2, u 0 * d 1 - u 1 * d 0]

/-- The rotation by the angle `θ` about the unit vector `u` (Rodrigues' formula). -/
noncomputable def rotate (u : Vec ℝ) (θ : ℝ) (d : Vec ℝ) : Vec ℝ := fun x =>
  Real.cos θ * d x + Real.sin θ * cross3 u d x + (1 - Real.cos θ) * dot3 u d * u x

end Verif.Spec
