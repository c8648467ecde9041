import Verif.Model.OptGeom
import Mathlib.Analysis.Calculus.Deriv.Basic

/-!
# Energies that are relaxed

Specification side: what it means that forces and stress belong to an energy, the enthalpy, and the standard
shapes of the cells of the crystal systems.
-/

namespace Verif.Spec
open Verif.Neighbor (Vec)
open Verif.OptGeom (Axis Eval)

/-- The forces are minus the derivatives of the energy: moving the atoms by the fractional displacement `u`, i.e.
by the Cartesian displacement `axis u`, changes the energy by `-Σ F · (axis u)`. -/
def ForcesAreDerivatives (eval : Eval) (n : ℕ) (A : Axis) (f : ℕ → Vec ℝ) : Prop :=
  ∀ u : ℕ → Vec ℝ, HasDerivAt (fun s : ℝ => (eval A fun i a => f i a + s * u i a).energy)
    (-((List.range n).map fun i => (eval A f).forces i 0 * A.mulVec (u i) 0 +
      (eval A f).forces i 1 * A.mulVec (u i) 1 + (eval A f).forces i 2 * A.mulVec (u i) 2).sum) 0

/-- The stress (xx, yy, zz, xy, yz, zx) is minus the derivative of the energy with respect to a strain `ε` of
the axes at fixed fractional positions. -/
def StressIsDerivative (eval : Eval) (A : Axis) (f : ℕ → Vec ℝ) : Prop :=
  ∀ ε : Matrix (Fin 3) (Fin 3) ℝ, HasDerivAt (fun s : ℝ => (eval (A + s • (ε * A)) f).energy)
    (-(ε 0 0 * (eval A f).stress 0 + ε 1 1 * (eval A f).stress 1 + ε 2 2 * (eval A f).stress 2 +
      (ε 0 1 + ε 1 0) * (eval A f).stress 3 + (ε 1 2 + ε 2 1) * (eval A f).stress 4 +
      (ε 2 0 + ε 0 2) * (eval A f).stress 5)) 0

/-- The properties of a crystal do not change when atoms are replaced by their periodic images. -/
def Periodic (eval : Eval) : Prop :=
  ∀ (A : Axis) (f : ℕ → Vec ℝ) (k : ℕ → Fin 3 → ℤ), (eval A fun i a => f i a + k i a) = eval A f

/-- The enthalpy under the pressure `p`; `unit` converts the product of pressure and volume to an energy. -/
noncomputable def enthalpy (eval : Eval) (p unit : ℝ) (A : Axis) (f : ℕ → Vec ℝ) : ℝ :=
  (eval A f).energy + p * A.det / unit

/-- The shape of the standardized cell of the crystal system of a space group number. -/
def Standard (spg : ℕ) (A : Axis) : Prop :=
  if 195 ≤ spg then ∃ a : ℝ, A = !![a, 0, 0; 0, a, 0; 0, 0, a]
  else if 143 ≤ spg then ∃ a c : ℝ, A = !![a, -(a / 2), 0; 0, √3 / 2 * a, 0; 0, 0, c]
  else if 75 ≤ spg then ∃ a c : ℝ, A = !![a, 0, 0; 0, a, 0; 0, 0, c]
  else if 16 ≤ spg then ∃ a b c : ℝ, A = !![a, 0, 0; 0, b, 0; 0, 0, c]
  else if 3 ≤ spg then ∃ a b c d : ℝ, A = !![a, 0, d; 0, b, 0; 0, 0, c]
  else True

end Verif.Spec
