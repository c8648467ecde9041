import Verif.Model.Md
import Mathlib.Algebra.Polynomial.Derivative
import Mathlib.Algebra.Polynomial.Eval.Degree
import Mathlib.Analysis.Calculus.Deriv.Basic

/-!
# Free energies

Specification side.
-/

namespace Verif.Spec
open Polynomial

/-- Forces are minus the derivatives of the energy. -/
def ForcesOf {m : ℕ} (energy : (Fin m → ℝ) → ℝ) (forces : Fin m → ℝ) (x : Fin m → ℝ) : Prop :=
  ∀ u : Fin m → ℝ, HasDerivAt (fun s : ℝ => energy fun a => x a + s * u a) (-∑ a, forces a * u a) 0

/-- The free energy difference by perturbation at the temperature with `kT = kt`: `-kT ln <exp(-ΔE / kT)>`. -/
noncomputable def perturbation (kt : ℝ) (deltas : List ℝ) : ℝ :=
  -kt * Real.log ((deltas.map fun d => Real.exp (-d / kt)).sum / deltas.length)

/-- Nodes `x` and weights `w` that integrate the derivative of every polynomial of degree at most `2 n` over the
interval from minus one to one: Gauss-Legendre quadrature with `n` nodes. -/
def GaussLegendre (n : ℕ) (x w : List ℝ) : Prop :=
  x.length = n ∧ w.length = n ∧ ∀ q : ℝ[X], q.natDegree ≤ 2 * n →
    (List.zipWith (fun wi xi => wi * q.derivative.eval xi) w x).sum = q.eval 1 - q.eval (-1)

end Verif.Spec
