import Mathlib.Data.Real.Basic
import Mathlib.LinearAlgebra.Matrix.DotProduct
import Mathlib.LinearAlgebra.CrossProduct
import Mathlib.Algebra.BigOperators.Fin

/-!
# The velocity Verlet algorithm
-/

namespace Verif.Spec.Verlet

/-- Vectors of all atoms. -/
abbrev Vecs (n : ℕ) := Fin n → Fin 3 → ℝ

/-- One step as documented: half a kick, a drift, and half a kick with the forces of the new positions.  `k` converts
forces to changes of momenta. -/
noncomputable def step {n : ℕ} (F : Vecs n → Vecs n) (m : Fin n → ℝ) (k dt : ℝ) (s : Vecs n × Vecs n) : Vecs n × Vecs n :=
  let half : Vecs n := fun a i => s.2 a i + k * (dt / 2) * F s.1 a i
  let x : Vecs n := fun a i => s.1 a i + dt / m a * half a i
  (x, fun a i => half a i + k * (dt / 2) * F x a i)

/-- Total momentum. -/
def momentum {n : ℕ} (p : Vecs n) : Fin 3 → ℝ := ∑ a, p a

/-- Total angular momentum. -/
noncomputable def angular {n : ℕ} (x p : Vecs n) : Fin 3 → ℝ := ∑ a, crossProduct (x a) (p a)

/-- The same state with all momenta reversed. -/
def reversed {n : ℕ} (p : Vecs n) : Vecs n := fun a i => -p a i

end Verif.Spec.Verlet
