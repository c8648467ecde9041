import Mathlib.Data.Real.Basic
import Mathlib.Algebra.BigOperators.Fin

/-! # Lattices -/

namespace Verif.Spec

/-- The lattice generated by the columns of `a`: all integer combinations of them. -/
def lattice (a : Fin 3 → Fin 3 → ℝ) : Set (Fin 3 → ℝ) :=
  {x | ∃ n : Fin 3 → ℤ, ∀ r, x r = ∑ k, a r k * (n k : ℝ)}

end Verif.Spec
