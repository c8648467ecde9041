import Verif.Spec.StrGen
import Verif.Spec.Relax

/-! # Samples that keep the symmetry -/

namespace Verif.Spec
open Verif.StrGen

/-- Atom number `i` of `t` is where atom `i` of `st`, moved by the cartesian vector `d`, would be in the cell of `t`,
up to a vector of the lattice. -/
def MovedBy (st t : Str) (i : ℕ) (d : Fin 3 → ℝ) : Prop :=
  ∃ (p q : Fin 3 → ℝ) (m : Fin 3 → ℤ), st.positions[i]? = some p ∧ t.positions[i]? = some q ∧
    t.axis.mulVec (fun a => q a - p a - m a) = d

/-- The displacements of `t` from `st` are a combination of the columns of a basis (row `3 i + a` is the component `a`
of atom `i`), with coefficients of at most `dist`. -/
def MovedAlong (m : ℕ) (basis : ℕ → ℕ → ℝ) (dist : ℝ) (st t : Str) : Prop :=
  ∃ x : ℕ → ℝ, (∀ k, |x k| ≤ dist) ∧
    ∀ i, i < st.positions.length → MovedBy st t i fun a => ∑ k ∈ Finset.range m, x k * basis (3 * i + a) k

/-- The coordinates are those of one cell, up to a tolerance. -/
def InsideCell (tol : ℝ) (t : Str) : Prop := ∀ p ∈ t.positions, ∀ a, -tol < p a ∧ p a ≤ 1 - tol

/-- No entry of the axes differs by more than `dist`. -/
def NearAxes (dist : ℝ) (a b : Mat) : Prop := ∀ i j, |b i j - a i j| ≤ dist

end Verif.Spec
