import Verif.Spec.Crystal
import Mathlib.Data.Real.Basic

/-! # What refined, standardized and reduced cells should be -/

namespace Verif.Spec

/-- `r` holds the atoms with the given types and positions in the cell spanned by the rows of `rows`: the same
atoms, sorted by type, each with an element that its type has in `st`. -/
structure SortedCell (st : Structure ℝ) (rows : M3 ℝ) (types : List ℕ) (positions : List (V3 ℝ)) (r : Structure ℝ) :
    Prop where
  axes : ∀ u : V3 ℝ, cart r.axis u =
    ⟨u.x * rows.r0.x + u.y * rows.r1.x + u.z * rows.r2.x, u.x * rows.r0.y + u.y * rows.r1.y + u.z * rows.r2.y,
      u.x * rows.r0.z + u.y * rows.r1.z + u.z * rows.r2.z⟩
  atoms : (r.types.zip r.positions).Perm (types.zip positions)
  sorted : r.types.Pairwise (· ≤ ·)
  elements : ∀ a ∈ r.types.zip r.elements, a ∈ st.types.zip st.elements
  sizes : r.positions.length = r.types.length ∧ r.elements.length = r.types.length ∧
    r.nAtoms.sum = r.types.length
  volume : r.volume = rows.det

/-- The axes of a structure, which are the columns, as rows. -/
def axesAsRows (a : M3 ℝ) : M3 ℝ :=
  ⟨⟨a.r0.x, a.r1.x, a.r2.x⟩, ⟨a.r0.y, a.r1.y, a.r2.y⟩, ⟨a.r0.z, a.r1.z, a.r2.z⟩⟩

/-- Two sets of axes span the same lattice. -/
def SameLattice (a b : M3 ℝ) : Prop := ∀ x : V3 ℝ,
  (∃ m : ℤ × ℤ × ℤ, x = cart a ⟨m.1, m.2.1, m.2.2⟩) ↔ ∃ m : ℤ × ℤ × ℤ, x = cart b ⟨m.1, m.2.1, m.2.2⟩

/-- All coordinates lie in one cell, up to a tolerance. -/
def Wrapped (tol : ℝ) (p : V3 ℝ) : Prop :=
  (-tol < p.x ∧ p.x ≤ 1 - tol) ∧ (-tol < p.y ∧ p.y ≤ 1 - tol) ∧ -tol < p.z ∧ p.z ≤ 1 - tol

end Verif.Spec
