import Verif.Model.AtomOrder
import Verif.Model.Supercell
import Mathlib.LinearAlgebra.Matrix.NonsingularInverse
import Mathlib.LinearAlgebra.Matrix.Notation
import Mathlib.Data.Real.Archimedean

/-!
# Refined, standardized and reduced cells

`/repo/src/pypolymlp/utils/spglib_utils.py` 14-114 and 214-289.  The functions of spglib are parameters: they
get the cell and return another one, or nothing.  Comments of structures are not modelled.  Real arithmetic.
-/

namespace Verif.SymCell
open Verif.AtomOrder (reorder mapElements)

/-- A cell as spglib has it: the rows of `lattice` are the axes, one position and one type for each atom. -/
structure Cell where
  lattice : M3 ℝ
  positions : List (V3 ℝ)
  types : List ℕ

/-- `a.T`. -/
def transpose (a : M3 ℝ) : M3 ℝ :=
  ⟨⟨a.r0.x, a.r1.x, a.r2.x⟩, ⟨a.r0.y, a.r1.y, a.r2.y⟩, ⟨a.r0.z, a.r1.z, a.r2.z⟩⟩

/-- The functions of spglib: `refine_cell(cell, symprec)` and `standardize_cell(cell, symprec)`.  They return
`None` when no symmetry is found; an exception is modelled as `None`, as the callers treat both alike. -/
structure Spglib where
  refine : Cell → ℝ → Option Cell
  standardize : Cell → ℝ → Option Cell

/-- The members of `SymCell`. -/
structure SymCell where
  nTypes : ℕ
  cell : Cell
  elementMap : ℕ → Option String
  symprec : ℝ

/-- `SymCell.__init__` (`spglib_utils.py` 17-43).  `element_map` has the element of the last atom
of each type.  `poscar` is what reading the file gives, if a name is
given. -/
def init (poscar : Option (Except Err (Structure ℝ))) (st : Option (Structure ℝ)) (symprec : ℝ) :
    Except Err SymCell := do
  let st ← match poscar with
    | some r => r
    | none => orErr .attributeError st
  return ⟨st.nAtoms.length, ⟨transpose st.axis, st.positions, st.types⟩, mapElements st.types st.elements, symprec⟩

/-- The loop of `refine_cell` over the types and the atoms (`spglib_utils.py` 62-70). -/
def grouped (n : ℕ) (c : Cell) : List (ℕ × V3 ℝ) :=
  (List.range n).flatMap fun t => (c.types.zip c.positions).filter fun a => a.1 = t

/-- `SymCell.refine_cell(standardize_cell)` (`spglib_utils.py` 45-84).  Simplification: a cell without atoms
(whose positions are not of shape `(3, 0)`) is accepted. -/
def refineCell (spg : Spglib) (s : SymCell) (standardize : Bool) : Except Err (Structure ℝ) := do
  let c ← orErr .typeError
    (if standardize = false then spg.refine s.cell s.symprec else spg.standardize s.cell s.symprec)
  let atoms := grouped s.nTypes c
  let types := atoms.map Prod.fst
  let nAtoms := (List.range s.nTypes).map fun t => types.count t
  let elements ← types.mapM fun t => orErr .keyError (s.elementMap t)
  Structure.check
    { axis := transpose c.lattice, positions := atoms.map Prod.snd, nAtoms := nAtoms, elements := elements,
      types := types, volume := c.lattice.det }

/-- `standardize_cell(cell)` (`spglib_utils.py` 95-114); `1e-5` is spglib's own precision.  Unpacking `None` is
a `TypeError`. -/
def standardizeCell (spg : Spglib) (cell : Structure ℝ) : Except Err (Structure ℝ) := do
  let c ← orErr .typeError (spg.standardize ⟨transpose cell.axis, cell.positions, cell.types⟩ 1e-5)
  let elements ← c.types.mapM fun t => orErr .keyError (mapElements cell.types cell.elements t)
  let st ← Structure.mk' (transpose c.lattice) c.positions [c.positions.length] elements c.types
  reorder st

/-! ## Reduced cells -/

/-- The array of a matrix. -/
def toMat (a : M3 ℝ) : Matrix (Fin 3) (Fin 3) ℝ :=
  !![a.r0.x, a.r0.y, a.r0.z; a.r1.x, a.r1.y, a.r1.z; a.r2.x, a.r2.y, a.r2.z]

/-- The matrix of an array. -/
def ofMat (m : Matrix (Fin 3) (Fin 3) ℝ) : M3 ℝ :=
  ⟨⟨m 0 0, m 0 1, m 0 2⟩, ⟨m 1 0, m 1 1, m 1 2⟩, ⟨m 2 0, m 2 1, m 2 2⟩⟩

/-- `np.linalg.inv(m)`: a singular matrix is an error. -/
noncomputable def inv (m : Matrix (Fin 3) (Fin 3) ℝ) : Except Err (Matrix (Fin 3) (Fin 3) ℝ) :=
  if m.det = 0 then .error .valueError else .ok m⁻¹

/-- `m @ p` for a column `p`. -/
def apply (m : Matrix (Fin 3) (Fin 3) ℝ) (p : V3 ℝ) : V3 ℝ :=
  ⟨m 0 0 * p.x + m 0 1 * p.y + m 0 2 * p.z, m 1 0 * p.x + m 1 1 * p.y + m 1 2 * p.z,
    m 2 0 * p.x + m 2 1 * p.y + m 2 2 * p.z⟩

/-- The members of `ReducedCell`. -/
structure Reduced where
  axis : M3 ℝ
  reducedAxis : M3 ℝ
  tmat : Matrix (Fin 3) (Fin 3) ℝ
  metric : Matrix (Fin 3) (Fin 3) ℝ

/-- `ReducedCell.__init__` and `_reduce` (`spglib_utils.py` 217-244, 268-279).  `niggli` and `delaunay` are
spglib's reductions of the rows of a lattice; `None.T` is an `AttributeError`, and the product with `None`, for
any other method, a `ValueError`. -/
noncomputable def reduce (niggli delaunay : M3 ℝ → Option (M3 ℝ)) (axis : M3 ℝ) (method : String) :
    Except Err Reduced := do
  let lattice ←
    if method = "niggli" then orErr .attributeError (niggli (transpose axis))
    else if method = "delaunay" then orErr .attributeError (delaunay (transpose axis))
    else .error .valueError
  let reducedAxis := transpose lattice
  let i ← inv (toMat axis)
  return ⟨axis, reducedAxis, i * toMat reducedAxis, (toMat reducedAxis).transpose * toMat reducedAxis⟩

/-- `ReducedCell.transform_fr_coords(positions)` (`spglib_utils.py` 246-256). -/
noncomputable def transform (tol : ℝ) (r : Reduced) (positions : List (V3 ℝ)) : Except Err (List (V3 ℝ)) := do
  let i ← inv r.tmat
  return positions.map fun p => Supercell.refine tol (apply i p)

/-- `np.isclose(a, b)`. -/
noncomputable def close (a b : ℝ) : Bool := decide (|a - b| ≤ 1e-8 + 1e-5 * |b|)

/-- `np.allclose(a, b)` for three numbers. -/
noncomputable def closeRow (a b : V3 ℝ) : Bool := close a.x b.x && close a.y b.y && close a.z b.z

/-- `ReducedCell.reduce_structure(st)` (`spglib_utils.py` 258-266).  `tol` is `1e-13`. -/
noncomputable def reduceStructure (tol : ℝ) (r : Reduced) (st : Structure ℝ) : Except Err (Structure ℝ) :=
  if (closeRow st.axis.r0 r.axis.r0 && closeRow st.axis.r1 r.axis.r1 && closeRow st.axis.r2 r.axis.r2) = false then
    .error .runtimeError
  else do
    let positions ← transform tol r st.positions
    return { st with axis := r.reducedAxis, positions := positions }

end Verif.SymCell
