import Verif.Model.Neighbor
import Mathlib.Analysis.Real.Sqrt
import Mathlib.Data.Real.Archimedean
import Mathlib.LinearAlgebra.Matrix.RowCol
import Mathlib.LinearAlgebra.Matrix.Notation

/-!
# Cell reduction and search for translations

`/repo/src/pypolymlp/cxx/src/compute/neighbor_cell.cpp` and `neighbor_cell.h`.  `double` is `ℝ`
with exact square roots, `floor`, `ceil` and `round`.  The members `dot00` … `ref_sum` are
recomputed by `compute_metric` after every change of `axis` (lines 17, 56), so they are functions
of `axis` here.
-/

namespace Verif.Neighbor

open Matrix

/-- `axis`: the columns are the lattice vectors. -/
abbrev Mat := Matrix (Fin 3) (Fin 3) ℝ

/-- `dot00`, `dot01`, …: products of columns (`neighbor_cell.cpp` 27-36). -/
def dotc (a : Mat) (p q : Fin 3) : ℝ := a 0 p * a 0 q + a 1 p * a 1 q + a 2 p * a 2 q

/-- `ref01`, `ref02`, `ref12` (`neighbor_cell.cpp` 38-41). -/
def ref (a : Mat) (p q : Fin 3) : Prop :=
  |dotc a p q| > 0.5 * dotc a p p ∨ |dotc a p q| > 0.5 * dotc a q q

/-- `ref_sum > 0` (`neighbor_cell.cpp` 42, 130, 206). -/
def refAny (a : Mat) : Prop := ref a 0 1 ∨ ref a 0 2 ∨ ref a 1 2

open Classical in
/-- `round(x)` of C: half away from zero. -/
noncomputable def cRound (x : ℝ) : ℤ := if 0 ≤ x then ⌊x + 1/2⌋ else -⌊-x + 1/2⌋

/-- `to_cartesian(i, j, k)` (`neighbor_cell.h` 85-93). -/
def toCartesian (a : Mat) (v : Vec ℝ) : Vec ℝ := fun r => a r 0 * v 0 + a r 1 * v 1 + a r 2 * v 2

/-- Integer coordinates as real ones (implicit conversion of `int`). -/
def castV (v : Fin 3 → ℤ) : Vec ℝ := fun k => (v k : ℝ)

/-- `replace_axis_vector(vec, col)` (`neighbor_cell.cpp` 52-59). -/
def replaceCol (a : Mat) (v : Fin 3 → ℤ) (col : Fin 3) : Mat :=
  a.updateCol col (toCartesian a (castV v))

/-- `vec` set by `optimize_1d_axis0(val1, val2, vec)` (`neighbor_cell.cpp` 95-103); the returned
distance is not used by the caller. -/
noncomputable def opt0 (a : Mat) (v1 v2 : ℤ) : Fin 3 → ℤ :=
  ![cRound (-(dotc a 0 1 * v1 + dotc a 0 2 * v2) / dotc a 0 0), v1, v2]

/-- `optimize_1d_axis1` (`neighbor_cell.cpp` 106-114). -/
noncomputable def opt1 (a : Mat) (v1 v2 : ℤ) : Fin 3 → ℤ :=
  ![v1, cRound (-(dotc a 0 1 * v1 + dotc a 1 2 * v2) / dotc a 1 1), v2]

/-- `optimize_1d_axis2` (`neighbor_cell.cpp` 117-125). -/
noncomputable def opt2 (a : Mat) (v1 v2 : ℤ) : Fin 3 → ℤ :=
  ![v1, v2, cRound (-(dotc a 0 2 * v1 + dotc a 1 2 * v2) / dotc a 2 2)]

open Classical in
/-- First block of the loop body (`neighbor_cell.cpp` 133-142). -/
noncomputable def step01 (a : Mat) : Mat :=
  if ref a 0 1 then
    (if dotc a 0 0 > dotc a 1 1 then replaceCol a (opt1 a 1 0) 0 else replaceCol a (opt0 a 1 0) 1)
  else a

open Classical in
/-- Second block (`neighbor_cell.cpp` 144-153). -/
noncomputable def step02 (a : Mat) : Mat :=
  if ref a 0 2 then
    (if dotc a 0 0 > dotc a 2 2 then replaceCol a (opt2 a 1 0) 0 else replaceCol a (opt0 a 0 1) 2)
  else a

open Classical in
/-- Third block (`neighbor_cell.cpp` 155-164). -/
noncomputable def step12 (a : Mat) : Mat :=
  if ref a 1 2 then
    (if dotc a 1 1 > dotc a 2 2 then replaceCol a (opt2 a 0 1) 1 else replaceCol a (opt1 a 0 1) 2)
  else a

open Classical in
/-- `while (ref_sum > 0 and iter < 100)` with the number of remaining iterations
(`neighbor_cell.cpp` 128-169). -/
noncomputable def refineLoop : ℕ → Mat → Mat
  | 0, a => a
  | n + 1, a => if refAny a then refineLoop n (step12 (step02 (step01 a))) else a

/-- `refine_axis()`. -/
noncomputable def refineAxis (a : Mat) : Mat := refineLoop 100 a

/-- `det` (`neighbor_cell.cpp` 174-179). -/
def detA (a : Mat) : ℝ :=
  a 0 0 * a 1 1 * a 2 2 + a 0 1 * a 1 2 * a 2 0 + a 0 2 * a 1 0 * a 2 1
    - a 0 2 * a 1 1 * a 2 0 - a 0 1 * a 1 0 * a 2 2 - a 0 0 * a 1 2 * a 2 1

/-- `axis_inv` (`neighbor_cell.cpp` 171-192). -/
noncomputable def axisInv (a : Mat) : Mat :=
  !![(a 1 1 * a 2 2 - a 1 2 * a 2 1) / detA a,
     -(a 0 1 * a 2 2 - a 0 2 * a 2 1) / detA a,
     (a 0 1 * a 1 2 - a 0 2 * a 1 1) / detA a;
     -(a 1 0 * a 2 2 - a 1 2 * a 2 0) / detA a,
     (a 0 0 * a 2 2 - a 0 2 * a 2 0) / detA a,
     -(a 0 0 * a 1 2 - a 0 2 * a 1 0) / detA a;
     (a 1 0 * a 2 1 - a 1 1 * a 2 0) / detA a,
     -(a 0 0 * a 2 1 - a 0 1 * a 2 0) / detA a,
     (a 0 0 * a 1 1 - a 0 1 * a 1 0) / detA a]

/-- `p -= floor(p)` (`neighbor_cell.cpp` 194-200). -/
noncomputable def standardize (p : Vec ℝ) : Vec ℝ := fun k => p k - (⌊p k⌋ : ℝ)

open Classical in
/-- `axis` after `find_trans` (`neighbor_cell.cpp` 206-208). -/
noncomputable def cellAxis (a : Mat) : Mat := if refAny a then refineAxis a else a

open Classical in
/-- `positions_c` of one atom after `find_trans` (`neighbor_cell.cpp` 206-236). -/
noncomputable def cellPos (a : Mat) (p : Vec ℝ) : Vec ℝ :=
  if refAny a then
    toCartesian (refineAxis a) (standardize (toCartesian (axisInv (refineAxis a)) p))
  else p

/-- `norm(vec)` (`neighbor_cell.h` 70-73). -/
noncomputable def norm3 (v : Vec ℝ) : ℝ := √(r2 v)

/-- `max_exp[k]` (`neighbor_cell.cpp` 237-239). -/
noncomputable def maxExp (a : Mat) (cutoff : ℝ) (k : Fin 3) : ℤ :=
  ⌈cutoff / norm3 (toCartesian a (Pi.single k 1))⌉ + 1

/-- `for (int i = -m; i < m + 1; ++i)`. -/
def intRange (m : ℤ) : List ℤ := (List.range (2 * m + 1).toNat).map fun (t : ℕ) => (t : ℤ) - m

/-- The integer triples of three nested loops. -/
def grid (m0 m1 m2 : ℤ) : List (Fin 3 → ℤ) :=
  (intRange m0).flatMap fun i => (intRange m1).flatMap fun j => (intRange m2).map fun k => ![i, j, k]

/-- `find_maximum_diagonal_in_cell()` (`neighbor_cell.cpp` 74-92). -/
noncomputable def maxLength (a : Mat) : ℝ :=
  (grid 1 1 1).foldl
    (fun mx ver =>
      let dis := norm3 (toCartesian a (castV ver))
      open Classical in if mx < dis then dis else mx) 0

open Classical in
/-- `trans_c_array` for the final `axis` (`neighbor_cell.cpp` 237-255). -/
noncomputable def findTrans (a : Mat) (cutoff : ℝ) : List (Vec ℝ) :=
  (grid (maxExp a cutoff 0) (maxExp a cutoff 1) (maxExp a cutoff 2)).filterMap fun v =>
    let c := toCartesian a (castV v)
    if norm3 c < maxLength a + cutoff then some c else none

/-- `get_translations()` of `NeighborCell(axis, positions_c, cutoff)`. -/
noncomputable def cellTrans (a : Mat) (cutoff : ℝ) : List (Vec ℝ) := findTrans (cellAxis a) cutoff

end Verif.Neighbor
