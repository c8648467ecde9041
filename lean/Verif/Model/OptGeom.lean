import Verif.Model.Supercell
import Verif.Model.MlpEval
import Mathlib.LinearAlgebra.Matrix.NonsingularInverse
import Mathlib.LinearAlgebra.Matrix.Notation
import Mathlib.Analysis.SpecialFunctions.Pow.Real

/-!
# Geometry optimization

`/repo/src/pypolymlp/calculator/opt_geometry.py`: the function and the gradient given to the minimizer, as a
program with a state, and `/repo/src/pypolymlp/utils/spglib_utils.py` 152-224 (`construct_basis_cell`).
Real arithmetic; arrays are functions of their indices together with their sizes.
-/

namespace Verif.OptGeom
open Verif.Neighbor (Vec)
open Verif.Mlp (Props)

/-- `axis`: the columns are the axes. -/
abbrev Axis := Matrix (Fin 3) (Fin 3) ℝ

/-- What `Properties.eval` does, as a function of the axes and the fractional positions. -/
abbrev Eval := Axis → (ℕ → Vec ℝ) → Props ℝ

/-- The members of `GeometryOptimization` that are set once (`opt_geometry.py` 60-75, 83-128).  `basisF` is
`basis_f`, `None` when the positions are fixed; `sizePos` is the number of its columns, zero for `None`. -/
structure Config where
  n : ℕ
  eval : Eval
  relaxCell : Bool
  relaxPositions : Bool
  basisF : ℕ → ℕ → ℝ
  sizePos : ℕ
  basisAxis : ℕ → ℕ → ℝ
  nAxis : ℕ
  positions0 : ℕ → Vec ℝ
  pressure : ℝ
  evToGPa : ℝ
  tol : ℝ

/-- The members that change: the structure and the results of the last evaluation.  `volume` and `axis_inv` of
the structure are always those of `axis` (`opt_geometry.py` 365-374), so they are not stored. -/
structure State where
  axis : Axis
  positions : ℕ → Vec ℝ
  energy : ℝ
  force : ℕ → Fin 3 → ℝ
  stress : Fin 6 → ℝ

/-- `refine_positions` (`structure_utils.py` 12-29). -/
noncomputable def refine (tol : ℝ) (f : ℕ → Vec ℝ) : ℕ → Vec ℝ := fun i a => Supercell.refine1 tol (f i a)

/-- `(basis_f @ x).reshape(-1, 3).T` (`opt_geometry.py` 202), one column per atom. -/
def disps (c : Config) (x : ℕ → ℝ) : ℕ → Vec ℝ := fun i a =>
  ((List.range c.sizePos).map fun k => c.basisF (3 * i + a) k * x k).sum

/-- `_to_structure_fix_cell` (`opt_geometry.py` 199-204). -/
noncomputable def toStructureFix (c : Config) (st : State) (x : ℕ → ℝ) : State :=
  if c.relaxPositions then
    { st with positions := refine c.tol fun i a => c.positions0 i a + disps c x i a }
  else st

/-- `(basis_axis @ x_cells).reshape((3, 3))` (`opt_geometry.py` 210-211). -/
def axisOf (c : Config) (x : ℕ → ℝ) : Axis := Matrix.of fun r s =>
  ((List.range c.nAxis).map fun k => c.basisAxis (3 * r + s) k * x (c.sizePos + k)).sum

/-- `_to_structure_relax_cell` (`opt_geometry.py` 206-221). -/
noncomputable def toStructureRelax (c : Config) (st : State) (x : ℕ → ℝ) : State :=
  let axis := if c.relaxCell then axisOf c x
    else ((x c.sizePos / st.axis.det) ^ (1 / 3 : ℝ)) • st.axis
  let st := { st with axis := axis }
  if c.relaxPositions then toStructureFix c st x else st

/-- `pressure * volume / EVtoGPa` (`opt_geometry.py` 152, 186, 248). -/
noncomputable def pvTerm (c : Config) (axis : Axis) : ℝ := c.pressure * axis.det / c.evToGPa

/-- `fun_fix_cell` (`opt_geometry.py` 137-153); the printing before the error is left out. -/
noncomputable def funFix (c : Config) (st : State) (x : ℕ → ℝ) : Except Err (State × ℝ) :=
  let st := toStructureFix c st x
  let p := c.eval st.axis st.positions
  if p.energy < -1000 * c.n then .error .valueError
  else
    let e := p.energy + pvTerm c st.axis
    .ok ({ st with energy := e, force := p.forces }, e)

/-- `fun_relax_cell` (`opt_geometry.py` 163-187). -/
noncomputable def funRelax (c : Config) (st : State) (x : ℕ → ℝ) : Except Err (State × ℝ) :=
  let st := toStructureRelax c st x
  let p := c.eval st.axis st.positions
  if p.energy < -1000 * c.n ∨ 1000 < |st.axis.det| / c.n then .error .valueError
  else
    let e := p.energy + pvTerm c st.axis
    .ok ({ st with energy := e, force := p.forces, stress := p.stress }, e)

/-- `-self._force.T @ self._structure.axis` (`opt_geometry.py` 158). -/
def prod (st : State) (i : ℕ) (a : Fin 3) : ℝ :=
  -(st.force i 0 * st.axis 0 a + st.force i 1 * st.axis 1 a + st.force i 2 * st.axis 2 a)

/-- `jac_fix_cell` (`opt_geometry.py` 155-161), for `basis_f` other than `None`. -/
def jacFix (c : Config) (st : State) : ℕ → ℝ := fun k =>
  ((List.range (3 * c.n)).map fun q => c.basisF q k * prod st (q / 3) (Fin.ofNat 3 q)).sum

/-- `sigma` (`opt_geometry.py` 249-253). -/
noncomputable def sigma (c : Config) (st : State) : Matrix (Fin 3) (Fin 3) ℝ :=
  let pv := pvTerm c st.axis
  !![st.stress 0 - pv, st.stress 3, st.stress 5;
     st.stress 3, st.stress 1 - pv, st.stress 4;
     st.stress 5, st.stress 4, st.stress 2 - pv]

/-- `derivatives_by_axis` (`opt_geometry.py` 237-261): the value for the column `k` of `basis_axis`, or the one
value for the volume. -/
noncomputable def derivByAxis (c : Config) (st : State) : ℕ → ℝ := fun k =>
  if c.relaxCell then
    let d := -(sigma c st) * st.axis⁻¹.transpose
    ((List.range 9).map fun q => c.basisAxis q k * d (Fin.ofNat 3 (q / 3)) (Fin.ofNat 3 q)).sum
  else -(sigma c st).trace / 3

/-- `jac_relax_cell` (`opt_geometry.py` 189-196). -/
noncomputable def jacRelax (c : Config) (st : State) : ℕ → ℝ := fun k =>
  if k < c.sizePos then (if c.relaxPositions then jacFix c st k else 0) else derivByAxis c st (k - c.sizePos)

/-- The state after the constructor (`opt_geometry.py` 59-73): the structure is the given one with refined
positions, and these are kept in `_positions_f0`. -/
def initialState (c : Config) (axis : Axis) : State := ⟨axis, c.positions0, 0, fun _ _ => 0, fun _ => 0⟩

/-- A minimizer calls the function any number of times (`opt_geometry.py` 310-345). -/
noncomputable def evalsFix (c : Config) (st : State) (xs : List (ℕ → ℝ)) : Except Err State :=
  xs.foldlM (fun st x => (funFix c st x).map Prod.fst) st

/-- The same for `fun_relax_cell`. -/
noncomputable def evalsRelax (c : Config) (st : State) (xs : List (ℕ → ℝ)) : Except Err State :=
  xs.foldlM (fun st x => (funRelax c st x).map Prod.fst) st

/-! ## Bases of the axes -/

/-- `_normalize_vector` (`spglib_utils.py` 147-149). -/
noncomputable def normalize (v : List ℝ) : List ℝ := v.map fun a => a / √((v.map fun b => b * b).sum)

/-- A column with a single one. -/
def unitCol (i : ℕ) : List ℝ := (List.range 9).map fun j => if j = i then 1 else 0

/-- `construct_basis_cell` (`spglib_utils.py` 152-224): the columns of the basis for a space group number. -/
noncomputable def basisCell (spg : ℕ) : List (List ℝ) :=
  if 195 ≤ spg then [normalize [1, 0, 0, 0, 1, 0, 0, 0, 1]]
  else if 168 ≤ spg ∧ spg ≤ 194 then [normalize [1, -0.5, 0, 0, √3 / 2, 0, 0, 0, 0], unitCol 8]
  else if 143 ≤ spg ∧ spg ≤ 167 then [normalize [1, -0.5, 0, 0, √3 / 2, 0, 0, 0, 0], unitCol 8]
  else if 75 ≤ spg ∧ spg ≤ 142 then [normalize [1, 0, 0, 0, 1, 0, 0, 0, 0], unitCol 8]
  else if 16 ≤ spg ∧ spg ≤ 74 then [unitCol 0, unitCol 4, unitCol 8]
  else if 3 ≤ spg ∧ spg ≤ 15 then [unitCol 0, unitCol 4, unitCol 8, unitCol 2]
  else (List.range 9).map unitCol

/-- The basis as an array. -/
def colEntry (cols : List (List ℝ)) (q k : ℕ) : ℝ := (cols.getD k []).getD q 0

/-- `basis_axis.T @ axis.reshape(-1)` (`opt_geometry.py` 121). -/
def initialCoeffs (cols : List (List ℝ)) (axis : Axis) : ℕ → ℝ := fun k =>
  ((List.range 9).map fun q => colEntry cols q k * axis (Fin.ofNat 3 (q / 3)) (Fin.ofNat 3 q)).sum

/-! ## Basis of the positions in fractional coordinates -/

/-- `_basis_cartesian_to_fractional_coordinates` (`symfc_utils.py` 43-61) before the singular value
decomposition: `basisC q k` is the entry of row `q` and column `k`, `m` the number of columns.  The reshapes are
index computations. -/
noncomputable def basisFractional (axis : Axis) (basisC : ℕ → ℕ → ℝ) (m : ℕ) : ℕ → ℕ → ℝ :=
  -- `np.array([b.reshape((n_atom, 3)) for b in basis_c.T])`
  let a1 := fun (k i b : ℕ) => basisC (3 * i + b) k
  -- `transpose((2, 1, 0))` and `reshape(3, -1)`
  let a2 := fun (b j : ℕ) => a1 (j % m) (j / m) b
  -- `axis_inv @ basis_c`
  let a3 := fun (a : Fin 3) (j : ℕ) => axis⁻¹ a 0 * a2 0 j + axis⁻¹ a 1 * a2 1 j + axis⁻¹ a 2 * a2 2 j
  -- `reshape((3, n_atom, n_basis))`, `transpose((1, 0, 2))` and `reshape(-1, n_basis)`
  fun p k => a3 (Fin.ofNat 3 p) ((p / 3) * m + k)

end Verif.OptGeom
