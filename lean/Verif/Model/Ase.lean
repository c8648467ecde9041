import Verif.Model.StrGen

/-!
# Conversion to and from ASE

`/repo/src/pypolymlp/calculator/utils/ase_utils.py` 31-57, `/repo/src/pypolymlp/calculator/utils/ase_calculator.py` 61-75 and
`/repo/src/pypolymlp/calculator/utils/ase_calculator_ref.py` 19-24, 106-107.

Real arithmetic.  Names of elements are texts; their numbers (`symbol_map` of phonopy) and the names of the numbers
(`chemical_symbols` of ASE) are parameters.  ASE is not part of the repository: `Atoms` stores Cartesian positions,
`get_scaled_positions` solves for the fractional ones and wraps them into the cell.
-/

namespace Verif.Ase
open Verif.StrGen (Vec Mat Str toDisplacements)

/-- `ase.Atoms`, periodic in all directions: the rows of `cell` are the axes. -/
structure Atoms where
  cell : Mat
  numbers : List ℕ
  positions : List Vec

/-- The tables of elements: numbers of names and names of numbers. -/
structure Tables where
  number : String → Option ℕ
  symbol : ℕ → String

/-- `structure_to_ase_atoms` (`ase_utils.py` 31-39); `Atoms` computes `positions = scaled_positions @ cell`. -/
noncomputable def toAtoms (t : Tables) (st : Str) : Except Err Atoms := do
  let numbers ← st.elements.mapM fun e => orErr .keyError (t.number e)
  return ⟨st.axis.transpose, numbers, st.positions.map fun p => st.axis.transpose.vecMul p⟩

/-- `get_scaled_positions` of ASE: `np.linalg.solve(cell.T, positions.T).T % 1.0`.  A singular cell is an error (ASE replaces
axes that are zero, which is not modelled). -/
noncomputable def scaledPositions (a : Atoms) : Except Err (List Vec) :=
  if a.cell.det = 0 then .error .valueError
  else .ok (a.positions.map fun x => fun i => Int.fract ((a.cell.transpose)⁻¹.mulVec x i))

/-- `[i for i, n in enumerate(n_atoms) for _ in range(n)]` (`ase_utils.py` 48), from number `i` on. -/
def blockTypes : ℕ → List ℕ → List ℕ
  | _, [] => []
  | i, n :: ns => List.replicate n i ++ blockTypes (i + 1) ns

/-- `ase_atoms_to_structure` (`ase_utils.py` 42-57).  `sorted(set(elements), key=elements.index)` is the list without
repetitions in the order of first appearance. -/
noncomputable def fromAtoms (t : Tables) (a : Atoms) : Except Err Str := do
  let elements := a.numbers.map t.symbol
  let nAtoms := elements.eraseDups.map fun e => elements.count e
  let positions ← scaledPositions a
  return ⟨a.cell.transpose, positions, nAtoms, elements, blockTypes 0 nAtoms, |a.cell.det|, none, none, none⟩

/-- What a potential returns: energy, forces as columns, stress (xx, yy, zz, xy, yz, zx) in eV per cell. -/
structure Evaluated where
  energy : ℝ
  forces : List Vec
  stress : Fin 6 → ℝ

/-- `PolymlpASECalculator.calculate` (`ase_calculator.py` 61-75): the forces are transposed, i.e. listed by atoms. -/
noncomputable def calculate (t : Tables) (eval : Str → Except Err Evaluated) (a : Atoms) : Except Err Evaluated := do
  let st ← fromAtoms t a
  eval st

/-- `convert_atoms_to_str` (`ase_calculator_ref.py` 19-24): displacements from the given structure. -/
noncomputable def disps (t : Tables) (a : Atoms) (origin : Str) : Except Err (List Vec) := do
  let st ← fromAtoms t a
  return toDisplacements st origin

/-- `np.sqrt(np.average(np.square(disps)))` (`ase_calculator_ref.py` 107). -/
noncomputable def averageDisplacement (ds : List Vec) : ℝ :=
  Real.sqrt ((ds.map fun d => ∑ i, d i ^ 2).sum / (3 * ds.length))

end Verif.Ase
