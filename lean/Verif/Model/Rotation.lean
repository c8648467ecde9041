import Mathlib.LinearAlgebra.Matrix.NonsingularInverse
import Mathlib.Analysis.Real.Sqrt

/-!
# Rotation of a cell to triangular form

`/repo/src/pypolymlp/calculator/utils/rotation_utils.py` 7-61,
`/repo/src/pypolymlp/calculator/utils/lammps/lammps_structure.py` 17-121, 150-172 and
`/repo/src/pypolymlp/utils/structure_utils.py` 187-211.  Arrays are matrices of real numbers and
square roots are exact.
-/

namespace Verif.Rotation

/-- 3×3 arrays. -/
abbrev Mat := Matrix (Fin 3) (Fin 3) ℝ

/-- `axis[:, i] @ axis[:, j]`. -/
noncomputable def dotCol (axis : Mat) (i j : Fin 3) : ℝ :=
  axis 0 i * axis 0 j + axis 1 i * axis 1 j + axis 2 i * axis 2 j

/-- `np.linalg.norm(axis, axis=0)[i]` (`rotation_utils.py` 16, `structure_utils.py` 190). -/
noncomputable def normCol (axis : Mat) (i : Fin 3) : ℝ := √(dotCol axis i i)

/-- The six numbers `lx, ly, lz, xy, yz, xz`. -/
structure Tri where
  lx : ℝ
  ly : ℝ
  lz : ℝ
  xy : ℝ
  yz : ℝ
  xz : ℝ

/-- `tri_axis` of `triangularize_axis(axis)` (`rotation_utils.py` 16-28); the same formulas are in
`triangulation_axis` (`structure_utils.py` 187-207). -/
noncomputable def triAxis (axis : Mat) : Tri :=
  let a := normCol axis 0
  let b := normCol axis 1
  let c := normCol axis 2
  let calpha := dotCol axis 1 2 / (b * c)
  let cbeta := dotCol axis 2 0 / (c * a)
  let cgamma := dotCol axis 0 1 / (a * b)
  let lx := a
  let xy := b * cgamma
  let xz := c * cbeta
  let ly := √(b * b - xy * xy)
  let yz := (b * c * calpha - xy * xz) / ly
  let lz := √(c * c - xz * xz - yz * yz)
  ⟨lx, ly, lz, xy, yz, xz⟩

/-- `np.array([[lx, xy, xz], [0, ly, yz], [0, 0, lz]])` (`rotation_utils.py` 29,
`lammps_structure.py` 78, `structure_utils.py` 209). -/
def Tri.full (t : Tri) : Mat :=
  Matrix.of fun i j => match i, j with
    | 0, 0 => t.lx | 0, 1 => t.xy | 0, 2 => t.xz
    | 1, 0 => 0 | 1, 1 => t.ly | 1, 2 => t.yz
    | 2, 0 => 0 | 2, 1 => 0 | 2, 2 => t.lz

/-- `rotation = tri_axis_full @ np.linalg.inv(axis)` (`rotation_utils.py` 30). -/
noncomputable def rotation (axis : Mat) : Mat := (triAxis axis).full * axis⁻¹

/-- `recover_rotated_forces(rotated_forces, rotation)` (`rotation_utils.py` 34-48) on one column. -/
def recoverForce (f : Fin 3 → ℝ) (rot : Mat) : Fin 3 → ℝ := rot.transpose.mulVec f

/-- `np.kron(a, b)` for 3×3 arrays. -/
def kron (a b : Mat) : Matrix (Fin 9) (Fin 9) ℝ :=
  Matrix.of fun r c => a ⟨r / 3, by omega⟩ ⟨c / 3, by omega⟩ * b ⟨r % 3, by omega⟩ ⟨c % 3, by omega⟩

/-- `s.reshape(-1)` of a 3×3 array. -/
def flat (s : Mat) : Fin 9 → ℝ := fun r => s ⟨r / 3, by omega⟩ ⟨r % 3, by omega⟩

/-- `v.reshape((3, 3))`. -/
def unflat (v : Fin 9 → ℝ) : Mat := Matrix.of fun i j => v ⟨3 * i + j, by omega⟩

/-- `recover_rotated_stress(rotated_stress, rotation)` (`rotation_utils.py` 51-61). -/
def recoverStress (s : Mat) (rot : Mat) : Mat :=
  unflat ((kron rot.transpose rot.transpose).mulVec (flat s))

/-- `LammpsStructure` (`lammps_structure.py` 31-121), the numeric fields; columns of positions are a
function of the atom index. -/
structure Lammps (n : ℕ) where
  axisMatrix : Mat
  cartesian : Fin n → Fin 3 → ℝ
  rotation : Mat
  isRotation : Prop

/-- `convert_structure_to_lammps_format(structure)` (`lammps_structure.py` 17-27) with
`_axis_check`, `_position_check` and `_set_rotation_matrices` (70-111).  Simplification:
`np.allclose(rotation, eye)` is exact equality. -/
noncomputable def convert {n : ℕ} (axis : Mat) (positions : Fin n → Fin 3 → ℝ) : Lammps n where
  axisMatrix := (triAxis axis).full
  cartesian := fun i => (triAxis axis).full.mulVec (positions i)
  rotation := rotation axis
  isRotation := rotation axis ≠ 1

open Classical in
/-- `LammpsStructure.recover_forces(f)` (`lammps_structure.py` 150-159), one column. -/
noncomputable def Lammps.recoverForces {n : ℕ} (l : Lammps n) (f : Fin 3 → ℝ) : Fin 3 → ℝ :=
  if l.isRotation then recoverForce f l.rotation else f

open Classical in
/-- `LammpsStructure.recover_stress(s)` (`lammps_structure.py` 161-170). -/
noncomputable def Lammps.recoverStress {n : ℕ} (l : Lammps n) (s : Mat) : Mat :=
  if l.isRotation then Rotation.recoverStress s l.rotation else s

end Verif.Rotation
