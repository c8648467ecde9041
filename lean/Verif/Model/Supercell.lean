import Verif.Model.Structure
import Mathlib.Algebra.Order.Floor.Ring
import Mathlib.Algebra.Order.Field.Basic

/-!
# Supercells

`/repo/src/pypolymlp/utils/supercell_utils.py` 11-98.
-/

namespace Verif.Supercell
variable {K : Type} [Field K] [LinearOrder K] [FloorRing K]

/-- One entry of `_refine_positions(positions, tol)` (`supercell_utils.py` 19-23, the same code at
`structure_utils.py` 12-16). -/
def refine1 (tol x : K) : K :=
  let y := x - (⌊x⌋ : K)
  if y > 1 - tol then y - 1 else y

/-- A column of `_refine_positions`. -/
def refine (tol : K) (v : V3 K) : V3 K := ⟨refine1 tol v.x, refine1 tol v.y, refine1 tol v.z⟩

/-- `np.indices((nz, ny, nx)).reshape(3, -1).T[:, [2, 1, 0]]` (`supercell_utils.py` 82-84): x runs
fastest. -/
def translations (nx ny nz : ℕ) : List (ℕ × ℕ × ℕ) :=
  (List.range nz).flatMap fun iz => (List.range ny).flatMap fun iy =>
    (List.range nx).map fun ix => (ix, iy, iz)

/-- `np.repeat(xs, n)`. -/
def repeatEach {α : Type} (n : ℕ) (xs : List α) : List α := xs.flatMap fun x => List.replicate n x

/-- `st.axis @ np.diag(size)` (`supercell_utils.py` 74). -/
def scaleAxis (a : M3 K) (nx ny nz : ℕ) : M3 K :=
  let row (r : V3 K) : V3 K := ⟨r.x * (nx : K), r.y * (ny : K), r.z * (nz : K)⟩
  ⟨row a.r0, row a.r1, row a.r2⟩

/-- `((position + translation) / size)` (`supercell_utils.py` 85-86). -/
def place (nx ny nz : ℕ) (p : V3 K) (t : ℕ × ℕ × ℕ) : V3 K :=
  ⟨(p.x + (t.1 : K)) / (nx : K), (p.y + (t.2.1 : K)) / (ny : K), (p.z + (t.2.2 : K)) / (nz : K)⟩

/-- `_get_supercell_diagonal(st, size)` without phonopy (`supercell_utils.py` 59-88), for
non-negative sizes.  `tol` is `1e-13`.  `supercell_matrix` (line 79) is not stored in the model. -/
def diagonal (tol : K) (st : Structure K) (nx ny nz : ℕ) : Structure K :=
  let n := nx * ny * nz
  { st with
    axis := scaleAxis st.axis nx ny nz
    nAtoms := st.nAtoms.map (· * n)
    types := repeatEach n st.types
    elements := repeatEach n st.elements
    volume := st.volume * (n : K)
    positions := (st.positions.flatMap fun p => (translations nx ny nz).map fun t =>
      place nx ny nz p t).map (refine tol) }

/-- The accepted shapes of `supercell_matrix` (`supercell_utils.py` 43-56). -/
inductive Size where
  | vec (x y z : ℤ)
  | mat (m : M3 ℤ)
  | other

/-- `_is_diagonal(a)` for a 3×3 array (`supercell_utils.py` 11-16). -/
def isDiagonal (m : M3 ℤ) : Bool :=
  m.r0.y == 0 && m.r0.z == 0 && m.r1.x == 0 && m.r1.z == 0 && m.r2.x == 0 && m.r2.y == 0

/-- `_get_supercell_diagonal` with integer sizes: `np.repeat` and `np.indices` reject negative
numbers (`supercell_utils.py` 76, 83). -/
def diagonalZ (tol : K) (st : Structure K) (x y z : ℤ) : Except Err (Structure K) :=
  if x < 0 ∨ y < 0 ∨ z < 0 then .error .valueError
  else .ok (diagonal tol st x.toNat y.toNat z.toNat)

/-- `get_supercell(st, supercell_matrix)` (`supercell_utils.py` 26-56) with `use_phonopy = False`.
`phonopy` stands for `phonopy_supercell` (phonopy is external). -/
def getSupercell (phonopy : Structure K → M3 ℤ → Structure K) (tol : K) (st : Structure K) :
    Size → Except Err (Structure K)
  | .mat m =>
    if isDiagonal m then diagonalZ tol st m.r0.x m.r1.y m.r2.z
    else
      let sup := phonopy st m
      .ok { sup with positions := sup.positions.map (refine tol) }
  | .vec x y z => diagonalZ tol st x y z
  | .other => .error .runtimeError

/-- `get_supercell_size(supercell_matrix)` (`supercell_utils.py` 91-98): the determinant is an
integer, so rounding is exact. -/
def supercellSize : Size → Except Err ℤ
  | .vec x y z => .ok (x * y * z)
  | .mat m => .ok m.det
  | .other => .error .runtimeError

end Verif.Supercell
