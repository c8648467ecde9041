import Verif.Model.Py
import Mathlib.Data.Matrix.Mul
import Mathlib.Data.Real.Sqrt
import Mathlib.LinearAlgebra.Matrix.NonsingularInverse
import Mathlib.Data.Fin.VecNotation

/-!
# Symmetrized forces and stress tensors

`/repo/src/pypolymlp/utils/tensor_utils_O2.py`, `utils/symfc_utils.py` 55-65 and
`calculator/sscha/sscha_utils.py`.  Reals stand for floats.  symfc is not part of the repository: the
rotations of a structure and the basis of symmetric displacements are parameters.
-/

namespace Verif.TensorSym

/-- `r_c = spgrep._lattice.T @ r @ np.linalg.inv(spgrep._lattice.T)` (`tensor_utils_O2.py` 23); the
rows of the lattice are the axes, so `A`, its transpose, has the axes as columns. -/
noncomputable def cartRotation (A : Matrix (Fin 3) (Fin 3) ℝ) (r : Matrix (Fin 3) (Fin 3) ℤ) :
    Matrix (Fin 3) (Fin 3) ℝ := A * r.map (fun (x : ℤ) => (x : ℝ)) * A⁻¹

/-- `np.kron(r_c, r_c)` (`tensor_utils_O2.py` 24): row `3 i + j`, column `3 k + l`. -/
def kron (R : Matrix (Fin 3) (Fin 3) ℝ) : Matrix (Fin (3 * 3)) (Fin (3 * 3)) ℝ :=
  Matrix.of fun n m => R n.divNat m.divNat * R n.modNat m.modNat

/-- `compute_spg_projector_O2` (`tensor_utils_O2.py` 18-27). -/
noncomputable def spgProjector (A : Matrix (Fin 3) (Fin 3) ℝ) (rots : List (Matrix (Fin 3) (Fin 3) ℤ)) :
    Matrix (Fin (3 * 3)) (Fin (3 * 3)) ℝ :=
  (1 / (rots.length : ℝ)) • (rots.map fun r => kron (cartRotation A r)).sum

/-- `comb` (`tensor_utils_O2.py` 32). -/
def combs : List (ℕ × ℕ) := [(0, 0), (0, 1), (0, 2), (1, 1), (1, 2), (2, 2)]

/-- `uniq` (`tensor_utils_O2.py` 36); a set has no repetition. -/
def uniq (c : ℕ × ℕ) : List (ℕ × ℕ) := if c.1 = c.2 then [c] else [c, (c.2, c.1)]

/-- A column of `perm_basis` (`tensor_utils_O2.py` 36-41). -/
noncomputable def permBasis (c : ℕ × ℕ) (n : ℕ) : ℝ :=
  if n ∈ (uniq c).map fun p => p.1 * 3 + p.2 then 1 / Real.sqrt (uniq c).length else 0

/-- `compute_perm_projector_O2` (`tensor_utils_O2.py` 30-44). -/
noncomputable def permProjector : Matrix (Fin (3 * 3)) (Fin (3 * 3)) ℝ :=
  Matrix.of fun n m => (combs.map fun c => permBasis c n * permBasis c m).sum

/-- `compute_projector_O2` (`tensor_utils_O2.py` 11-15). -/
noncomputable def projectorO2 (A : Matrix (Fin 3) (Fin 3) ℝ) (rots : List (Matrix (Fin 3) (Fin 3) ℤ)) :
    Matrix (Fin (3 * 3)) (Fin (3 * 3)) ℝ := permProjector * spgProjector A rots

/-- `stress[order]` with the first order (`sscha_utils.py` 20-21). -/
def expand (s : Fin 6 → ℝ) : Fin (3 * 3) → ℝ := ![s 0, s 3, s 5, s 3, s 1, s 4, s 5, s 4, s 2]

/-- `stress_sym[order]` with the second order (`sscha_utils.py` 22-23). -/
def contract (t : Fin (3 * 3) → ℝ) : Fin 6 → ℝ := ![t 0, t 4, t 8, t 1, t 5, t 6]

/-- The stress of `symmetrize_properties` (`sscha_utils.py` 20-23). -/
def symStress (proj : Matrix (Fin (3 * 3)) (Fin (3 * 3)) ℝ) (s : Fin 6 → ℝ) : Fin 6 → ℝ :=
  contract (proj.mulVec (expand s))

/-- `compute_projector_cartesian` (`symfc_utils.py` 55-65) for a structure with `N` atoms: the basis
has one column for each of its `k` vectors.  `none` is what `construct_basis_cartesian` returns after
a `ValueError`; every other exception is caught here. -/
def projectorCartesian {N : ℕ} (basis : Except Err (Option ((k : ℕ) × Matrix (Fin (N * 3)) (Fin k) ℝ))) :
    Matrix (Fin (N * 3)) (Fin (N * 3)) ℝ :=
  match basis with
  | .ok (some B) => if N * 3 = 0 then 0 else B.2 * B.2.transpose
  | .ok none => 0
  | .error _ => 0

/-- `forces.T.reshape(-1)` (`sscha_utils.py` 16). -/
def flatten {N : ℕ} (f : Matrix (Fin 3) (Fin N) ℝ) : Fin (N * 3) → ℝ := fun n => f n.modNat n.divNat

/-- `(...).reshape((-1, 3)).T` (`sscha_utils.py` 16). -/
def unflatten {N : ℕ} (v : Fin (N * 3) → ℝ) : Matrix (Fin 3) (Fin N) ℝ :=
  Matrix.of fun i a => v (finProdFinEquiv (a, i))

/-- The forces of `symmetrize_properties` for the whole supercell (`sscha_utils.py` 16). -/
def symForcesAll {N : ℕ} (proj : Matrix (Fin (N * 3)) (Fin (N * 3)) ℝ) (f : Matrix (Fin 3) (Fin N) ℝ) :
    Matrix (Fin 3) (Fin N) ℝ := unflatten (proj.mulVec (flatten f))

/-- The forces of `symmetrize_properties`: the columns of the representatives
(`sscha_utils.py` 14-18). -/
def symForces {N : ℕ} (proj : Matrix (Fin (N * 3)) (Fin (N * 3)) ℝ) (n : ℕ) (f : Matrix (Fin 3) (Fin N) ℝ) :
    List (Fin 3 → ℝ) :=
  ((List.finRange N).filter fun a => decide (a.val % n = 0)).map fun a i => symForcesAll proj f i a

/-- What a calculation of SSCHA gives for a structure. -/
structure Parts (N : ℕ) where
  staticForces : Matrix (Fin 3) (Fin N) ℝ
  averageForces : Matrix (Fin 3) (Fin N) ℝ
  staticStress : Fin 6 → ℝ
  averageStress : Fin 6 → ℝ

/-- The forces and the stress that `PropertiesSSCHA.eval` returns
(`calculator/sscha/api_properties.py` 93-94, 106-115). -/
noncomputable def evalSym {N : ℕ} (A : Matrix (Fin 3) (Fin 3) ℝ) (rots : List (Matrix (Fin 3) (Fin 3) ℤ))
    (basis : Except Err (Option ((k : ℕ) × Matrix (Fin (N * 3)) (Fin k) ℝ))) (n : ℕ) (p : Parts N) :
    List (Fin 3 → ℝ) × (Fin 6 → ℝ) :=
  (symForces (projectorCartesian basis) n (p.staticForces + p.averageForces),
    symStress (projectorO2 A rots) fun i => p.staticStress i + p.averageStress i)

end Verif.TensorSym
