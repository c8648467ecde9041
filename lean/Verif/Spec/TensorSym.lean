import Mathlib.Data.Matrix.Mul
import Mathlib.LinearAlgebra.Matrix.NonsingularInverse
import Mathlib.Data.Real.Basic
import Mathlib.Data.Fin.VecNotation

/-!
# Symmetric stress tensors and forces

What a user relies on, without reference to the program.
-/

namespace Verif.Spec

/-- The tensor of a stress with the components xx, yy, zz, xy, yz, zx. -/
def stressTensor (s : Fin 6 → ℝ) : Matrix (Fin 3) (Fin 3) ℝ :=
  !![s 0, s 3, s 5; s 3, s 1, s 4; s 5, s 4, s 2]

/-- The matrix of a rotation in Cartesian coordinates, if it is `r` for coordinates along the axes,
which are the columns of `A`. -/
noncomputable def cartesianMatrix (A : Matrix (Fin 3) (Fin 3) ℝ) (r : Matrix (Fin 3) (Fin 3) ℤ) :
    Matrix (Fin 3) (Fin 3) ℝ := A * r.map (fun (x : ℤ) => (x : ℝ)) * A⁻¹

/-- The rotations of a crystal with the axes `A`: finitely many, at least one, closed under
products, and each keeps lengths and angles. -/
structure PointGroup (A : Matrix (Fin 3) (Fin 3) ℝ) (rots : List (Matrix (Fin 3) (Fin 3) ℤ)) : Prop where
  axes : A.det ≠ 0
  some : rots ≠ []
  once : rots.Nodup
  closed : ∀ r ∈ rots, ∀ s ∈ rots, r * s ∈ rots
  rigid : ∀ r ∈ rots, (cartesianMatrix A r).transpose * cartesianMatrix A r = 1

/-- A tensor that every rotation leaves as it is. -/
def RotationInvariant (A : Matrix (Fin 3) (Fin 3) ℝ) (rots : List (Matrix (Fin 3) (Fin 3) ℤ))
    (T : Matrix (Fin 3) (Fin 3) ℝ) : Prop :=
  ∀ r ∈ rots, cartesianMatrix A r * T * (cartesianMatrix A r).transpose = T

/-- The distance of two tensors, squared. -/
def tensorDistance (S T : Matrix (Fin 3) (Fin 3) ℝ) : ℝ := ∑ i, ∑ j, (S i j - T i j) ^ 2

/-- An operation on a supercell of `N` atoms: a rotation in Cartesian coordinates and where each
atom goes. -/
structure CellOperation (N : ℕ) where
  rot : Matrix (Fin 3) (Fin 3) ℝ
  perm : Equiv.Perm (Fin N)

/-- Vectors on atoms that the operations leave as they are: the rotated vector of an atom is the
vector of the atom at its new place. -/
def OperationInvariant {N : ℕ} (ops : List (CellOperation N)) (f : Matrix (Fin 3) (Fin N) ℝ) : Prop :=
  ∀ g ∈ ops, ∀ a, (fun i => f i (g.perm a)) = g.rot.mulVec fun i => f i a

/-- No net force. -/
def NoDrift {N : ℕ} (f : Matrix (Fin 3) (Fin N) ℝ) : Prop := ∀ i, ∑ a, f i a = 0

/-- An orthonormal basis of the vectors on atoms that are invariant and have no drift; the component
`i` of atom `a` is in row `3 a + i`. -/
structure SymmetricBasis {N k : ℕ} (ops : List (CellOperation N)) (B : Matrix (Fin (N * 3)) (Fin k) ℝ) : Prop where
  orthonormal : B.transpose * B = 1
  invariant : ∀ c, OperationInvariant ops (Matrix.of fun i a => B (finProdFinEquiv (a, i)) c)
  noDrift : ∀ c, NoDrift (N := N) (Matrix.of fun i a => B (finProdFinEquiv (a, i)) c)
  complete : ∀ f : Matrix (Fin 3) (Fin N) ℝ, OperationInvariant ops f → NoDrift f →
    ∃ x : Fin k → ℝ, ∀ i a, f i a = ∑ c, B (finProdFinEquiv (a, i)) c * x c

/-- The copies of an atom of the unit cell follow one another, `n` of them, and translations among
the operations take the first to each of them. -/
def HasTranslations {m n : ℕ} (ops : List (CellOperation (m * n))) : Prop :=
  ∀ (a : Fin m) (k : Fin n) (h : 0 < n), ∃ g ∈ ops, g.rot = 1 ∧
    g.perm (finProdFinEquiv (a, ⟨0, h⟩)) = finProdFinEquiv (a, k)

end Verif.Spec
