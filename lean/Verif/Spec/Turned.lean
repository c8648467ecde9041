import Verif.Spec.Rotate
import Mathlib.LinearAlgebra.Matrix.Notation
import Mathlib.LinearAlgebra.Matrix.Determinant.Basic

/-!
# Structures that are turned as a whole
-/

namespace Verif.Spec
open Matrix

/-- A rotation, possibly combined with a reflection. -/
def Orthogonal3 (M : Matrix (Fin 3) (Fin 3) ℝ) : Prop := M * Mᵀ = 1

/-- The symmetric tensor with the components xx, yy, zz, xy, yz, zx. -/
def tensor6 (s : Fin 6 → ℝ) : Matrix (Fin 3) (Fin 3) ℝ := !![s 0, s 3, s 5; s 3, s 1, s 4; s 5, s 4, s 2]

/-- The properties of a structure with `n` atoms that is turned: the same energy, turned forces, a stress
tensor in the turned axes. -/
structure TurnedProps (n : ℕ) (M : Matrix (Fin 3) (Fin 3) ℝ) (e e' : ℝ) (f f' : ℕ → Fin 3 → ℝ)
    (s s' : Fin 6 → ℝ) : Prop where
  energy : e' = e
  forces : ∀ q < n, f' q = M *ᵥ f q
  stress : tensor6 s' = M * tensor6 s * Mᵀ

/-- The operation that turns a vector by `M` and then shifts it by `s` maps a crystal onto itself: lattice
translations go to lattice translations, the image of atom `i` is an image of atom `σ i`, which has the same
type, and every atom is reached. -/
structure CrystalSymmetry (n : ℕ) (types : ℕ → ℕ) (pos : ℕ → Fin 3 → ℝ) (L : Set (Fin 3 → ℝ))
    (M : Matrix (Fin 3) (Fin 3) ℝ) (s : Fin 3 → ℝ) (σ : ℕ → ℕ) : Prop where
  orth : Orthogonal3 M
  lattice : ∀ t, M *ᵥ t ∈ L ↔ t ∈ L
  atom : ∀ i < n, σ i < n ∧ types (σ i) = types i ∧ M *ᵥ pos i + s - pos (σ i) ∈ L
  reached : ∀ j < n, ∃! i, i < n ∧ σ i = j

/-- Energies, forces and stress have the symmetry: forces go to forces, the stress tensor does not change. -/
structure SymmetricProps (n : ℕ) (M : Matrix (Fin 3) (Fin 3) ℝ) (σ : ℕ → ℕ) (f : ℕ → Fin 3 → ℝ)
    (s : Fin 6 → ℝ) : Prop where
  forces : ∀ q < n, f (σ q) = M *ᵥ f q
  stress : M * tensor6 s * Mᵀ = tensor6 s

end Verif.Spec
