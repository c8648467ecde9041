import Mathlib.Algebra.BigOperators.Fin
import Mathlib.Algebra.Field.Basic

/-!
# The harmonic model of a crystal

Displacements are indexed by atom and component: `u i a`.
-/

namespace Verif.Spec
variable {K : Type} [Field K] {n : ℕ}

/-- `½ Σ u_ia Φ_ij,ab u_jb`. -/
def harmonicEnergy (Φ : Fin n → Fin n → Fin 3 → Fin 3 → K) (u : Fin n → Fin 3 → K) : K :=
  1 / 2 * ∑ i, ∑ a, ∑ j, ∑ b, u i a * Φ i j a b * u j b

/-- `- Σ Φ_ij,ab u_jb`. -/
def harmonicForce (Φ : Fin n → Fin n → Fin 3 → Fin 3 → K) (u : Fin n → Fin 3 → K) (i : Fin n) (a : Fin 3) : K :=
  - ∑ j, ∑ b, Φ i j a b * u j b

/-- Force constants are invariant under exchange of the two displacements. -/
def PermSymm (Φ : Fin n → Fin n → Fin 3 → Fin 3 → K) : Prop := ∀ i j a b, Φ i j a b = Φ j i b a

/-- Acoustic sum rule. -/
def SumRule (Φ : Fin n → Fin n → Fin 3 → Fin 3 → K) : Prop := ∀ i a b, ∑ j, Φ i j a b = 0

/-- A displacement field as the flat array `(u_1x, u_1y, u_1z, u_2x, ...)`. -/
def flatten (u : Fin n → Fin 3 → K) : Fin (n * 3) → K := fun r => u ⟨r / 3, by omega⟩ ⟨r % 3, by omega⟩

end Verif.Spec
