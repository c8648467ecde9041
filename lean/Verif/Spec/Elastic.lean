import Verif.Model.Elastic

/-!
# Elasticity

Specification side: tensors of order four and Hooke's law.
-/

namespace Verif.Spec
open Verif.Elastic

/-- The index symmetries of elastic constants. -/
def ElasticSymm (t : T4) : Prop :=
  ∀ i j k l, t i j k l = t j i k l ∧ t i j k l = t i j l k ∧ t i j k l = t k l i j

/-- A tensor in rotated axes. -/
def rotated (r : Mat) (t : T4) : T4 := fun i j k l =>
  ∑ a, ∑ b, ∑ c, ∑ d, r i a * r j b * r k c * r l d * t a b c d

/-- Hooke's law: the stress of a strain. -/
def hooke (t : T4) (strain : Mat) (i j : Fin 3) : ℝ := ∑ k, ∑ l, t i j k l * strain k l

/-- The components xx, yy, zz, xy, yz, zx in which stresses are reported. -/
def component : Fin 6 → Fin 3 × Fin 3 := ![(0, 0), (1, 1), (2, 2), (0, 1), (1, 2), (2, 0)]

/-- The number of a pair of indices in the notation of Voigt: xx, yy, zz, yz, zx, xy. -/
def voigtNumber : Fin 3 → Fin 3 → Fin 6 := ![![0, 5, 4], ![5, 1, 3], ![4, 3, 2]]

/-- A crystal whose stress is, up to a part that is even in the strain, the one of Hooke's law: `stressOf` is minus
the stress times the volume, in eV. -/
def Material (stressOf : Mat → Fin 6 → ℝ) (axis0 : Mat) (evToGPa vol0 : ℝ) (t : T4) : Prop :=
  ∃ even : Mat → Fin 6 → ℝ, (∀ e v, even (-e) v = even e v) ∧
    ∀ (e : Mat), e.transpose = e → ∀ v, stressOf ((1 + e) * axis0) v =
      -(vol0 / evToGPa) * hooke t e (component v).1 (component v).2 + even e v

/-- The rotations of a group: each element permutes the list. -/
def ClosedGroup (rots : List (Matrix (Fin 3) (Fin 3) ℤ)) : Prop :=
  rots ≠ [] ∧ ∀ r ∈ rots, (rots.map fun s => r * s).Perm rots

end Verif.Spec
