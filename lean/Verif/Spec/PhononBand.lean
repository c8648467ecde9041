import Mathlib.Data.Rat.Defs
import Mathlib.Algebra.Order.Floor.Defs

/-!
# Points of reciprocal space and their names

Named points are given in the basis of the conventional cubic cell; nothing here refers to the code.
-/

namespace Verif.Spec

/-- Coordinates in the reciprocal basis of the primitive cell of a point given in that of the conventional cell: `m`
has the vectors of the primitive cell as columns. -/
def primitiveCoordinates (m : (ℚ × ℚ × ℚ) × (ℚ × ℚ × ℚ) × (ℚ × ℚ × ℚ)) (q : ℚ × ℚ × ℚ) : ℚ × ℚ × ℚ :=
  (m.1.1 * q.1 + m.2.1.1 * q.2.1 + m.2.2.1 * q.2.2,
    m.1.2.1 * q.1 + m.2.1.2.1 * q.2.1 + m.2.2.2.1 * q.2.2,
    m.1.2.2 * q.1 + m.2.1.2.2 * q.2.1 + m.2.2.2.2 * q.2.2)

/-- Two points differ by a vector of the reciprocal lattice. -/
def SameUpToLattice (p q : ℚ × ℚ × ℚ) : Prop :=
  (p.1 - q.1).den = 1 ∧ (p.2.1 - q.2.1).den = 1 ∧ (p.2.2 - q.2.2).den = 1

/-- The points called G, H, P and N in the zone of the body-centred cubic lattice. -/
def bccPoint (name : String) : Option (ℚ × ℚ × ℚ) :=
  if name = "G" then some (0, 0, 0) else if name = "H" then some (0, 1, 0)
  else if name = "P" then some (1/2, 1/2, 1/2) else if name = "N" then some (1/2, 1/2, 0) else none

/-- Labels name the points of a path one by one. -/
def NamesPoints (point : String → Option (ℚ × ℚ × ℚ)) (m : (ℚ × ℚ × ℚ) × (ℚ × ℚ × ℚ) × (ℚ × ℚ × ℚ))
    (path : List (List (ℚ × ℚ × ℚ))) (labels : List String) : Prop :=
  List.Forall₂ (fun p l => ∃ c, point l = some c ∧ SameUpToLattice p (primitiveCoordinates m c)) path.flatten labels

end Verif.Spec
