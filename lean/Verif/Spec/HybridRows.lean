import Verif.Model.Rows

/-!
# What the feature rows and the prediction of a hybrid potential should be

The features of the sub-models stand side by side.  A sub-model sees only its own atoms; to a force
row of any other atom it contributes zeros.
-/

namespace Verif.Spec
open Verif.Rows
variable {K : Type}

/-- Contribution of one sub-model to a structure: number of features, the atoms it sees, and the
features it computes for these atoms. -/
structure Part (K : Type) where
  nFeat : ℕ
  atoms : List ℕ
  feat : StFeatures (List K)

/-- Sizes of the computed features. -/
def Part.WF (p : Part K) (n : ℕ) : Prop :=
  p.atoms.Nodup ∧ (∀ a ∈ p.atoms, a < n) ∧ p.feat.xe.length = p.nFeat ∧
  p.feat.xf.length = 3 * p.atoms.length ∧ (∀ r ∈ p.feat.xf, r.length = p.nFeat) ∧
  p.feat.xs.length = 6 ∧ ∀ r ∈ p.feat.xs, r.length = p.nFeat

/-- Energy row. -/
def hybridEnergyRow (parts : List (Part K)) : List K := parts.flatMap fun p => p.feat.xe

/-- Row of stress component `t`. -/
def hybridStressRow (parts : List (Part K)) (t : ℕ) : List K :=
  parts.flatMap fun p => p.feat.xs.getD t []

/-- Contribution of a sub-model to the row of force component `c` of atom `a`. -/
def forceBlock [Zero K] (p : Part K) (a c : ℕ) : List K :=
  if a ∈ p.atoms then p.feat.xf.getD (3 * p.atoms.idxOf a + c) [] else List.replicate p.nFeat 0

/-- Row of force component `c` of atom `a`. -/
def hybridForceRow [Zero K] (parts : List (Part K)) (a c : ℕ) : List K :=
  parts.flatMap fun p => forceBlock p a c

/-- All rows of a structure with `n` atoms. -/
def hybridFeatures [Zero K] (n : ℕ) (parts : List (Part K)) : StFeatures (List K) :=
  ⟨hybridEnergyRow parts, (List.range 6).map (hybridStressRow parts),
    (List.range (3 * n)).map fun q => hybridForceRow parts (q / 3) (q % 3)⟩

/-- Value of a linear model: features times coefficients. -/
def dot [Mul K] [Add K] [Zero K] (x c : List K) : K := (List.zipWith (· * ·) x c).sum

end Verif.Spec
