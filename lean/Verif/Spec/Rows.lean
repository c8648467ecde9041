import Verif.Spec.Dataset
import Verif.Model.Rows

/-!
# What the design matrix should contain

Each structure of each data set contributes one energy row and, when the data set has forces, six
stress rows and three rows per atom.  A row pairs features of the structure with the datum of the same
structure.
-/

namespace Verif.Spec
open Verif.Sequential Verif.Rows
variable {p : ℕ} {K : Type}

/-- A data set: flags, weight, and its structures with their data and features. -/
structure DSet (p : ℕ) (K : Type) where
  includeForce : Bool
  includeStress : Bool
  weight : K
  items : List (Rec K × StFeatures (Vec p K))

/-- All structures of all data sets, in order. -/
def allItems (D : List (DSet p K)) : List (DSet p K × Rec K × StFeatures (Vec p K)) :=
  D.flatMap fun d => d.items.map fun q => (d, q)

/-- The energy row of a structure. -/
def energyRow [Mul K] (W : WeightFns K) (d : DSet p K) (q : Rec K × StFeatures (Vec p K)) : Row p K :=
  { x := q.2.xe, w := W.e q.1.energy q.1.natoms * d.weight, y := q.1.energy, isE := true }

/-- The six stress rows of a structure; weight zero when stresses are not to be fitted. -/
def stressRows [Semiring K] (W : WeightFns K) (wst : K) (d : DSet p K)
    (q : Rec K × StFeatures (Vec p K)) : List (Row p K) :=
  if d.includeForce then (q.2.xs.zip q.1.stress).map fun u =>
    { x := u.1, w := if d.includeStress then W.s (wst * d.weight) u.2 else 0, y := u.2, isE := false }
  else []

/-- The force rows of a structure. -/
def forceRows [Mul K] (W : WeightFns K) (d : DSet p K) (q : Rec K × StFeatures (Vec p K)) :
    List (Row p K) :=
  if d.includeForce then (q.2.xf.zip q.1.forces).map fun u =>
    { x := u.1, w := W.f u.2 * d.weight, y := u.2, isE := false }
  else []

/-- All rows: energies, then stresses, then forces, each in the order of the structures. -/
def designRows [Semiring K] (W : WeightFns K) (wst : K) (D : List (DSet p K)) : List (Row p K) :=
  (allItems D).map (fun q => energyRow W q.1 q.2) ++
    (allItems D).flatMap (fun q => stressRows W wst q.1 q.2) ++
    (allItems D).flatMap (fun q => forceRows W q.1 q.2)

/-- Sizes fit: `3N` forces and force-feature rows, six stresses and stress-feature rows. -/
def DSet.WF (d : DSet p K) : Prop :=
  ∀ q ∈ d.items, q.1.WF ∧ q.2.xf.length = 3 * q.1.natoms ∧ q.2.xs.length = 6

instance (d : DSet p K) : Decidable d.WF := by unfold DSet.WF; infer_instance

/-- The program's data-set object `o` holds the data of `d`. -/
def Holds (o : DS K) (d : DSet p K) : Prop :=
  o.includeForce = d.includeForce ∧ o.includeStress = d.includeStress ∧ o.weight = d.weight ∧
    Represents o.dft (d.items.map (·.1))

end Verif.Spec
