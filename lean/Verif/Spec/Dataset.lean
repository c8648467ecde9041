import Verif.Model.Dataset

/-!
# Abstract view of a DFT data set: a list of records

A record is one structure together with everything that was computed for it.
-/

namespace Verif.Spec
variable {K : Type}

structure Rec (K : Type) where
  st : Structure K
  energy : K
  forces : List K
  stress : List K
  deriving DecidableEq

/-- Number of atoms of the record's structure. -/
def Rec.natoms (r : Rec K) : ℕ := r.st.nAtoms.sum

/-- Three force components per atom, six stress components per structure. -/
def Rec.WF (r : Rec K) : Prop := r.forces.length = 3 * r.natoms ∧ r.stress.length = 6

instance (r : Rec K) : Decidable r.WF := by unfold Rec.WF; infer_instance

/-- The flat arrays of `d` are the record list `rs`, column by column. -/
def Represents (d : Dataset.DFT K) (rs : List (Rec K)) : Prop :=
  d.structures = rs.map (·.st) ∧ d.energies = rs.map (·.energy) ∧
  d.forces = rs.flatMap (·.forces) ∧ d.stresses = rs.flatMap (·.stress) ∧
  d.volumes = rs.map (·.st.volume) ∧ d.totalNAtoms = rs.map (·.natoms) ∧
  d.files = rs.map (·.st.name) ∧ ∀ r ∈ rs, r.WF

/-- What `np.argsort` guarantees: a permutation of the positions that lists the keys in
non-decreasing order (ties in any order). -/
def IsArgsort (keys : List ℕ) (ids : List ℕ) : Prop :=
  ids.Perm (List.range keys.length) ∧ (ids.filterMap (keys[·]?)).Pairwise (· ≤ ·)

end Verif.Spec
