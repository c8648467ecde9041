import Verif.Model.LammpsEval

/-!
# Specification of the evaluation with LAMMPS
-/

namespace Verif.Spec
open LammpsEval Rotation

/-- A potential that does not depend on the orientation of the crystal: when a cell is rotated or reflected, the energy
is the same, and forces and stress turn with the cell. -/
def TurnsWith (v : Potential) : Prop :=
  ∀ (r a : Mat) (atoms : List (ℕ × Vec)), r.transpose * r = 1 →
    v (r * a) (atoms.map fun x => (x.1, r.mulVec x.2)) =
      ⟨(v a atoms).energy, (v a atoms).forces.map r.mulVec, r * (v a atoms).stress * r.transpose⟩

/-- One force for each atom, and a symmetric stress. -/
def WellFormed (v : Potential) : Prop :=
  ∀ a atoms, (v a atoms).forces.length = atoms.length ∧ (v a atoms).stress.transpose = (v a atoms).stress

/-- The atoms of a structure as LAMMPS numbers their types: the place of the element in the list of the elements,
counted from 1; positions are cartesian. -/
def AtomsOf (elements : List String) (st : Cell) (atoms : List (ℕ × Vec)) : Prop :=
  List.Forall₂ (fun e (x : ℕ × Vec) => ∃ k : ℕ, elements[k]? = some e ∧ x.1 = k + 1) st.elements atoms ∧
    List.Forall₂ (fun p (x : ℕ × Vec) => x.2 = st.axis.mulVec p) st.positions atoms

end Verif.Spec
