import Verif.Spec.Dataset
import Verif.Spec.Atoms

/-! # What a user hands to the data-set constructor, and what must come out of it -/

namespace Verif.Spec
variable {K : Type}

/-- One structure with its energy, force columns and stress tensor, as given by the user. -/
structure Calc (K : Type) where
  st : Structure K
  energy : K
  forces : List (V3 K)
  stress : M3 K

/-- The input is consistent and all its elements are known. -/
def Calc.OK (elems : List String) (c : Calc K) : Prop :=
  c.st.WF ∧ c.forces.length = c.st.positions.length ∧ ∀ e ∈ c.st.elements, e ∈ elems

instance (elems : List String) (c : Calc K) : Decidable (c.OK elems) := by
  unfold Calc.OK; infer_instance

/-- The stored record `r` is the calculation `c`: same atoms (element, position, force together),
grouped by element, same energy, force rows `x y z` per atom, and the stress rows
`xx yy zz xy yz zx`. -/
def BuiltFrom (elems : List String) (c : Calc K) (r : Rec K) : Prop :=
  ∃ force' : List (V3 K),
    atoms r.st force' = (elems.flatMap fun e => (atoms c.st c.forces).filter fun a => a.1 = e) ∧
    (atoms r.st force').Perm (atoms c.st c.forces) ∧
    r.forces = force'.flatMap (fun v => [v.x, v.y, v.z]) ∧
    r.energy = c.energy ∧
    r.stress = [c.stress.r0.x, c.stress.r1.y, c.stress.r2.z,
                c.stress.r0.y, c.stress.r1.z, c.stress.r2.x] ∧
    r.st.axis = c.st.axis ∧ r.st.types = r.st.elements.map (fun e => elems.idxOf e) ∧
    r.st.nAtoms = elems.map (fun e => c.st.elements.count e)

end Verif.Spec
