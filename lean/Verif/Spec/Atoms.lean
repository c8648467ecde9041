import Verif.Model.Structure

namespace Verif.Spec

/-- The atoms of a structure as one list of (element, position, force) triples. -/
def atoms {K : Type} (st : Structure K) (force : List (V3 K)) : List (String × V3 K × V3 K) :=
  st.elements.zip (st.positions.zip force)

/-- The atoms of a structure as one list of (type, element, position) triples. -/
def typedAtoms {K : Type} (st : Structure K) : List (ℕ × String × V3 K) :=
  st.types.zip (st.elements.zip st.positions)

end Verif.Spec
