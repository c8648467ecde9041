import Verif.Model.Py

/-! # Crystal structures (`/repo/src/pypolymlp/core/data_format.py` 14-89) -/

namespace Verif

/-- One column of a `(3, n)` array. -/
structure V3 (K : Type) where
  x : K
  y : K
  z : K
  deriving DecidableEq, Repr

/-- A 3×3 array given by its rows `row0, row1, row2` (as numpy indexes it: `a[i][j]`). -/
structure M3 (K : Type) where
  r0 : V3 K
  r1 : V3 K
  r2 : V3 K
  deriving DecidableEq, Repr

namespace M3
variable {K : Type}

/-- Determinant, as used for `volume = np.linalg.det(axis)` (`data_format.py` 48).
Simplification: exact. -/
def det [CommRing K] (a : M3 K) : K :=
  a.r0.x * (a.r1.y * a.r2.z - a.r1.z * a.r2.y)
    - a.r0.y * (a.r1.x * a.r2.z - a.r1.z * a.r2.x)
    + a.r0.z * (a.r1.x * a.r2.y - a.r1.y * a.r2.x)

end M3

/-- `PolymlpStructure` (`data_format.py` 14-44): the fields used by the modelled code.
`positions` is the list of columns of the `(3, n)` array. Fields never read by modelled code
(valence, comment, masses, ...) are dropped. -/
structure Structure (K : Type) where
  axis : M3 K
  positions : List (V3 K)
  nAtoms : List ℕ
  elements : List String
  types : List ℕ
  volume : K
  name : Option String := none
  deriving DecidableEq, Repr

namespace Structure
variable {K : Type}

/-- `PolymlpStructure.__post_init__` + `check_errors` (`data_format.py` 46-60). -/
def check (st : Structure K) : Except Err (Structure K) :=
  if st.positions.length = st.elements.length ∧ st.elements.length = st.types.length ∧
      st.elements.length = st.nAtoms.sum then .ok st
  else .error .assertionError

/-- Construction without an explicit volume: `volume = det(axis)` (`data_format.py` 46-49). -/
def mk' [CommRing K] (axis : M3 K) (positions : List (V3 K)) (nAtoms : List ℕ)
    (elements : List String) (types : List ℕ) : Except Err (Structure K) :=
  check { axis, positions, nAtoms, elements, types, volume := axis.det, name := none }

/-- The well-formedness that `check_errors` enforces. -/
def WF (st : Structure K) : Prop :=
  st.positions.length = st.elements.length ∧ st.elements.length = st.types.length ∧
    st.elements.length = st.nAtoms.sum

instance (st : Structure K) : Decidable st.WF := by unfold WF; infer_instance

end Structure

end Verif
