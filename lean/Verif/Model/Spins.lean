import Verif.Model.AtomOrder
import Verif.Model.Py

/-!
# Atoms with spin channels

`permute_atoms_with_spins` (`/repo/src/pypolymlp/core/dataset_utils.py` 94-156).
-/

namespace Verif.AtomOrder
variable {K : Type}

/-- `list(dict.fromkeys(xs))`: the distinct entries in order of first occurrence
(`dataset_utils.py` 116). -/
def fromkeys (xs : List String) : List String :=
  xs.foldl (fun acc e => if e ∈ acc then acc else acc ++ [e]) []

/-- Accumulator of the loop (`dataset_utils.py` 114-141). -/
structure SpinAcc (K : Type) where
  positions : List (V3 K) := []
  types : List ℕ := []
  elements : List String := []
  nAtoms : List ℕ := []
  forces : List (V3 K) := []
  atomtype : ℕ := 0

/-- `match_ids[np.argsort(types[match])]` (`dataset_utils.py` 122-124).  `argsort` is numpy's
default sort, which is not stable; the model leaves it as a parameter. -/
def matchIds (argsort : List ℕ → List ℕ) (st : Structure K) (ele : String) : List ℕ :=
  let ids := whereTrue (st.elements.map fun e => decide (e = ele))
  let ts := ids.filterMap (st.types[·]?)
  (argsort ts).filterMap (ids[·]?)

/-- One iteration (`dataset_utils.py` 117-141).  Indices are valid, so that indexing is total. -/
def spinStep (argsort : List ℕ → List ℕ) (st : Structure K) (force : List (V3 K))
    (acc : SpinAcc K) (ele : String) : SpinAcc K :=
  let ids := matchIds argsort st ele
  let tl := ids.filterMap (st.types[·]?)
  let uniq := uniqSorted tl
  let tl' := tl.map fun t => uniq.idxOf t + acc.atomtype
  let uniq' := uniqSorted tl'
  { positions := acc.positions ++ ids.filterMap (st.positions[·]?)
    types := acc.types ++ tl'
    elements := acc.elements ++ List.replicate (countEle st.elements ele) ele
    nAtoms := acc.nAtoms ++ uniq'.map fun t => tl'.count t
    forces := acc.forces ++ ids.filterMap (force[·]?)
    atomtype := acc.atomtype + uniq'.length }

/-- `permute_atoms_with_spins(st, elements_string, force)` (`dataset_utils.py` 94-156). -/
def permuteSpins [CommRing K] (argsort : List ℕ → List ℕ) (st : Structure K)
    (elems : List String) (force : List (V3 K)) : Except Err (Structure K × List (V3 K)) := do
  let acc := (fromkeys elems).foldl (spinStep argsort st force) {}
  let z : V3 K := ⟨0, 0, 0⟩
  let stNew ← Structure.mk' st.axis (fillTo st.positions.length z acc.positions) acc.nAtoms
    acc.elements (fillTo st.types.length 0 acc.types)
  return (stNew, fillTo force.length z acc.forces)

end Verif.AtomOrder
