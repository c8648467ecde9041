import Verif.Model.Neighbor
import Verif.Model.NeighborCell

/-!
# Neighbours by type

The getters of `/repo/src/pypolymlp/cxx/src/compute/neighbor_full.cpp` that `cxx/wrapper/api_neighbor.py` (`NeighborFull`) calls.
Writing to a type that is not smaller than `n_type` is undefined; here it does nothing.
-/

namespace Verif.NeighborTypes
open Verif.Neighbor

/-- The loop of `get_diff_array` and `get_atom2_array` for one atom (`neighbor_full.cpp` 101-131): both arrays are filled
together. -/
noncomputable def byType (nType : ℕ) (types : List ℕ) (c : Csr (ℕ × Vec ℝ)) (i : ℕ) : List (List (ℕ × Vec ℝ)) :=
  (c.range i).foldl (fun tb k =>
    let j := neighborAtom c k
    let jtype := types.getD j 0
    tb.modify jtype (· ++ [(j, diff c k)])) (List.replicate nType [])

/-- The loop of `get_dis_array` for one atom (`neighbor_full.cpp` 84-98). -/
noncomputable def disByType (nType : ℕ) (types : List ℕ) (c : Csr (ℕ × Vec ℝ)) (i : ℕ) : List (List ℝ) :=
  (c.range i).foldl (fun tb k =>
    let j := neighborAtom c k
    let dis := √(r2 (diff c k))
    let jtype := types.getD j 0
    tb.modify jtype (· ++ [dis])) (List.replicate nType [])

end Verif.NeighborTypes
