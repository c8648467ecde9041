import Verif.Model.Py
import Verif.Model.NeighborCell
import Verif.Model.SschaApi
import Mathlib.Data.Finset.Sort

/-!
# Neighbours and distances of structures

`/repo/src/pypolymlp/utils/structure_neighbor.py` and `/repo/src/pypolymlp/cxx/src/compute/neighbor.cpp`.

Exact arithmetic.  The command line of the module is left out.
-/

namespace Verif.StructNeighbor

open Verif.Neighbor

/-- One index of the arrays `dis_array`, `diff_array` and `atom2_array`, which are always filled together. -/
structure Entry where
  atom : ℕ
  diff : Vec ℝ
  dis : ℝ

/-- The arrays by atom and type of neighbour. -/
abbrev Table := List (List (List Entry))

/-- `emplace_back` to the vectors at `[i][t]` (`neighbor.cpp` 44-51).  Writing to a type that is not smaller than `n_type` is
undefined; here it does nothing. -/
def push (tb : Table) (i t : ℕ) (e : Entry) : Table := tb.modify i fun row => row.modify t (· ++ [e])

open Classical in
/-- The body of the loop over translations (`neighbor.cpp` 40-54). -/
noncomputable def visit (cutoff : ℝ) (types : List ℕ) (pos : ℕ → Vec ℝ) (i j : ℕ) (tb : Table) (tr : Vec ℝ) : Table :=
  let d := pos j - pos i + tr
  if norm3 d < cutoff ∧ 1e-10 < norm3 d then
    let tb := push tb i (types.getD j 0) ⟨j, d, norm3 d⟩
    if i ≠ j then push tb j (types.getD i 0) ⟨i, -d, norm3 d⟩ else tb
  else tb

/-- The loops over atoms and translations (`neighbor.cpp` 22-57). -/
noncomputable def pairLoops (cutoff : ℝ) (types : List ℕ) (pos : ℕ → Vec ℝ) (trans : List (Vec ℝ)) (tb : Table) : Table :=
  (List.range types.length).foldl (fun tb i =>
    (List.range (i + 1)).foldl (fun tb j => trans.foldl (visit cutoff types pos i j) tb) tb) tb

/-- The constructor of `Neighbor` (`neighbor.cpp` 12-58).  The translations are those of the reduced cell, the positions are
those that were given. -/
noncomputable def neighborTable (axis : Mat) (pos : ℕ → Vec ℝ) (types : List ℕ) (nType : ℕ) (cutoff : ℝ) : Table :=
  pairLoops cutoff types pos (cellTrans axis cutoff) (List.replicate types.length (List.replicate nType []))

/-- `PolymlpStructure`: columns of the axis matrix are lattice vectors, positions are fractional. -/
structure St where
  axis : Mat
  positions : List (Vec ℝ)
  types : List ℕ
  elements : List String
  cart : Option (List (Vec ℝ)) := none

/-- `if structure.positions_cartesian is None` (`structure_neighbor.py` 41-42, 58-59). -/
def St.withCart (s : St) : St :=
  match s.cart with
  | some _ => s
  | none => { s with cart := some (s.positions.map (toCartesian s.axis)) }

/-- The Cartesian position of an atom. -/
def St.pos (s : St) (i : ℕ) : Vec ℝ := ((s.cart.getD []).getD i 0)

/-- `len(set(structure.types))` (`structure_neighbor.py` 44). -/
def St.nType (s : St) : ℕ := s.types.eraseDups.length

/-- The object `Neighbor` of a structure and the structure afterwards (`structure_neighbor.py` 41-51). -/
noncomputable def neighbors (s : St) (cutoff : ℝ) : Table × St :=
  (neighborTable s.axis s.withCart.pos s.types s.nType cutoff, s.withCart)

/-- `compute_neighbor_list` (`structure_neighbor.py` 39-53). -/
noncomputable def neighborList (s : St) (cutoff : ℝ) : List (List (List ℝ)) × St :=
  ((neighbors s cutoff).1.map fun row => row.map fun l => l.map (·.dis), s.withCart)

/-- `min` of a list. -/
noncomputable def minOf : List ℝ → Except Err ℝ
  | [] => .error .valueError
  | a :: l => .ok (l.foldl min a)

/-- `np.min(np.linalg.norm(structure.axis, axis=0))` (`structure_neighbor.py` 61). -/
noncomputable def shortestAxis (a : Mat) : ℝ :=
  min (min (norm3 fun r => a r 0) (norm3 fun r => a r 1)) (norm3 fun r => a r 2)

/-- `find_minimum_distance` for each atom (`structure_neighbor.py` 56-74). -/
noncomputable def minimumDistances (s : St) : Except Err (List ℝ) :=
  ((neighborList s (shortestAxis s.axis + 1e-5)).1.flatMap fun d1 => d1).mapM minOf

/-- `find_minimum_distance` (`structure_neighbor.py` 56-75). -/
noncomputable def minimumDistance (s : St) : Except Err ℝ := do
  let l ← minimumDistances s
  minOf l

/-- `get_coordination_numbers` (`structure_neighbor.py` 78-80). -/
def coordinationNumbers (d : List (List (List ℝ))) : List ℕ := d.flatMap fun d1 => d1.map List.length

/-- `tuple(sorted([type1, type2]))` (`structure_neighbor.py` 26). -/
def sortedPair (a b : ℕ) : ℕ × ℕ := if a ≤ b then (a, b) else (b, a)

/-- `distances_dict[key].extend(dis2)` of a `defaultdict(list)` (`structure_neighbor.py` 27). -/
def extend (d : List ((ℕ × ℕ) × List ℝ)) (k : ℕ × ℕ) (v : List ℝ) : List ((ℕ × ℕ) × List ℝ) :=
  match d with
  | [] => [(k, v)]
  | x :: d => if x.1 = k then (k, x.2 ++ v) :: d else x :: extend d k v

/-- The first dictionary (`structure_neighbor.py` 22-27). -/
def byTypes (types : List ℕ) (dis : List (List (List ℝ))) : List ((ℕ × ℕ) × List ℝ) :=
  (dis.zipIdx.flatMap fun x => x.1.zipIdx.map fun y => (sortedPair (types.getD x.2 0) y.2, y.1)).foldl
    (fun d kv => extend d kv.1 kv.2) []

/-- Assignment to a key of a dictionary. -/
def assign {α β : Type} [DecidableEq α] (d : List (α × β)) (k : α) (v : β) : List (α × β) :=
  match d with
  | [] => [(k, v)]
  | x :: d => if x.1 = k then (k, v) :: d else x :: assign d k v

/-- `np.round(v, decimals)`. -/
noncomputable def roundTo (decimals : ℕ) (x : ℝ) : ℝ := SschaApi.rint (x * 10 ^ decimals) / 10 ^ decimals

open Classical in
/-- `np.unique(np.round(v, decimals))` (`structure_neighbor.py` 32). -/
noncomputable def uniqueRounded (decimals : ℕ) (v : List ℝ) : List ℝ :=
  (v.map (roundTo decimals)).toFinset.sort (· ≤ ·)

/-- `dict(set([(t, ele) ...]))` (`structure_neighbor.py` 18-20), where `order` is the order in which the set is read. -/
def elementMap (order : List (ℕ × String) → List (ℕ × String)) (s : St) : List (ℕ × String) :=
  (order (s.types.zip s.elements).eraseDups).foldl (fun d x => assign d x.1 x.2) []

/-- The element of a type, `element_map[t]` (`structure_neighbor.py` 31). -/
def elementOf (m : List (ℕ × String)) (t : ℕ) : Except Err String := orErr .keyError (m.lookup t)

/-- The second dictionary (`structure_neighbor.py` 29-35). -/
noncomputable def byElements (m : List (ℕ × String)) (decimals : ℕ) :
    List ((ℕ × ℕ) × List ℝ) → List ((String × String) × List ℝ) → Except Err (List ((String × String) × List ℝ))
  | [], acc => .ok acc
  | (k, v) :: rest, acc => do
    let a ← elementOf m k.1
    let b ← elementOf m k.2
    byElements m decimals rest (assign acc (a, b) (uniqueRounded decimals v))

/-- `find_active_distances` (`structure_neighbor.py` 13-36). -/
noncomputable def activeDistances (order : List (ℕ × String) → List (ℕ × String)) (s : St) (cutoff : ℝ) (decimals : ℕ) :
    Except Err (List ((String × String) × List ℝ)) :=
  byElements (elementMap order s) decimals (byTypes s.types (neighborList s cutoff).1) []

end Verif.StructNeighbor
