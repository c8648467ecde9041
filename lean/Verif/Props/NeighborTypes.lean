import Verif.Model.NeighborTypes
import Verif.Props.Neighbor

/-!
# C22: neighbours by type
-/

namespace Verif.NeighborTypes
open Verif.Neighbor

theorem modify_fold {E F : Type} (ty : E → ℕ) (g : E → F) (l : List E) (tb : List (List F)) (t : ℕ) (ht : t < tb.length) :
    (l.foldl (fun tb e => tb.modify (ty e) (· ++ [g e])) tb)[t]? = some (tb[t] ++ (l.filter fun e => ty e = t).map g) := by
  induction l generalizing tb with
  | nil => simp [ht]
  | cons e l ih =>
    rw [List.foldl_cons, ih _ (by simpa using ht), List.getElem_modify]
    by_cases h : ty e = t
    · simp [h]
    · simp [h]

/-- **C22 (by type).**  The arrays of a full list by type of neighbour hold, for every type in the range, the neighbours of this
type with their vectors and distances, each once and in the order of the list. -/
theorem C22_by_type (nType : ℕ) (types : List ℕ) (cutoff tol : ℝ) (trans : List (Vec ℝ)) (pos : ℕ → Vec ℝ) (n i : ℕ) (hi : i < n)
    (t : ℕ) (ht : t < nType) :
    let row := (neighborFull cutoff tol trans pos n).row i
    (byType nType types (neighborFull cutoff tol trans pos n) i)[t]? = some (row.filter fun e => types.getD e.1 0 = t) ∧
    (disByType nType types (neighborFull cutoff tol trans pos n) i)[t]? =
      some ((row.filter fun e => types.getD e.1 0 = t).map fun e => √(e.2 0 ^ 2 + e.2 1 ^ 2 + e.2 2 ^ 2)) := by
  have hlen : i < ((List.range n).map (fullRow cutoff tol trans pos n)).length := by simpa using hi
  have hr : (neighborFull cutoff tol trans pos n).row i =
      ((neighborFull cutoff tol trans pos n).range i).map fun k => (neighborFull cutoff tol trans pos n).entries.getD k (0, 0) := by
    unfold neighborFull
    rw [mkCsr_row _ _ hlen, ← mkCsr_range _ i hlen (0, 0)]
  dsimp only
  rw [hr]
  constructor
  · unfold byType
    rw [modify_fold (fun k => types.getD (neighborAtom (neighborFull cutoff tol trans pos n) k) 0)
      (fun k => (neighborAtom (neighborFull cutoff tol trans pos n) k, diff (neighborFull cutoff tol trans pos n) k)) _ _ t (by simpa using ht)]
    rw [List.filter_map]
    simp only [List.getElem_replicate, List.nil_append]
    rfl
  · unfold disByType
    rw [modify_fold (fun k => types.getD (neighborAtom (neighborFull cutoff tol trans pos n) k) 0)
      (fun k => √(r2 (diff (neighborFull cutoff tol trans pos n) k))) _ _ t (by simpa using ht)]
    rw [List.filter_map, List.map_map]
    simp only [List.getElem_replicate, List.nil_append, r2, ← pow_two]
    rfl

/-- Two atoms of different types with one neighbour each. -/
example : ∃ (types : List ℕ) (trans : List (Vec ℝ)) (pos : ℕ → Vec ℝ),
    ((neighborFull 2 1 trans pos 2).row 0).filter (fun e => types.getD e.1 0 = 1) ≠ [] := by
  refine ⟨[0, 1], [0], fun i => if i = 0 then 0 else ![3 / 2, 0, 0], ?_⟩
  apply List.ne_nil_of_mem (a := (1, ![3 / 2, 0, 0]))
  rw [List.mem_filter]
  refine ⟨(C22_full_content 2 1 _ _ 2 0 (by norm_num) 1 _).2 ⟨by norm_num, 0, by simp, by simp, ?_, ?_⟩, by simp⟩
  · simp [r2]; norm_num
  · simp [r2]; norm_num

end Verif.NeighborTypes
