import Mathlib.Data.List.Basic
import Mathlib.Data.List.Nodup

/-! # What the columns of a polynomial model are

`V g t` says that the linear feature `g` exists for atoms of type `t`. -/

namespace Verif.Spec

/-- `cols` lists the columns of the design matrix: first every one of the `nLin` linear features,
then every product of two or three of the features `sel` (an unordered selection with repetition,
written in non-decreasing order) that exists for some type of atom; each of them exactly once. -/
structure Enumerates (V : ℕ → ℕ → Prop) (nLin : ℕ) (sel : ℕ → Prop) (maxp : ℕ)
    (cols : List (List ℕ)) : Prop where
  nodup : cols.Nodup
  linear : ∀ g < nLin, cols[g]? = some [g]
  mem : ∀ c : List ℕ, c ∈ cols ↔ (∃ g < nLin, c = [g]) ∨
    (2 ≤ c.length ∧ c.length ≤ maxp ∧ c.length ≤ 3 ∧ c.Pairwise (· ≤ ·) ∧ (∀ g ∈ c, sel g) ∧
      ∃ t, ∀ g ∈ c, V g t)

/-- The `terms` evaluated for an atom of type `t`, with the list `ids` of its linear features: the
columns whose factors all exist for the type, in order, and the positions of the factors. -/
structure TermsOf (V : ℕ → ℕ → Prop) (nLin : ℕ) (cols : List (List ℕ)) (t : ℕ) (ids : List ℕ)
    (terms : List (ℕ × List ℕ)) : Prop where
  ids_increasing : ids.Pairwise (· < ·)
  ids_mem : ∀ g, g ∈ ids ↔ g < nLin ∧ V g t
  once : (terms.map (·.1)).Pairwise (· < ·)
  columns : ∀ k, k ∈ terms.map (·.1) ↔ ∃ c, cols[k]? = some c ∧ ∀ g ∈ c, V g t
  factors : ∀ e ∈ terms, ∃ c, cols[e.1]? = some c ∧ e.2.map (fun k => ids[k]?) = c.map some

end Verif.Spec
