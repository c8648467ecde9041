import Mathlib.Data.List.Perm.Basic
import Mathlib.Algebra.Group.Basic

/-! # What a complete neighbour list is -/

namespace Verif.Spec

/-- Row `i` of a half list together with the reversed entries of all rows that point to `i`. -/
def completeRow {V : Type} [Neg V] (rows : List (List (ℕ × V))) (i : ℕ) : List (ℕ × V) :=
  (rows[i]?.getD []) ++
    (List.range rows.length).flatMap fun m =>
      (rows[m]?.getD []).filterMap fun e => if e.1 = i then some (m, -e.2) else none

end Verif.Spec
