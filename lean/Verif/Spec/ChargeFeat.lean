import Mathlib.Data.Real.Basic
import Mathlib.Data.Complex.Basic
import Mathlib.Algebra.BigOperators.Group.Finset.Basic

/-!
# Features of charges

README of `cxx/src/dev/charge`: the features satisfy the relationship `q_ij = -q_ji`.
-/

namespace Verif.Spec.ChargeFeat

/-- What flows from atom `i` to atom `j` in all neighbours of `i`, given the flow `q` of each neighbour. -/
noncomputable def flow {N : Type} (atom2 : N → ℕ) (nb : ℕ → List N) (q : ℕ → N → ℝ) (i j : ℕ) : ℝ :=
  (((nb i).filter fun b => atom2 b = j).map (q i)).sum

/-- The net flow from atom `i` to atom `j`. -/
noncomputable def net {N : Type} (atom2 : N → ℕ) (nb : ℕ → List N) (q : ℕ → N → ℝ) (i j : ℕ) : ℝ :=
  flow atom2 nb q i j - flow atom2 nb q j i

/-- The number of rows before structure `i`. -/
def rowsBefore (sizes : List ℕ) (i : ℕ) : ℕ := (sizes.take i).sum

end Verif.Spec.ChargeFeat
