import Verif.Model.Py

/-!
# Selection of optimal potentials in a grid search

`/repo/src/pypolymlp/utils/grid_optimal.py` 32-68.
-/

namespace Verif.GridOptimal
variable {K α : Type}

/-- One row of `d_array`: `[time1, time_mp, rmse_e, rmse_f]` and the remaining columns
(`grid_optimal.py` 140). -/
structure Entry (K α : Type) where
  time : K
  timeMp : K
  rmseE : K
  rmseF : K
  rest : α
  deriving DecidableEq, Repr

/-- `d2[0] < d1[0] and d2[2] < d1[2] and d2[3] < d1[3]` (`grid_optimal.py` 62). -/
def better [LT K] [DecidableLT K] (d2 d1 : Entry K α) : Bool :=
  decide (d2.time < d1.time) && decide (d2.rmseE < d1.rmseE) && decide (d2.rmseF < d1.rmseF)

/-- `_find_lower_convex(data_values)` (`grid_optimal.py` 57-68): the indices that are kept. -/
def findLowerConvex [LT K] [DecidableLT K] (data : List (Entry K α)) : List ℕ :=
  (data.zipIdx.filter fun p1 =>
    !(data.zipIdx.any fun p2 => decide (p1.2 ≠ p2.2) && better p2.1 p1.1)).map (·.2)

/-- `_find_convex_mlps(d_array)` (`grid_optimal.py` 32-54).  `hull` stands for
`np.unique(ConvexHull(d_target).simplices)` (scipy, lines 45-46): a function from the rows to the
indices of hull vertices.  Lines 48-53 select the rows, apply the filter and the threshold. -/
def findConvexMlps [LT K] [DecidableLT K] (hull : List (Entry K α) → List ℕ) (threshold : K)
    (data : List (Entry K α)) : Except Err (List (Entry K α)) := do
  let values ← gather data (hull data)
  let rows ← gather values (findLowerConvex values)
  return rows.filter fun d => decide (d.rmseE < threshold)

end Verif.GridOptimal
