import Verif.Model.Dataset
import Mathlib.Algebra.Field.Defs
import Mathlib.Algebra.Order.Field.Basic

/-!
# Building the normal equations: in memory and batch by batch

`/repo/src/pypolymlp/mlp_dev/core/utils_sequential.py` 62-123, `data_sequential.py` 25-156,
`data_standard.py` 16-77, `utils_scales.py` 6-40, `standard/solvers.py` 60-64.
-/

namespace Verif.Sequential
variable {p : ℕ} {K : Type}

/-- One row of a design matrix with `p` features. -/
abbrev Vec (p : ℕ) (K : Type) := Fin p → K
/-- A `p × p` matrix. -/
abbrev Mat (p : ℕ) (K : Type) := Fin p → Fin p → K

/-- One data row before weighting: features, regression weight, target value, and whether the row
is an energy row (these come first in `x`, `data_standard.py` 43, `data_sequential.py` 129-130).
The weights are computed element by element from the data (`utils_weights.py` 10-47), so they do
not depend on the batch. -/
structure Row (p : ℕ) (K : Type) where
  x : Vec p K
  w : K
  y : K
  isE : Bool

/-- `apply_weights` on one row (`utils_weights.py` 76-98): `x *= w`, `y = w * y`. -/
def Row.weighted [Mul K] (r : Row p K) : Vec p K × K := (fun a => r.x a * r.w, r.w * r.y)

/-- `(x.T @ x)[a, b]`. -/
def xtxOf [Semiring K] (X : List (Vec p K × K)) : Mat p K := fun a b => (X.map fun r => r.1 a * r.1 b).sum
/-- `(x.T @ y)[a]`. -/
def xtyOf [Semiring K] (X : List (Vec p K × K)) : Vec p K := fun a => (X.map fun r => r.1 a * r.2).sum
/-- `y @ y`. -/
def yyOf [Semiring K] (X : List (Vec p K × K)) : K := (X.map fun r => r.2 * r.2).sum

/-- `sum_array` (`utils_sequential.py` 62-67). -/
def sumArray {α : Type} [Add α] (a : Option α) (b : α) : α :=
  match a with
  | none => b
  | some a => a + b

/-- Begin/end pairs of the feature blocks (`utils_sequential.py` 81-82 and 115-116).
`n_features // 0` raises `ZeroDivisionError`. -/
def blockIds (p nBatch : ℕ) : Except Err (List (ℕ × ℕ)) :=
  if nBatch = 0 then .error .zeroDivision
  else (Dataset.batchSlice p (max 100 (p / nBatch))).map fun be => be.1.zip be.2

/-- Index `a` lies in the half-open block. -/
def inBlock (a : Fin p) (blk : ℕ × ℕ) : Bool := decide (blk.1 ≤ a.val) && decide (a.val < blk.2)

/-- `xtx[r0:r1, c0:c1] += x[:, r0:r1].T @ x[:, c0:c1]` (`utils_sequential.py` 86-90). -/
def addBlock [Semiring K] (X : List (Vec p K × K)) (r c : ℕ × ℕ) (m : Mat p K) : Mat p K :=
  fun a b => if inBlock a r && inBlock b c then m a b + xtxOf X a b else m a b

/-- `sum_large_xtx` (`utils_sequential.py` 70-91). -/
def sumLargeXtx [Semiring K] (xtx : Option (Mat p K)) (X : List (Vec p K × K)) (nBatch : ℕ) :
    Except Err (Mat p K) := do
  let ids ← blockIds p nBatch
  let m0 := xtx.getD (fun _ _ => 0)
  return ids.zipIdx.foldl (fun m ri =>
    ids.zipIdx.foldl (fun m cj => if ri.2 ≤ cj.2 then addBlock X ri.1 cj.1 m else m) m) m0

/-- `sum_xtx` (`utils_sequential.py` 94-109). -/
def sumXtx [Semiring K] (xtx : Option (Mat p K)) (X : List (Vec p K × K)) (threshold nBatch : ℕ) :
    Except Err (Mat p K) :=
  if p < threshold then .ok (sumArray xtx (xtxOf X)) else sumLargeXtx xtx X nBatch

/-- `xtx[r0:r1, c0:c1] = xtx[c0:c1, r0:r1].T` (`utils_sequential.py` 120-122). -/
def mirrorBlock (r c : ℕ × ℕ) (m : Mat p K) : Mat p K :=
  fun a b => if inBlock a r && inBlock b c then m b a else m a b

/-- `symmetrize_xtx` (`utils_sequential.py` 112-123). -/
def symmetrizeXtx (m : Mat p K) (nBatch : ℕ) : Except Err (Mat p K) := do
  let ids ← blockIds p nBatch
  return ids.zipIdx.foldl (fun m ri =>
    ids.zipIdx.foldl (fun m cj => if ri.2 > cj.2 then mirrorBlock ri.1 cj.1 m else m) m) m

/-- The accumulated fields of `PolymlpDataXY` (`data_utils.py` 23-38). -/
structure Acc (p : ℕ) (K : Type) where
  xtx : Option (Mat p K) := none
  xty : Option (Vec p K) := none
  xeSum : Option (Vec p K) := none
  xeSqSum : Option (Vec p K) := none
  ySq : K
  nData : ℕ := 0

/-- Column sums of the (unweighted) energy rows. -/
def eSum [Semiring K] (rows : List (Row p K)) : Vec p K :=
  fun a => ((rows.filter (·.isE)).map fun r => r.x a).sum
/-- Column sums of squares of the (unweighted) energy rows. -/
def eSqSum [Semiring K] (rows : List (Row p K)) : Vec p K :=
  fun a => ((rows.filter (·.isE)).map fun r => r.x a * r.x a).sum

/-- `_compute_products_single_batch` (`data_sequential.py` 97-156).  `rows` is the batch's design
matrix (features of the sliced data set).  `needScales` is `scales is None`. -/
def batchStep [Semiring K] (threshold nBatch : ℕ) (needScales : Bool) (s : Acc p K)
    (rows : List (Row p K)) : Except Err (Acc p K) := do
  let X := rows.map Row.weighted
  let xtx ← sumXtx s.xtx X threshold nBatch
  return { xtx := some xtx
           xty := some (sumArray s.xty (xtyOf X))
           xeSum := if needScales then some (sumArray s.xeSum (eSum rows)) else s.xeSum
           xeSqSum := if needScales then some (sumArray s.xeSqSum (eSqSum rows)) else s.xeSqSum
           ySq := s.ySq + yyOf X
           nData := s.nData + rows.length }

/-- `variance` of `compute_scales` (`utils_scales.py` 31-32): negative values are replaced by 1. -/
def seqVariance [Field K] [LinearOrder K] (xe xe2 : Vec p K) (n : ℕ) : Vec p K := fun a =>
  let v := xe2 a / (n : K) - xe a / (n : K) * (xe a / (n : K))
  if v < 0 then 1 else v

/-- `round_scales` (`utils_scales.py` 6-18): `zero_ids` and the patched scales. -/
def roundScales [Field K] [LinearOrder K] (scales : Vec p K) (includeForce : Bool) (thr : K) :
    Vec p K × (Fin p → Bool) :=
  let z : Fin p → Bool := fun a =>
    if includeForce then decide (|scales a| < thr) else decide (|scales a| < thr * thr)
  (fun a => if z a then 1 else scales a, z)

/-- What the solver gets: `X^T X`, `X^T y`, `y^T y`, number of rows, scales. -/
structure Normal (p : ℕ) (K : Type) where
  xtx : Mat p K
  xty : Vec p K
  ySq : K
  nData : ℕ
  scales : Vec p K

/-- `if n_features > threshold: xtx = symmetrize_xtx(...)` (`data_sequential.py` 72-73). -/
def maybeSymmetrize (threshold nBatch : ℕ) (xtx : Mat p K) : Except Err (Mat p K) :=
  if p > threshold then symmetrizeXtx xtx nBatch else .ok xtx

/-- `calc_xtx_xty` (`data_sequential.py` 25-94) on the batches of all data sets, in the order they
are processed.  `sqrt` is `np.sqrt`; `scales = some _` for test data.  `n_data` in line 75 is the
number of structures, i.e. of energy rows.  An empty data-set list leaves `xtx = None`, on which
`symmetrize_xtx`/indexing fails (`TypeError`). -/
def calcXtxXty [Field K] [LinearOrder K] (sqrt : K → K) (threshold nBatch : ℕ) (includeForce : Bool)
    (thr : K) (scales : Option (Vec p K)) (batches : List (List (Row p K))) :
    Except Err (Normal p K) := do
  let s ← batches.foldlM (batchStep threshold nBatch scales.isNone) ({ ySq := 0 } : Acc p K)
  let xtx0 ← orErr .typeError s.xtx
  let xty0 ← orErr .typeError s.xty
  let xtx ← maybeSymmetrize threshold nBatch xtx0
  let n := (batches.map fun b => (b.filter (·.isE)).length).sum
  let sc := scales.getD fun a =>
    sqrt (seqVariance (s.xeSum.getD fun _ => 0) (s.xeSqSum.getD fun _ => 0) n a)
  let (sc, z) := roundScales sc includeForce thr
  return { xtx := fun a b => (if z a || z b then 0 else xtx a b) / sc a / sc b
           xty := fun a => (if z a then 0 else xty0 a) / sc a
           ySq := s.ySq
           nData := s.nData
           scales := sc }

/-- `np.std(x[:ne], axis=0)` (`data_standard.py` 43): root of the mean squared deviation. -/
def stdVariance [Field K] (rows : List (Row p K)) : Vec p K := fun a =>
  let E := rows.filter (·.isE)
  let m := (E.map fun r => r.x a).sum / (E.length : K)
  (E.map fun r => (r.x a - m) * (r.x a - m)).sum / (E.length : K)

/-- `calc_xy` (`data_standard.py` 16-77) followed by the products of `solver_ridge`
(`standard/solvers.py` 63-64): zero and scale the columns first, then weight the rows. -/
def calcXY [Field K] [LinearOrder K] (sqrt : K → K) (includeForce : Bool) (thr : K)
    (scales : Option (Vec p K)) (rows : List (Row p K)) : Normal p K :=
  let sc := scales.getD fun a => sqrt (stdVariance rows a)
  let (sc, z) := roundScales sc includeForce thr
  let X := rows.map fun r => (Row.weighted { r with x := fun a => (if z a then 0 else r.x a) / sc a })
  { xtx := xtxOf X, xty := xtyOf X, ySq := yyOf X, nData := rows.length, scales := sc }

end Verif.Sequential
