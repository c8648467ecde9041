import Verif.Model.Py
import Mathlib.Data.Real.Sqrt
import Mathlib.LinearAlgebra.Matrix.NonsingularInverse

/-!
# Polynomial fits of thermodynamic properties

`/repo/src/pypolymlp/calculator/utils/fit_utils.py` 12-175 (`loocv`, `Polyfit`).

Real arithmetic.  `np.linalg.solve` raises an exception exactly if the determinant is zero, and a score with a
division by zero (`nan` or `inf` in numpy) is no score.
-/

namespace Verif.Polyfit

/-- The flags of a fit. -/
structure Flags where
  intercept : Bool
  firstOrder : Bool
  addSqrt : Bool
  weightBegin : Bool
  weightEnd : Bool
  deriving DecidableEq

/-- The powers `np.arange(order, range_end, -1)` (`fit_utils.py` 137-140). -/
def powers (order : ℕ) (f : Flags) : List ℕ :=
  ((List.range (order + 1)).reverse).filter fun p => (if f.firstOrder then 0 else 1) < p

/-- One row of `X` (`fit_utils.py` 135-144). -/
noncomputable def features (order : ℕ) (f : Flags) (x : ℝ) : List ℝ :=
  (if f.addSqrt then [Real.sqrt x] else []) ++ (powers order f).map (fun p => x ^ p) ++ (if f.intercept then [1] else [])

/-- The number of columns of `X`. -/
def nFeat (order : ℕ) (f : Flags) : ℕ :=
  (if f.addSqrt then 1 else 0) + (powers order f).length + (if f.intercept then 1 else 0)

/-- `X` (`fit_utils.py` 135-144). -/
noncomputable def design {n : ℕ} (x : Fin n → ℝ) (order : ℕ) (f : Flags) : Matrix (Fin n) (Fin (nFeat order f)) ℝ :=
  fun i j => (features order f (x i)).getD j.val 0

/-- `weight_vals` (`fit_utils.py` 146-157). -/
noncomputable def weights (n : ℕ) (f : Flags) (i : Fin n) : ℝ :=
  let w : ℝ := if f.weightBegin then
    (if i.val = 0 then 5 ^ 2 else if i.val = 1 then 4 ^ 2 else if i.val = 2 then 3 ^ 2
      else if i.val = 3 then 2 ^ 2 else 1) else 1
  if f.weightEnd then
    (if i.val + 1 = n then 5 ^ 2 else if i.val + 2 = n then 4 ^ 2 else if i.val + 3 = n then 3 ^ 2
      else if i.val + 4 = n then 2 ^ 2 else w) else w

/-- `X.T @ W @ X`. -/
noncomputable def gram {n p : ℕ} (w : Fin n → ℝ) (X : Matrix (Fin n) (Fin p) ℝ) : Matrix (Fin p) (Fin p) ℝ :=
  X.transpose * Matrix.diagonal w * X

open Classical in
/-- `_fit_single` (`fit_utils.py` 124-172): the coefficients, or `none` if the solver failed. -/
noncomputable def fitSingle {n : ℕ} (x y : Fin n → ℝ) (order : ℕ) (f : Flags) :
    Except Err (Option (Fin (nFeat order f) → ℝ)) :=
  if (f.weightBegin ∨ f.weightEnd) ∧ n < 4 then .error .indexError
  else
    let X := design x order f
    let w := weights n f
    if (gram w X).det = 0 then .ok none
    else .ok (some ((gram w X)⁻¹.mulVec ((X.transpose * Matrix.diagonal w).mulVec y)))

/-- The diagonal of `X @ inv(X.T @ X) @ X.T` (`fit_utils.py` 15). -/
noncomputable def leverage {n p : ℕ} (X : Matrix (Fin n) (Fin p) ℝ) (i : Fin n) : ℝ :=
  (X * (X.transpose * X)⁻¹ * X.transpose) i i

open Classical in
/-- `loocv` (`fit_utils.py` 12-18). -/
noncomputable def loocv {n p : ℕ} (X : Matrix (Fin n) (Fin p) ℝ) (y pred : Fin n → ℝ) : Option ℝ :=
  if ∃ i, leverage X i = 1 then none
  else some (Real.sqrt ((∑ i, ((pred i - y i) / (1 - leverage X i)) ^ 2) / n))

/-- One step of the loop over candidates (`fit_utils.py` 77-91).  The state is the best score and its candidate. -/
noncomputable def tryOne {n : ℕ} (x y : Fin n → ℝ) (f : Flags) (best : ℝ × Option (Bool × ℕ)) (c : Bool × ℕ) :
    Except Err (ℝ × Option (Bool × ℕ)) := do
  let r ← fitSingle x y c.2 { f with addSqrt := c.1 }
  pure (match r with
    | none => best
    | some co =>
      match loocv (design x c.2 { f with addSqrt := c.1 }) y ((design x c.2 { f with addSqrt := c.1 }).mulVec co) with
      | none => best
      | some cv => if cv < best.1 then (cv, some c) else best)

/-- The orders to try (`fit_utils.py` 70). -/
def orderList (order : Option ℕ) (maxOrder : ℕ) : List ℕ :=
  match order with
  | none => (List.range (maxOrder + 1)).filter fun k => 2 ≤ k
  | some o => [o]

/-- Whether to try the square root (`fit_utils.py` 71). -/
def sqrtList (sqrt : Option Bool) : List Bool :=
  match sqrt with
  | none => [true, false]
  | some s => [s]

/-- The choice among candidates (`fit_utils.py` 72-91). -/
noncomputable def chooseFrom {n : ℕ} (x y : Fin n → ℝ) (f : Flags) (sqrts : List Bool) (orders : List ℕ) :
    Except Err (Option (Bool × ℕ)) :=
  match sqrts, orders with
  | [s], [o] => .ok (some (s, o))
  | _, _ =>
    ((sqrts.flatMap fun s => orders.map fun o => (s, o)).foldlM (tryOne x y f) ((10 : ℝ) ^ 10, none)).map Prod.snd

/-- The choice of order and square root (`fit_utils.py` 70-91).  `none` for the order or the square root means
automatic. -/
noncomputable def choose {n : ℕ} (x y : Fin n → ℝ) (order : Option ℕ) (maxOrder : ℕ) (f : Flags) (sqrt : Option Bool) :
    Except Err (Option (Bool × ℕ)) := chooseFrom x y f (sqrtList sqrt) (orderList order maxOrder)

/-- `_adjust_coeffs` (`fit_utils.py` 107-122). -/
def adjustCoeffs (coeffs : List ℝ) (intercept firstOrder : Bool) : List ℝ :=
  let c := if intercept then coeffs.getLast?.getD 0 else 0
  let poly := if intercept then coeffs.dropLast else coeffs
  (if firstOrder then poly else poly ++ [0]) ++ [c]

/-- A fitted model. -/
structure Fitted where
  coeffs : List ℝ
  order : ℕ
  addSqrt : Bool

/-- `fit` (`fit_utils.py` 57-105). -/
noncomputable def fit {n : ℕ} (x y : Fin n → ℝ) (order : Option ℕ) (maxOrder : ℕ) (f : Flags) (sqrt : Option Bool) :
    Except Err Fitted := do
  let best ← choose x y order maxOrder f sqrt
  match best with
  | none => .error .typeError
  | some (s, o) => do
    let r ← fitSingle x y o { f with addSqrt := s }
    match r with
    | none => .error .typeError
    | some co => .ok ⟨adjustCoeffs (List.ofFn co) f.intercept f.firstOrder, o, s⟩

/-- `np.polyval`. -/
def polyval (c : List ℝ) (x : ℝ) : ℝ := c.foldl (fun acc a => acc * x + a) 0

/-- `eval` (`fit_utils.py` 33-39). -/
noncomputable def Fitted.eval (m : Fitted) (x : ℝ) : ℝ :=
  polyval (if m.addSqrt then m.coeffs.drop 1 else m.coeffs) x +
    (if m.addSqrt then m.coeffs.headD 0 * Real.sqrt x else 0)

/-- The coefficients of the derivative (`fit_utils.py` 45-46). -/
def derivCoeffs (c : List ℝ) : List ℝ := (c.zipIdx.map fun p => p.1 * ((c.length - 1 - p.2 : ℕ) : ℝ)).dropLast

/-- `eval_derivative` (`fit_utils.py` 41-53) for one value, with `np.power(x, -0.5)` for positive `x`. -/
noncomputable def Fitted.evalDerivative (m : Fitted) (x : ℝ) : ℝ :=
  polyval (derivCoeffs (if m.addSqrt then m.coeffs.drop 1 else m.coeffs)) x +
    (if m.addSqrt then 1 / 2 * m.coeffs.headD 0 * (1 / Real.sqrt (if |x| < 1 / 10 ^ 10 then 1 else x)) else 0)

end Verif.Polyfit
