import Mathlib.Algebra.Order.AbsoluteValue.Basic
import Mathlib.Algebra.Order.Field.Basic
import Mathlib.Data.Matrix.Mul

/-!
# What a line search and a minimizer promise
-/

namespace Verif.Spec
variable {K : Type} [Field K] [LinearOrder K]

/-- The strong Wolfe conditions for the step `a`: enough decrease and a small slope. -/
structure StrongWolfe (phi derphi : K → K) (phi0 derphi0 c1 c2 a : K) : Prop where
  decrease : phi a ≤ phi0 + c1 * a * derphi0
  slope : |derphi a| ≤ c2 * |derphi0|

/-- The values get smaller from each point of a list to the next. -/
def Descending {X : Type} (f : X → K) : List X → Prop
  | [] => True
  | [_] => True
  | x :: y :: l => f y < f x ∧ Descending f (y :: l)

/-- A line search in `n` dimensions keeps its promise at the point `x` with the direction `p`: it goes only
downhill, by a positive step that meets the strong Wolfe conditions, and returns the value and the gradient
there. -/
structure GoodStep {n : ℕ} (f : (Fin n → K) → K) (grad : (Fin n → K) → Fin n → K) (c1 c2 : K)
    (x p : Fin n → K) (a fval : K) (g' : Fin n → K) : Prop where
  down : grad x ⬝ᵥ p < 0
  pos : 0 < a
  value : fval = f (x + a • p)
  gradient : g' = grad (x + a • p)
  wolfe : StrongWolfe (fun t => f (x + t • p)) (fun t => grad (x + t • p) ⬝ᵥ p) (f x) (grad x ⬝ᵥ p) c1 c2 a

end Verif.Spec
