import Mathlib.Algebra.BigOperators.Fin
import Mathlib.Algebra.Field.Defs
import Mathlib.Algebra.Order.Field.Basic

/-! # Specification of least squares with a ridge penalty

A data set is a list of rows (features, target); a linear model is a coefficient vector. -/

namespace Verif.LSQ
variable {p : ℕ} {K : Type}

/-- Prediction of the model `c` for the features `x`. -/
def predict [Semiring K] (c x : Fin p → K) : K := ∑ a, x a * c a

/-- Mean squared deviation between targets and predictions. -/
def meanSq [Field K] (rows : List ((Fin p → K) × K)) (c : Fin p → K) : K :=
  (rows.map fun r => (r.2 - predict c r.1) ^ 2).sum / rows.length

/-- `A + α I`. -/
def ridge [Semiring K] (A : Fin p → Fin p → K) (α : K) : Fin p → Fin p → K :=
  fun i j => A i j + if i = j then α else 0

/-- `c` solves `A c = b`. -/
def Solves [Semiring K] (A : Fin p → Fin p → K) (b c : Fin p → K) : Prop :=
  ∀ i, ∑ j, A i j * c j = b i

/-- The gradient of `Σ (y − x·c)² + α |c|²` with respect to coefficient `i`, halved. -/
def gradient [Ring K] (rows : List ((Fin p → K) × K)) (α : K) (c : Fin p → K) (i : Fin p) : K :=
  (rows.map fun r => (predict c r.1 - r.2) * r.1 i).sum + α * c i

/-- Penalised sum of squares. -/
def objective [Ring K] (rows : List ((Fin p → K) × K)) (α : K) (c : Fin p → K) : K :=
  (rows.map fun r => (r.2 - predict c r.1) ^ 2).sum + α * ∑ a, c a ^ 2

/-- Squared norm of the residual `b − (A + α I) c`. -/
def resSq [Ring K] (A : Fin p → Fin p → K) (b : Fin p → K) (α : K) (c : Fin p → K) : K :=
  ∑ i, (b i - ∑ j, ridge A α i j * c j) ^ 2

end Verif.LSQ
