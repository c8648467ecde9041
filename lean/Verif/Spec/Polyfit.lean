import Verif.Model.Polyfit

/-!
# Least squares and leave-one-out scores

Specification side.
-/

namespace Verif.Spec

/-- The functions a fit chooses from: polynomials of at most the given order, with or without the constant and the
linear term, and possibly a multiple of the square root. -/
def Family (order : ℕ) (intercept firstOrder sqrt : Bool) (g : ℝ → ℝ) : Prop :=
  ∃ (s : ℝ) (a : ℕ → ℝ), (sqrt = false → s = 0) ∧ (intercept = false → a 0 = 0) ∧ (firstOrder = false → a 1 = 0) ∧
    ∀ x, g x = s * Real.sqrt x + ∑ k ∈ Finset.range (order + 1), a k * x ^ k

/-- `g` is a best fit in a family, with weights. -/
def BestFit {n : ℕ} (F : (ℝ → ℝ) → Prop) (x y w : Fin n → ℝ) (g : ℝ → ℝ) : Prop :=
  F g ∧ ∀ g', F g' → ∑ k, w k * (g (x k) - y k) ^ 2 ≤ ∑ k, w k * (g' (x k) - y k) ^ 2

/-- A leave-one-out score: the root mean square of the errors at the points that were left out. -/
def LeaveOneOut {n : ℕ} (F : (ℝ → ℝ) → Prop) (x y w : Fin n → ℝ) (score : ℝ) : Prop :=
  ∃ g : Fin n → ℝ → ℝ, (∀ i, BestFit F x y (fun k => if k = i then 0 else w k) (g i)) ∧
    score = Real.sqrt ((∑ i, (g i (x i) - y i) ^ 2) / n)

/-- The functions of a family are determined by their values on all points but one. -/
def Determined {n : ℕ} (F : (ℝ → ℝ) → Prop) (x : Fin n → ℝ) : Prop :=
  ∀ i, ∀ g, F g → (∀ k, k ≠ i → g (x k) = 0) → ∀ t, g t = 0

/-- The models an automatic choice compares: a given order or all orders from 2 to the maximum, with a given setting of
the square root or both. -/
def Candidate (order : Option ℕ) (maxOrder : ℕ) (sqrt : Option Bool) (s : Bool) (o : ℕ) : Prop :=
  (sqrt = none ∨ sqrt = some s) ∧ (order = some o ∨ order = none ∧ 2 ≤ o ∧ o ≤ maxOrder)

/-- Weights for the ends of the data: 25, 16, 9, 4 for the first (and last) points, and one elsewhere. -/
noncomputable def endWeight (n : ℕ) (atBegin atEnd : Bool) (i : Fin n) : ℝ :=
  if atEnd = true ∧ n ≤ i.val + 4 then ((5 - (n - 1 - i.val) : ℕ) : ℝ) ^ 2
  else if atBegin = true ∧ i.val < 4 then ((5 - i.val : ℕ) : ℝ) ^ 2 else 1

end Verif.Spec
