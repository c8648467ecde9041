import Mathlib.Algebra.Order.Floor.Ring
import Mathlib.Data.Rat.Floor

namespace Verif.Spec

/-- `k` is `x` rounded to the nearest integer, ties going to the even neighbour. -/
def IsRoundHalfEven (x : ℚ) (k : ℤ) : Prop :=
  |(k : ℚ) - x| ≤ 1 / 2 ∧ (|(k : ℚ) - x| = 1 / 2 → Even k)

/-- Two index lists form a partition of `0, …, n-1`, both listed in strictly increasing order. -/
def IsPartition (n : ℕ) (a b : List ℕ) : Prop :=
  a.Pairwise (· < ·) ∧ b.Pairwise (· < ·) ∧
  (∀ i, i ∈ a → i ∉ b) ∧ (∀ i, i < n ↔ i ∈ a ∨ i ∈ b)

end Verif.Spec
