import Verif.Model.TiLoad

/-!
# Displacements that show melting, and regularised straight lines

Specification side.
-/

namespace Verif.Spec

/-- `melted` marks those of `n` sampling points that show a melted state.  If the first displacement is zero there is
none; otherwise a point is marked if its displacement is more than twice the first one, or if it jumps by more than 0.05
from the last point before it that does not jump. -/
def Melted (n : ℕ) (d : ℕ → ℝ) (melted : ℕ → Prop) : Prop :=
  (|d 0| ≤ 1 / 10 ^ 8 → ∀ i < n, ¬ melted i) ∧
  (1 / 10 ^ 8 < |d 0| → ∃ jumped : ℕ → Prop, ¬ jumped 0 ∧
    (∀ i < n, ∀ j < i, ¬ jumped j → (∀ k, j < k → k < i → jumped k) → (jumped i ↔ 5 / 100 < |d i - d j|)) ∧
    ∀ i < n, melted i ↔ 2 < d i / d 0 ∨ jumped i)

/-- `c0 + c1 x` is the straight line that minimises the squared deviations plus `1e-10 (c0² + c1²)`. -/
def RidgeLine (pts : List (ℝ × ℝ)) (c0 c1 : ℝ) : Prop :=
  ∀ a b : ℝ, (pts.map fun p => (c0 + c1 * p.1 - p.2) ^ 2).sum + 1 / 10 ^ 10 * (c0 ^ 2 + c1 ^ 2) ≤
    (pts.map fun p => (a + b * p.1 - p.2) ^ 2).sum + 1 / 10 ^ 10 * (a ^ 2 + b ^ 2)

/-- The integral of `a + b x + c x²` from `s` to `t`. -/
noncomputable def quadraticIntegral (a b c s t : ℝ) : ℝ :=
  (a * t + b * t ^ 2 / 2 + c * t ^ 3 / 3) - (a * s + b * s ^ 2 / 2 + c * s ^ 3 / 3)

end Verif.Spec
