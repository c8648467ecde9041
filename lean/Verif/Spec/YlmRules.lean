import Verif.Model.Cx
import Verif.Model.Neighbor

/-!
# Rules of spherical harmonics used by the evaluation

Specification side: what the evaluation needs of the values and of the gradients of the spherical
harmonics with `m ≤ 0`.  `ylm d` and `ylmV r d` are the values for the vector `d` (of length `r`),
`ylmG r d` the gradients.
-/

namespace Verif.Spec
open Verif
open Verif.Neighbor (Vec)

/-- Position of `(l, -k)` among the pairs `(l, m)` with `-l ≤ m ≤ 0`, ordered by `l` and then by `m`. -/
def halfIdx (l k : ℕ) : ℕ := l * (l + 1) / 2 + (l - k)

/-- Both functions give the same values; the parity of degree `l` is `(-1)^l` and that of its gradient
`-(-1)^l`; `m = 0` is real. -/
structure YlmRules {K : Type} [Field K] (maxl : ℕ) (ylm : Vec K → ℕ → Cx K)
    (ylmV : K → Vec K → ℕ → Cx K) (ylmG : K → Vec K → ℕ → Fin 3 → Cx K) (r : K) (d : Vec K) : Prop where
  value : ∀ l ≤ maxl, ∀ k ≤ l, ylmV r d (halfIdx l k) = ylm d (halfIdx l k)
  parity : ∀ l ≤ maxl, ∀ k ≤ l, ylmV r (-d) (halfIdx l k) = Cx.smul ((-1) ^ l) (ylmV r d (halfIdx l k))
  parityG : ∀ l ≤ maxl, ∀ k ≤ l, ∀ x,
    ylmG r (-d) (halfIdx l k) x = -Cx.smul ((-1) ^ l) (ylmG r d (halfIdx l k) x)
  real : ∀ l ≤ maxl, (ylmV r d (halfIdx l 0)).im = 0
  realG : ∀ l ≤ maxl, ∀ x, (ylmG r d (halfIdx l 0) x).im = 0

end Verif.Spec
