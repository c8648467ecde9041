import Mathlib.Algebra.Order.Field.Basic

/-!
# Groups of the automatic division
-/

namespace Verif.Spec
variable {K : Type} [Field K] [LinearOrder K]

/-- With `n` groups, threshold number `k` (`k < n - 1`) is met if the energy per atom is at most
`k / (n - 1)` of the lowest energy, or the force deviation at most `2 ^ (2 - 6 k / (n - 1))` times the
average one. -/
def Meets (pow2 : K → K) (n : ℕ) (eMin fAve e f : K) (k : ℕ) : Prop :=
  e ≤ eMin * ((k : K) / ((n - 1 : ℕ) : K)) ∨ f ≤ fAve * pow2 (2 - 6 * (k : K) / ((n - 1 : ℕ) : K))

/-- A structure belongs to group `g` if it meets threshold `g - 1` (for `g > 0`) and no later one. -/
def InGroup (pow2 : K → K) (n : ℕ) (eMin fAve e f : K) (g : ℕ) : Prop :=
  g ≤ n - 1 ∧ (0 < g → Meets pow2 n eMin fAve e f (g - 1)) ∧
    ∀ k, g ≤ k → k < n - 1 → ¬ Meets pow2 n eMin fAve e f k

/-- The structures with composition `c`. -/
def idsOfComp {κ : Type} [DecidableEq κ] (keys : List κ) (c : κ) : List ℕ :=
  (List.range keys.length).filter fun i => decide (keys[i]? = some c)

/-- Structure `i` belongs to group `g` when it is compared with the structures `ids` only: `eMin` is
the lowest energy among them. -/
def LocalGroup (pow2 : K → K) (eAll fAll : List K) (n : ℕ) (ids : List ℕ) (i g : ℕ) : Prop :=
  ∃ eMin e f : K, ((∃ j ∈ ids, eAll[j]? = some eMin) ∧ ∀ j ∈ ids, ∀ e', eAll[j]? = some e' → eMin ≤ e') ∧
    eAll[i]? = some e ∧ fAll[i]? = some f ∧
    InGroup pow2 n eMin ((ids.filterMap (fAll[·]?)).sum / (ids.length : K)) e f g

end Verif.Spec
