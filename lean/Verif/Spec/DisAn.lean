import Mathlib.Data.Real.Basic
import Mathlib.Data.Sym.Sym2
import Mathlib.Data.Finset.Basic
import Mathlib.Algebra.BigOperators.Group.Finset.Basic

/-!
# Averages over random occupations of sites
-/

namespace Verif.Spec.DisAn

/-- The mean of a quantity of the types of some sites, when every site has its own distribution of types and the sites are
independent. -/
noncomputable def expect : List (List (ℕ × ℝ)) → (List ℕ → ℝ) → ℝ
  | [], f => f []
  | d :: ds, f => (d.map fun x => x.2 * expect ds fun ts => f (x.1 :: ts)).sum

/-- What tells linear features of one radial function apart: the pairs of an angular momentum with the unordered pair of
types of the central atom and a neighbour, in any order. -/
def content (lc : List ℕ) (c : ℕ) (ts : List ℕ) : Multiset (ℕ × Sym2 ℕ) := ↑(lc.zip (ts.map fun t => s(c, t)))

/-- The types that a central atom may have: those in all pairs. -/
def centers (tps : List (ℕ × ℕ)) : Finset ℕ :=
  (tps.flatMap fun p => [p.1, p.2]).toFinset.filter fun t => ∀ p ∈ tps, t = p.1 ∨ t = p.2

/-- The type of the neighbour in a pair with a central atom of type `c`. -/
def partner (c : ℕ) (p : ℕ × ℕ) : ℕ := if p.1 = c then p.2 else p.1

/-- The order of the entries of a key: by angular momentum, then by the first and by the second type. -/
def entryLe (a b : ℕ × ℕ × ℕ) : Prop := a.1 < b.1 ∨ a.1 = b.1 ∧ (a.2.1 < b.2.1 ∨ a.2.1 = b.2.1 ∧ a.2.2 ≤ b.2.2)

instance : DecidableRel entryLe := fun a b => by unfold entryLe; infer_instance

end Verif.Spec.DisAn
