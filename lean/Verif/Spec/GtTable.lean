import Mathlib.Algebra.BigOperators.Group.List.Basic
import Mathlib.Algebra.Group.Even
import Mathlib.Data.Int.Notation
import Mathlib.Algebra.Order.Ring.Int

/-!
# Tables of invariants

An invariant of order `p` is a sum of products `c · a(l₁, m₁) ⋯ a(l_p, m_p)` of expansion coefficients of
the density around an atom.
-/

namespace Verif.Spec

/-- Position of `(l, m)` in the order `(0, 0), (1, -1), (1, 0), (1, 1), (2, -2), …`. -/
def lmIdx (l : ℕ) (m : ℤ) : ℕ := ((l : ℤ) * l + l + m).toNat

/-- One entry of the table: `ls` are the `l` of the factors, every row holds the `m` of the factors and
the coefficient of the product.  The parity of the invariant is even, the `m` of every product add up to
zero, and the coefficients do not change when all `m` change their sign. -/
structure InvEntry {K : Type} (maxl : ℕ) (ls : List ℕ) (rows : List (List ℤ × K)) : Prop where
  pos : ls ≠ []
  lmax : ∀ l ∈ ls, l ≤ maxl
  even : Even ls.sum
  len : ∀ r ∈ rows, r.1.length = ls.length
  range : ∀ r ∈ rows, ∀ e ∈ ls.zip r.1, -(e.1 : ℤ) ≤ e.2 ∧ e.2 ≤ e.1
  sum : ∀ r ∈ rows, r.1.sum = 0
  closed : (rows.map fun r => (r.1.map fun m => -m, r.2)).Perm rows

/-- A table: entry `i` has the `l` of `lComb[i]`, the positions of `(l, m)` of `lmArray[i]` and the
coefficients `lmCoeffs[i]`. -/
def TableOK {K : Type} (maxl : ℕ) (lComb : List (List ℕ)) (lmArray : List (List (List ℕ)))
    (lmCoeffs : List (List K)) : Prop :=
  ∀ (i : ℕ) (ls : List ℕ), lComb[i]? = some ls → ∃ rows : List (List ℤ × K),
    InvEntry maxl ls rows ∧
    lmArray[i]? = some (rows.map fun r => List.zipWith lmIdx ls r.1) ∧
    lmCoeffs[i]? = some (rows.map (·.2))

end Verif.Spec
