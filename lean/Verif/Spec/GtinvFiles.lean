import Verif.Model.Py
import Mathlib.Algebra.Order.Field.Basic

/-!
# What the tables of polynomial invariants mean
-/

namespace Verif.Spec

/-- A polynomial invariant: the `l` of its factors, and for each term the `m` of the factors and the coefficient. -/
structure PolyInvariant (D : Type) where
  l : List ℤ
  terms : List (List ℤ × D)
  deriving DecidableEq

/-- An invariant with `n` factors in each term and with `l` in ascending order. -/
def PolyInvariant.Sorted {D : Type} (n : ℕ) (x : PolyInvariant D) : Prop :=
  x.l.length = n ∧ x.l.Pairwise (· ≤ ·) ∧ ∀ t ∈ x.terms, t.1.length = n

/-- An integer of 32 bits. -/
def IsInt32 (x : ℤ) : Prop := -2147483648 ≤ x ∧ x ≤ 2147483647

/-- What fits into a file: integers of 32 bits and lists that are not too long. -/
def TablesFit {D : Type} (l : List (List ℤ)) (c : List (List D)) (m : List (List (List ℤ))) : Prop :=
  l.length ≤ 2147483647 ∧ c.length ≤ 2147483647 ∧ m.length ≤ 2147483647 ∧
  (∀ row ∈ l, row.length ≤ 2147483647 ∧ ∀ x ∈ row, IsInt32 x) ∧
  (∀ row ∈ c, row.length ≤ 2147483647) ∧
  (∀ mat ∈ m, mat.length ≤ 2147483647 ∧ ∀ row ∈ mat, row.length ≤ 2147483647 ∧ ∀ x ∈ row, IsInt32 x)

/-- Numbers that 64 bits represent: `enc` gives the bits and `dec` the number. -/
def Represented {D : Type} (enc : D → ℕ) (dec : ℕ → D) (c : List (List D)) : Prop :=
  ∀ row ∈ c, ∀ x ∈ row, enc x < 2 ^ 64 ∧ dec (enc x) = x

/-- The position of the spherical harmonic `(l, m)`. -/
def lmPosition (l m : ℤ) : ℤ := l ^ 2 + l + m

/-- The limit of `l` for invariants with `n` factors, from the values given for two and more factors. -/
def lLimit (maxls : List ℤ) (n : ℕ) : ℤ := if n = 1 then 0 else maxls.getD (n - 2) 0

/-- All `l` are within the limit. -/
def PolyInvariant.within {D : Type} (limit : ℤ) (x : PolyInvariant D) : Bool := x.l.all fun k => decide (k ≤ limit)

/-- The invariant that a vector of coefficients stands for: `lm` gives `(l, m)` of the factors for every component, and
small components are left out. -/
def invariantOf {K : Type} [Field K] [LinearOrder K] (l : List ℤ) (lm : List (List (ℤ × ℤ))) (col : List K) :
    PolyInvariant K where
  l := l
  terms := ((lm.map fun r => r.map Prod.snd).zip col).filter fun t => decide (1 / 10 ^ 15 < |t.2|)

/-- `k` is the largest element. -/
def IsTop (k : ℤ) (l : List ℤ) : Prop := k ∈ l ∧ ∀ x ∈ l, x ≤ k

instance (k : ℤ) (l : List ℤ) : Decidable (IsTop k l) := inferInstanceAs (Decidable (_ ∧ _))

end Verif.Spec
