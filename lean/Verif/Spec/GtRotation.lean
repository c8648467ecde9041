import Verif.Spec.GtTable
import Verif.Spec.YlmRules

/-!
# Rotations

Specification side: what it means that harmonics turn like angular momentum states under infinitesimal
rotations, and that a table entry is invariant under them.  `s l m` is the factor of the raising operator,
`√((l - m) (l + m + 1))` in the usual normalisation.
-/

namespace Verif.Spec
open Verif
open Verif.Neighbor (Vec)

variable {K : Type} [Field K]

/-- The value for `(l, m)` from the values with `m ≤ 0`, by `Y(l, m) = (-1)^m conj Y(l, -m)`. -/
def full (h : ℕ → Cx K) (l : ℕ) (m : ℤ) : Cx K :=
  if m ≤ 0 then h (halfIdx l m.natAbs) else Cx.smul ((-1) ^ m.natAbs) (Cx.conj (h (halfIdx l m.natAbs)))

/-- The derivative along the rotation in the plane `a`, `b`: `d_a ∂_b - d_b ∂_a`. -/
def turn (G : ℕ → Fin 3 → Cx K) (d : Vec K) (a b : Fin 3) (k : ℕ) : Cx K :=
  Cx.smul (d a) (G k b) - Cx.smul (d b) (G k a)

/-- The factors vanish at the end of the ladder and are the same up and down. -/
structure Ladder (s : ℕ → ℤ → K) : Prop where
  top : ∀ l : ℕ, s l l = 0
  flip : ∀ (l : ℕ) (m : ℤ), s l (-m - 1) = s l m

/-- Rotations about the `z` axis multiply the harmonic by `i m`; the combination `x + i y` of the rotations
about the `x` and `y` axes raises `m` by one. -/
structure RotRules (maxl : ℕ) (s : ℕ → ℤ → K) (Y : ℕ → Cx K) (G : ℕ → Fin 3 → Cx K) (d : Vec K) : Prop where
  axis : ∀ l ≤ maxl, ∀ m : ℤ, -(l : ℤ) ≤ m → m ≤ l → full (turn G d 0 1) l m = ⟨0, (m : K)⟩ * full Y l m
  raise : ∀ l ≤ maxl, ∀ m : ℤ, -(l : ℤ) ≤ m → m ≤ l →
    full (turn G d 1 2) l m + ⟨0, 1⟩ * full (turn G d 2 0) l m = ⟨0, s l m⟩ * full Y l (m + 1)

/-- The raising operator applied to the product `a₁(m₁) ⋯ a_p(m_p)`, factor by factor. -/
def raiseProd (s : ℕ → ℤ → K) : List ℕ → List ℤ → List (ℤ → Cx K) → Cx K
  | l :: ls, m :: ms, a :: as =>
    Cx.smul (s l m) (a (m + 1)) * (List.zipWith (fun a m => a m) as ms).prod + a m * raiseProd s ls ms as
  | _, _, _ => 0

/-- The sum of the products is annihilated by the raising operator, whatever the factors are. -/
def Invariant (s : ℕ → ℤ → K) (ls : List ℕ) (rows : List (List ℤ × K)) : Prop :=
  ∀ as : List (ℤ → Cx K), as.length = ls.length →
    (rows.map fun r => Cx.smul r.2 (raiseProd s ls r.1 as)).sum = 0

/-- A table of invariants under rotations. -/
def RotTable (s : ℕ → ℤ → K) (maxl : ℕ) (lComb : List (List ℕ)) (lmArray : List (List (List ℕ)))
    (lmCoeffs : List (List K)) : Prop :=
  ∀ (i : ℕ) (ls : List ℕ), lComb[i]? = some ls → ∃ rows : List (List ℤ × K),
    (InvEntry maxl ls rows ∧ Invariant s ls rows) ∧
    lmArray[i]? = some (rows.map fun r => List.zipWith lmIdx ls r.1) ∧
    lmCoeffs[i]? = some (rows.map (·.2))

theorem RotTable.table {s : ℕ → ℤ → K} {maxl : ℕ} {lComb : List (List ℕ)} {lmArray : List (List (List ℕ))}
    {lmCoeffs : List (List K)} (h : RotTable s maxl lComb lmArray lmCoeffs) :
    TableOK maxl lComb lmArray lmCoeffs := by
  intro i ls hi
  obtain ⟨rows, ⟨h1, -⟩, h2⟩ := h i ls hi
  exact ⟨rows, h1, h2⟩

end Verif.Spec
