import Verif.Spec.PolyInv
import Mathlib.Algebra.BigOperators.Group.Finset.Basic
import Mathlib.Data.Int.Interval
import Mathlib.Data.Real.Sqrt
import Mathlib.Algebra.Group.NatPowAssoc

/-!
Coupling coefficients and the vectors of coupled states, without reference to the program.
-/

namespace Verif.Spec

/-- What is used of Clebsch-Gordan coefficients `C l₁ l₂ l m₁ m₂`: they vanish where the coupling
is not allowed, they change by a sign if all components change sign, and for each total component
the coefficients of different `l` are orthonormal. -/
structure CouplingCoefficients (C : ℕ → ℕ → ℕ → ℤ → ℤ → ℝ) : Prop where
  vanish : ∀ l₁ l₂ l m₁ m₂, ¬ Triangle l₁ l₂ l ∨ (l : ℤ) < |m₁ + m₂| → C l₁ l₂ l m₁ m₂ = 0
  reflect : ∀ l₁ l₂ l m₁ m₂, Triangle l₁ l₂ l →
    C l₁ l₂ l (-m₁) (-m₂) = (-1) ^ (l₁ + l₂ - l) * C l₁ l₂ l m₁ m₂
  orthonormal : ∀ l₁ l₂ l l' (M : ℤ), Triangle l₁ l₂ l → Triangle l₁ l₂ l' → |M| ≤ l → |M| ≤ l' →
    (∑ m₁ ∈ Finset.Icc (-(l₁ : ℤ)) l₁, ∑ m₂ ∈ Finset.Icc (-(l₂ : ℤ)) l₂,
      if m₁ + m₂ = M then C l₁ l₂ l m₁ m₂ * C l₁ l₂ l' m₁ m₂ else 0) = if l = l' then 1 else 0

/-- The product of the coefficients along the later couplings: from angular momentum `q` with
component `s`, with each angular momentum of the list, to the intermediate ones `qs`. -/
def laterCouplings (C : ℕ → ℕ → ℕ → ℤ → ℤ → ℝ) : ℕ → ℤ → List ℕ → List ℤ → List ℕ → ℝ
  | q, s, l :: ls, m :: ms, q' :: qs => C l q q' m s * laterCouplings C q' (s + m) ls ms qs
  | _, _, _, _, _ => 1

/-- The product of all coefficients: the first couples `l₁` and the first of the list. -/
def allCouplings (C : ℕ → ℕ → ℕ → ℤ → ℤ → ℝ) (l₁ : ℕ) (m₁ : ℤ) : List ℕ → List ℤ → List ℕ → ℝ
  | l :: ls, m :: ms, q' :: qs => C l₁ l q' m₁ m * laterCouplings C q' (m₁ + m) ls ms qs
  | _, _, _ => 1

/-- The amplitude of the components `m₁, ms` (the last component is minus their sum) in the state
with zero total angular momentum in which `l₁` and `ls` couple through `qs` to the last angular
momentum `ln`. -/
noncomputable def invariantVector (C : ℕ → ℕ → ℕ → ℤ → ℤ → ℝ) (l₁ : ℕ) (ls : List ℕ) (ln : ℕ)
    (qs : List ℕ) (m₁ : ℤ) (ms : List ℤ) : ℝ :=
  allCouplings C l₁ m₁ ls ms qs * ((-1) ^ (m₁ + ms.sum).natAbs / Real.sqrt (2 * ln + 1))

end Verif.Spec
