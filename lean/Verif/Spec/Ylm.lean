import Mathlib.Algebra.Polynomial.Derivative
import Mathlib.Analysis.SpecialFunctions.Trigonometric.Basic
import Mathlib.Analysis.Real.Sqrt

/-!
# Spherical harmonics, textbook definition
-/

namespace Verif.Spec.Ylm
open Polynomial

/-- Legendre polynomials: `P_0 = 1`, `P_1 = x`, `(n+2) P_{n+2} = (2n+3) x P_{n+1} - (n+1) P_n`. -/
noncomputable def legendre : ℕ → ℝ[X]
  | 0 => 1
  | 1 => X
  | n + 2 => C (1 / ((n : ℝ) + 2)) *
      (C (2 * (n : ℝ) + 3) * X * legendre (n + 1) - C ((n : ℝ) + 1) * legendre n)

/-- `d^m P_l / dx^m` at `x`. -/
noncomputable def legendreD (l m : ℕ) (x : ℝ) : ℝ := (derivative^[m] (legendre l)).eval x

/-- `sqrt((2l+1)/(4 pi) * (l-m)!/(l+m)!)`. -/
noncomputable def norm (l m : ℕ) : ℝ :=
  √((2 * l + 1) / (4 * Real.pi) * ((Nat.factorial (l - m) : ℝ) / (Nat.factorial (l + m) : ℝ)))

/-- `Y_l^m(theta, phi)` for `0 ≤ m ≤ l`, with the sign of Condon and Shortley:
`(-1)^m sqrt((2l+1)/(4 pi) (l-m)!/(l+m)!) sin(theta)^m P_l^(m)(cos theta) exp(i m phi)`. -/
noncomputable def ylm (l m : ℕ) (theta phi : ℝ) : ℂ :=
  (-1) ^ m * (norm l m : ℂ) * (Real.sin theta ^ m * legendreD l m (Real.cos theta) : ℝ) *
    Complex.exp (Complex.I * m * phi)

/-- `Y_l^{-m} = (-1)^m conj(Y_l^m)`. -/
noncomputable def ylmNeg (l m : ℕ) (theta phi : ℝ) : ℂ := (-1) ^ m * (starRingEnd ℂ) (ylm l m theta phi)

/-- `Y_l^m` for every integer `m`. -/
noncomputable def ylmInt (l : ℕ) (m : ℤ) (theta phi : ℝ) : ℂ :=
  if 0 ≤ m then ylm l m.toNat theta phi else ylmNeg l (-m).toNat theta phi

end Verif.Spec.Ylm
