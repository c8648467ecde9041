import Mathlib.Analysis.Calculus.Deriv.Comp
import Verif.Spec.Ylm
import Mathlib.Tactic.LinearCombination
import Mathlib.Tactic.FieldSimp
import Mathlib.Tactic.Positivity
import Mathlib.Analysis.Calculus.Deriv.Polynomial

/-!
# Legendre polynomials
-/

namespace Verif.Spec.Ylm
open Polynomial

/-- `(n+2) P_{n+2} = (2n+3) x P_{n+1} - (n+1) P_n`. -/
theorem bonnet (n : ℕ) : C ((n : ℝ) + 2) * legendre (n + 2) =
    C (2 * (n : ℝ) + 3) * X * legendre (n + 1) - C ((n : ℝ) + 1) * legendre n := by
  rw [legendre, ← mul_assoc, ← C_mul, mul_one_div_cancel (by positivity), C_1, one_mul]

/-- `P'_{n+1} = x P'_n + (n+1) P_n` and `x P'_{n+1} - P'_n = (n+1) P_{n+1}`. -/
theorem legendre_deriv (n : ℕ) :
    derivative (legendre (n + 1)) = X * derivative (legendre n) + C ((n : ℝ) + 1) * legendre n ∧
    X * derivative (legendre (n + 1)) - derivative (legendre n) =
      C ((n : ℝ) + 1) * legendre (n + 1) := by
  induction n with
  | zero => simp [legendre]
  | succ n ih =>
    obtain ⟨B, A⟩ := ih
    have hb := bonnet n
    have hd := congrArg derivative hb
    simp only [derivative_mul, derivative_sub, derivative_C, derivative_X, zero_mul, zero_add,
      mul_one] at hd
    have hne : C ((n : ℝ) + 2) ≠ 0 := by
      rw [Ne, C_eq_zero]
      positivity
    have e : ∀ a b : ℝ, C (a + b) = C a + C b := fun a b => C_add
    have e2 : ∀ a : ℝ, C (2 * a) = 2 * C a := fun a => by rw [C_mul]; rfl
    push_cast at A B ⊢
    have h1 : C (1 : ℝ) = 1 := C_1
    have h2 : C (2 : ℝ) = 2 := rfl
    have h3 : C (3 : ℝ) = 3 := rfl
    simp only [e, e2, h1, h2, h3] at A B hb hd hne ⊢
    have B' : derivative (legendre (n + 2)) =
        X * derivative (legendre (n + 1)) + (C (n : ℝ) + 1 + 1) * legendre (n + 1) := by
      apply mul_left_cancel₀ hne
      linear_combination hd + (C (n : ℝ) + 1) * A
    refine ⟨B', ?_⟩
    rw [B']
    linear_combination -hb + X * A - B

theorem degree_legendre (n : ℕ) : (legendre n).natDegree ≤ n ∧ (legendre (n + 1)).natDegree ≤ n + 1 := by
  induction n with
  | zero => exact ⟨by simp [legendre], by simp [legendre]⟩
  | succ n ih =>
    refine ⟨ih.2, ?_⟩
    rw [legendre]
    refine (natDegree_C_mul_le _ _).trans ?_
    refine (natDegree_sub_le _ _).trans (max_le ?_ ?_)
    · refine natDegree_mul_le.trans ?_
      have : (C (2 * (n : ℝ) + 3) * X).natDegree ≤ 1 := (natDegree_C_mul_le _ _).trans natDegree_X_le
      have := ih.2
      omega
    · refine (natDegree_C_mul_le _ _).trans ?_
      have := ih.1
      omega

/-- `P_l` has degree `l`. -/
theorem legendreD_zero {l m : ℕ} (h : l < m) (x : ℝ) : legendreD l m x = 0 := by
  unfold legendreD
  rw [iterate_derivative_eq_zero (lt_of_le_of_lt (degree_legendre l).1 h), eval_zero]

theorem iterate_X_mul (m : ℕ) (p : ℝ[X]) :
    derivative^[m + 1] (X * p) = X * derivative^[m + 1] p + C ((m : ℝ) + 1) * derivative^[m] p := by
  induction m generalizing p with
  | zero => simp [add_comm]
  | succ m ih =>
    have h1 : derivative (derivative^[m] p) = derivative^[m + 1] p :=
      (Function.iterate_succ_apply' _ _ _).symm
    have h2 : derivative (derivative^[m + 1] p) = derivative^[m + 1 + 1] p :=
      (Function.iterate_succ_apply' _ _ _).symm
    rw [Function.iterate_succ_apply', ih, derivative_add, derivative_mul, derivative_mul, derivative_X,
      derivative_C, h1, h2]
    push_cast
    simp only [C_add, C_1]
    ring

theorem hasDerivAt_legendreD (l m : ℕ) (x : ℝ) :
    HasDerivAt (legendreD l m) (legendreD l (m + 1) x) x := by
  have := Polynomial.hasDerivAt (derivative^[m] (legendre l)) x
  unfold legendreD
  rw [Function.iterate_succ_apply']
  exact this

/-- `P_{l+1}^(m+1) = x P_l^(m+1) + (l+m+1) P_l^(m)`. -/
theorem legendreD_up (l m : ℕ) (x : ℝ) :
    legendreD (l + 1) (m + 1) x = x * legendreD l (m + 1) x + ((l : ℝ) + m + 1) * legendreD l m x := by
  unfold legendreD
  have h : derivative^[m + 1] (legendre (l + 1)) = derivative^[m] (derivative (legendre (l + 1))) :=
    Function.iterate_succ_apply _ _ _
  rw [h, (legendre_deriv l).1, iterate_map_add, iterate_derivative_C_mul]
  cases m with
  | zero => simp
  | succ m =>
    rw [iterate_X_mul, ← Function.iterate_succ_apply derivative (m + 1),
      ← Function.iterate_succ_apply derivative m]
    simp only [eval_add, eval_mul, eval_X, eval_C]
    push_cast
    ring

/-- `x P_{l+1}^(m+1) - P_l^(m+1) = (l+1-m) P_{l+1}^(m)`. -/
theorem legendreD_down (l m : ℕ) (x : ℝ) :
    x * legendreD (l + 1) (m + 1) x - legendreD l (m + 1) x =
      ((l : ℝ) + 1 - m) * legendreD (l + 1) m x := by
  have h := congrArg (fun p => (derivative^[m] p).eval x) (legendre_deriv l).2
  simp only [iterate_derivative_sub, iterate_derivative_C_mul, eval_sub, eval_mul, eval_C] at h
  unfold legendreD
  cases m with
  | zero => simpa using h
  | succ m =>
    rw [iterate_X_mul, ← Function.iterate_succ_apply derivative (m + 1),
      ← Function.iterate_succ_apply derivative m,
      ← Function.iterate_succ_apply derivative (m + 1)] at h
    simp only [eval_add, eval_mul, eval_X, eval_C] at h
    push_cast
    linear_combination h

/-- `(l+2-m) P_{l+2}^(m) = (2l+3) x P_{l+1}^(m) - (l+1+m) P_l^(m)`. -/
theorem legendreD_three (l m : ℕ) (x : ℝ) :
    ((l : ℝ) + 2 - m) * legendreD (l + 2) m x =
      (2 * (l : ℝ) + 3) * x * legendreD (l + 1) m x - ((l : ℝ) + 1 + m) * legendreD l m x := by
  cases m with
  | zero =>
    have h := congrArg (fun p => p.eval x) (bonnet l)
    simp only [eval_sub, eval_mul, eval_C, eval_X] at h
    simp only [legendreD, Function.iterate_zero, id]
    push_cast
    linear_combination h
  | succ m =>
    have h1 := legendreD_up (l + 1) m x
    have h2 := legendreD_down l m x
    push_cast at *
    linear_combination ((l : ℝ) + 1 - m) * h1 - ((l : ℝ) + m + 2) * h2

theorem legendre_parity (l : ℕ) (x : ℝ) :
    (legendre l).eval (-x) = (-1) ^ l * (legendre l).eval x ∧
    (legendre (l + 1)).eval (-x) = (-1) ^ (l + 1) * (legendre (l + 1)).eval x := by
  induction l with
  | zero => simp [legendre]
  | succ n ih =>
    refine ⟨ih.2, ?_⟩
    rw [show n + 1 + 1 = n + 2 from rfl, legendre]
    simp only [eval_mul, eval_C, eval_sub, eval_X, ih.1, ih.2]
    ring

/-- Derivatives of even and odd polynomials. -/
theorem legendreD_parity (l m : ℕ) (x : ℝ) :
    legendreD l m (-x) = (-1) ^ (l + m) * legendreD l m x := by
  induction m generalizing x with
  | zero => exact (legendre_parity l x).1
  | succ m ih =>
    have h1 : HasDerivAt (fun y => legendreD l m (-y)) (legendreD l (m + 1) (-x) * -1) x :=
      HasDerivAt.comp x (hasDerivAt_legendreD l m (-x)) (hasDerivAt_neg x)
    have h2 : HasDerivAt (fun y => legendreD l m (-y)) ((-1) ^ (l + m) * legendreD l (m + 1) x) x := by
      have e : (fun y => legendreD l m (-y)) = fun y => (-1) ^ (l + m) * legendreD l m y := funext ih
      rw [e]
      exact (hasDerivAt_legendreD l m x).const_mul _
    have := h1.unique h2
    rw [← add_assoc, pow_succ]
    linear_combination -this

end Verif.Spec.Ylm
