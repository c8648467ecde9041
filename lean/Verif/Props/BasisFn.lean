import Verif.Model.BasisFn
import Verif.Spec.BasisFn
import Mathlib.Analysis.SpecialFunctions.Pow.Deriv
import Mathlib.Analysis.SpecialFunctions.ExpDeriv
import Mathlib.Analysis.SpecialFunctions.Trigonometric.Deriv
import Mathlib.Tactic.FieldSimp
import Mathlib.Tactic.Linarith
import Mathlib.Tactic.Ring
import Mathlib.Tactic.NormNum
import Mathlib.Tactic.Positivity

/-!
# C126: the other radial functions of the C++ library
-/

namespace Verif.Mlp
open Verif Verif.Spec

theorem hasDerivAt_expLin (a r : ℝ) : HasDerivAt (fun x : ℝ => Real.exp (a * x)) (Real.exp (a * r) * a) r := by
  have h : HasDerivAt (fun x : ℝ => a * x) a r := by simpa using (hasDerivAt_id r).const_mul a
  exact h.exp

/-- **C126** Cosine. -/
theorem C126_cosine (r p : ℝ) : ValueAndSlope (fun x => Real.cos (p * x)) r (cosineFn r p) (cosineD r p) := by
  refine ⟨rfl, rfl, ?_⟩
  have h : HasDerivAt (fun x : ℝ => p * x) p r := by simpa using (hasDerivAt_id r).const_mul p
  refine h.cos.congr_deriv ?_
  show -Real.sin (p * r) * p = -p * Real.sin (p * r)
  ring

/-- **C126** Powers; the exponent is zero or not below the threshold of the code. -/
theorem C126_power (r p : ℝ) (hr : 0 < r) (hp : p = 0 ∨ 1 / 10 ^ 15 ≤ |p|) :
    ValueAndSlope (fun x => x ^ p) r (powerFn r p) (powerD r p) := by
  refine ⟨rfl, rfl, ?_⟩
  have h := Real.hasDerivAt_rpow_const (x := r) (p := p) (Or.inl hr.ne')
  refine h.congr_deriv ?_
  show _ = if |p| < 1 / 10 ^ 15 then 0 else p * r ^ (p - 1)
  rcases hp with rfl | hp
  · simp
  · rw [if_neg (not_lt.mpr hp)]

/-- **C126** A power with an exponent below the threshold and not zero: the slope is not that of the value. -/
theorem C126_power_violation (p : ℝ) (h0 : p ≠ 0) (hp : |p| < 1 / 10 ^ 15) (r : ℝ) (hr : 0 < r) :
    ¬ HasDerivAt (fun x => powerFn x p) (powerD r p).2 r := by
  intro h
  have h' := Real.hasDerivAt_rpow_const (x := r) (p := p) (Or.inl hr.ne')
  have e := h.unique h'
  have e2 : (powerD r p).2 = 0 := by
    show (if |p| < 1 / 10 ^ 15 then 0 else p * r ^ (p - 1)) = 0
    rw [if_pos hp]
  rw [e2] at e
  exact mul_ne_zero h0 (Real.rpow_pos_of_pos hr _).ne' e.symm

/-- **C126** Exponential. -/
theorem C126_exp (r p : ℝ) : ValueAndSlope (fun x => Real.exp (-p * x)) r (exp1 r p) (exp1D r p) := by
  refine ⟨rfl, rfl, (hasDerivAt_expLin (-p) r).congr_deriv ?_⟩
  show _ = -p * Real.exp (-p * r)
  ring

/-- **C126** Exponential over the distance. -/
theorem C126_exp_over (r p : ℝ) (hr : r ≠ 0) :
    ValueAndSlope (fun x => Real.exp (-p * x) / x) r (exp2 r p) (exp2D r p) := by
  refine ⟨rfl, rfl, ((hasDerivAt_expLin (-p) r).div (hasDerivAt_id r) hr).congr_deriv ?_⟩
  show _ = -(1 / r + p) * (Real.exp (-p * r) / r)
  simp only [id]
  field_simp
  ring

/-- **C126** Exponential times the distance. -/
theorem C126_exp_times (r p : ℝ) (hr : r ≠ 0) :
    ValueAndSlope (fun x => Real.exp (-p * x) * x) r (exp3 r p) (exp3D r p) := by
  refine ⟨rfl, rfl, ((hasDerivAt_expLin (-p) r).mul (hasDerivAt_id r)).congr_deriv ?_⟩
  show _ = (1 / r - p) * (Real.exp (-p * r) * r)
  simp only [id]
  field_simp
  ring

/-- **C126** Slater functions. -/
theorem C126_slater (r p q : ℝ) (hr : 0 < r) :
    ValueAndSlope (fun x => x ^ p * Real.exp (-q * x)) r (sto r p q) (stoD r p q) := by
  refine ⟨rfl, rfl, ((Real.hasDerivAt_rpow_const (x := r) (p := p) (Or.inl hr.ne')).mul
    (hasDerivAt_expLin (-q) r)).congr_deriv ?_⟩
  show _ = (p - q * r) * (r ^ p * Real.exp (-q * r)) / r
  rw [Real.rpow_sub_one hr.ne']
  field_simp
  ring

/-- **C126** Modified Morlet wavelets. -/
theorem C126_modified_morlet (r p : ℝ) :
    ValueAndSlope (fun x => Real.cos (p * x) / Real.cosh x) r (modMorlet r p) (modMorletD r p) := by
  have h : HasDerivAt (fun x : ℝ => p * x) p r := by simpa using (hasDerivAt_id r).const_mul p
  have hc : Real.cosh r ≠ 0 := (Real.cosh_pos r).ne'
  refine ⟨rfl, rfl, (h.cos.div (Real.hasDerivAt_cosh r) hc).congr_deriv ?_⟩
  show _ = -p * Real.sin (p * r) / Real.cosh r - Real.cos (p * r) / Real.cosh r * Real.tanh r
  rw [Real.tanh_eq_sinh_div_cosh]
  field_simp

/-- **C126** Mexican hats with a parameter that is not negative. -/
theorem C126_mexican (r p : ℝ) (hp : 0 ≤ p) :
    ValueAndSlope (fun x => Real.sqrt p * (1 - (p * x) ^ 2) * Real.exp (-(p * x) ^ 2 / 2)) r
      (mexican r p) (mexicanD r p) := by
  have hval : mexican r p = Real.sqrt p * (1 - (p * r) ^ 2) * Real.exp (-(p * r) ^ 2 / 2) := by
    show Real.sqrt p * (1 - r ^ 2 * p ^ 2) * Real.exp (-(1 / 2) * (r ^ 2 * p ^ 2)) = _
    rw [show -(1 / 2) * (r ^ 2 * p ^ 2) = -(p * r) ^ 2 / 2 by ring, show r ^ 2 * p ^ 2 = (p * r) ^ 2 by ring]
  refine ⟨hval, hval, ?_⟩
  have h : HasDerivAt (fun x : ℝ => p * x) p r := by simpa using (hasDerivAt_id r).const_mul p
  have h2 := h.pow 2
  have h3 := ((h2.const_sub 1).const_mul (Real.sqrt p)).mul ((h2.neg.div_const 2).exp)
  refine h3.congr_deriv ?_
  show _ = -(r * p ^ (5 / 2 : ℝ)) * (3 - r ^ 2 * p ^ 2) * Real.exp (-(1 / 2) * (r ^ 2 * p ^ 2))
  have hpow : p ^ (5 / 2 : ℝ) = p ^ 2 * Real.sqrt p := by
    rw [Real.sqrt_eq_rpow, show (5 / 2 : ℝ) = 2 + 1 / 2 by norm_num,
      Real.rpow_add_of_nonneg hp (by norm_num) (by norm_num)]
    norm_num
  rw [hpow, show -(1 / 2) * (r ^ 2 * p ^ 2) = -(p * r) ^ 2 / 2 by ring]
  simp only [Pi.pow_apply, Pi.neg_apply]
  push_cast
  ring

/-- **C126** Morse functions. -/
theorem C126_morse (r p q : ℝ) :
    ValueAndSlope (fun x => Real.exp (-2 * p * (x - q)) - 2 * Real.exp (-p * (x - q))) r
      (morse r p q) (morseD r p q) := by
  have hval : morse r p q = Real.exp (-2 * p * (r - q)) - 2 * Real.exp (-p * (r - q)) := by
    show Real.exp (2 * (-p * (r - q))) - 2 * Real.exp (-p * (r - q)) = _
    rw [show 2 * (-p * (r - q)) = -2 * p * (r - q) by ring]
  refine ⟨hval, hval, ?_⟩
  have h (a : ℝ) : HasDerivAt (fun x : ℝ => a * (x - q)) a r := by
    simpa using ((hasDerivAt_id r).sub_const q).const_mul a
  refine ((h (-2 * p)).exp.sub ((h (-p)).exp.const_mul 2)).congr_deriv ?_
  show _ = -2 * p * (Real.exp (2 * (-p * (r - q))) - 2 * Real.exp (-p * (r - q)) + Real.exp (-p * (r - q)))
  rw [show 2 * (-p * (r - q)) = -2 * p * (r - q) by ring]
  ring

theorem bump_deriv (r c : ℝ) (hc : 0 < c) (hr : |r| < c) :
    HasDerivAt (fun x => (bumpCutD x c).1) ((bumpCutD r c).2 / c) r := by
  have hx : (1 : ℝ) - (r / c) ^ 20 ≠ 0 := by
    have : |r / c| < 1 := by rw [abs_div, abs_of_pos hc]; exact (div_lt_one hc).mpr hr
    have h2 : (r / c) ^ 20 < 1 := by
      rw [← Even.pow_abs (by decide : Even 20)]
      exact pow_lt_one₀ (abs_nonneg _) this (by norm_num)
    linarith
  have h1 : HasDerivAt (fun x : ℝ => x / c) (1 / c) r := (hasDerivAt_id r).div_const c
  have h2 := ((hasDerivAt_const r (-1 : ℝ)).div ((h1.pow 20).const_sub 1) hx).exp
  refine h2.congr_deriv ?_
  show _ = -20 * (r / c) ^ 19 * Real.exp (-1 / (1 - (r / c) ^ 20)) / ((1 - (r / c) ^ 20) * (1 - (r / c) ^ 20)) / c
  simp only [Pi.pow_apply, Pi.div_apply]
  rw [show 20 - 1 = 19 from rfl]
  generalize Real.exp (-1 / (1 - (r / c) ^ 20)) = E
  generalize (1 : ℝ) - (r / c) ^ 20 = T
  generalize (r / c) ^ 19 = X
  push_cast
  rw [div_eq_mul_inv, div_eq_mul_inv, div_eq_mul_inv, div_eq_mul_inv, pow_two]
  ring

/-- **C126** The slope of the smooth cutoff function is the derivative of the value beside it times the cutoff:
it is right only for the cutoff one. -/
theorem C126_bump_partial (r c : ℝ) (hc : 0 < c) (hr : |r| < c) :
    HasDerivAt (fun x => Real.exp (-1 / (1 - (x / c) ^ 20))) ((bumpCutD r c).2 / c) r := bump_deriv r c hc hr

/-- **C126** For every other cutoff the slope of the smooth cutoff function is wrong at all distances but zero. -/
theorem C126_bump_violation (r c : ℝ) (hc : 0 < c) (hc1 : c ≠ 1) (hr0 : r ≠ 0) (hr : |r| < c) :
    ¬ HasDerivAt (fun x => (bumpCutD x c).1) (bumpCutD r c).2 r := by
  intro h
  have e := h.unique (bump_deriv r c hc hr)
  have hx : (1 : ℝ) - (r / c) ^ 20 ≠ 0 := by
    have : |r / c| < 1 := by rw [abs_div, abs_of_pos hc]; exact (div_lt_one hc).mpr hr
    have h2 : (r / c) ^ 20 < 1 := by
      rw [← Even.pow_abs (by decide : Even 20)]
      exact pow_lt_one₀ (abs_nonneg _) this (by norm_num)
    linarith
  have hne : (bumpCutD r c).2 ≠ 0 := by
    show -20 * (r / c) ^ 19 * Real.exp (-1 / (1 - (r / c) ^ 20)) / ((1 - (r / c) ^ 20) * (1 - (r / c) ^ 20)) ≠ 0
    have := (Real.exp_pos (-1 / (1 - (r / c) ^ 20))).ne'
    have h3 : r / c ≠ 0 := div_ne_zero hr0 hc.ne'
    positivity
  rw [eq_div_iff hc.ne'] at e
  exact hc1 (mul_left_cancel₀ hne (by rw [e, mul_one]))

/-- **C126** The smooth cutoff function has another value when it is computed with its slope. -/
theorem C126_bump_value_violation (r c : ℝ) (hc : 0 < c) (hr0 : r ≠ 0) (hr : |r| < c) :
    bumpCut r c < (bumpCutD r c).1 := by
  have h1 : |r / c| < 1 := by rw [abs_div, abs_of_pos hc]; exact (div_lt_one hc).mpr hr
  have h0 : 0 < |r / c| := abs_pos.mpr (div_ne_zero hr0 hc.ne')
  show Real.exp (-1 / (1 - r / c * (r / c))) < Real.exp (-1 / (1 - (r / c) ^ 20))
  rw [Real.exp_lt_exp]
  have h2 : (r / c) ^ 20 < r / c * (r / c) := by
    rw [← Even.pow_abs (by decide : Even 20), ← abs_mul_abs_self (r / c), ← pow_two]
    exact pow_lt_pow_right_of_lt_one₀ h0 h1 (by norm_num)
  have h3 : r / c * (r / c) < 1 := by rw [← abs_mul_abs_self]; nlinarith
  rw [neg_div, neg_div, neg_lt_neg_iff]
  exact one_div_lt_one_div_of_lt (by linarith) (by linarith)

/-- **C126** A Gaussian-type orbital has neither the value nor the slope it should have. -/
theorem C126_gto_violation :
    gto 2 0 1 ≠ (2 : ℝ) ^ (0 : ℝ) * Real.exp (-1 * 2 ^ 2) ∧ ¬ HasDerivAt (fun x => gto x 0 1) (gtoD 1 0 1).2 1 := by
  have hg (x : ℝ) : gto x 0 1 = Real.exp (-1 * x) := by
    show x ^ (0 : ℝ) * Real.exp (-x * (1 - 0) * (1 - 0)) = _
    rw [Real.rpow_zero]
    ring_nf
  refine ⟨?_, fun h => ?_⟩
  · rw [hg, Real.rpow_zero, one_mul]
    intro h
    have := Real.exp_injective h
    norm_num at this
  · have e := h.unique (((hasDerivAt_expLin (-1) 1)).congr_of_eventuallyEq (Filter.Eventually.of_forall hg))
    have e2 : (gtoD 1 0 1).2 = -2 * Real.exp (-1 * 1) := by
      show (0 - 2 * 1 * 1 * 1) * gto 1 0 1 / 1 = _
      rw [hg]; ring
    rw [e2] at e
    have := Real.exp_pos (-1 * 1)
    nlinarith

/-- **C126** A Morlet wavelet centred at one half vanishes everywhere, and its slope is one everywhere. -/
theorem C126_morlet_violation (r : ℝ) :
    morlet r (1 / 2) = 0 ∧ (morletD r (1 / 2)).2 = 1 ∧ ¬ HasDerivAt (fun x => morlet x (1 / 2)) (morletD r (1 / 2)).2 r := by
  have hg (x : ℝ) : gauss (1 / 2) x (1 / 2) = 1 := by
    show Real.exp (-x * (1 / 2 - 1 / 2) * (1 / 2 - 1 / 2)) = 1
    simp
  have hm (x : ℝ) : morlet x (1 / 2) = 0 := by
    show gauss (1 / 2) x (1 / 2) - gauss (1 / 2) (-x) (1 / 2) = 0
    rw [hg, hg, sub_self]
  have hd : (morletD r (1 / 2)).2 = 1 := by
    show (1 / 2 - r) * gauss (1 / 2) r (1 / 2) + (1 / 2 + r) * gauss (1 / 2) (-r) (1 / 2) = 1
    rw [hg, hg]; ring
  refine ⟨hm r, hd, fun h => ?_⟩
  have e := h.unique ((hasDerivAt_const r (0 : ℝ)).congr_of_eventuallyEq (Filter.Eventually.of_forall hm))
  rw [hd] at e
  exact one_ne_zero e

/-- The conditions of the theorems are met. -/
example : (0 : ℝ) < 2 ∧ ((2 : ℝ) = 0 ∨ 1 / 10 ^ 15 ≤ |(2 : ℝ)|) ∧ |(2 : ℝ)| < 6 := by
  refine ⟨by norm_num, Or.inr ?_, ?_⟩ <;> rw [abs_of_pos (by norm_num)] <;> norm_num

example : (1 / 10 ^ 16 : ℝ) ≠ 0 ∧ |(1 / 10 ^ 16 : ℝ)| < 1 / 10 ^ 15 := by
  refine ⟨by norm_num, ?_⟩
  rw [abs_of_pos (by norm_num)]; norm_num

end Verif.Mlp
