import Verif.Lemmas.TurnCell
import Verif.Props.MlpGtGrad
import Mathlib.Analysis.SpecialFunctions.Complex.Arg
import Mathlib.LinearAlgebra.Matrix.ToLinearEquiv

/-!
# Every proper rotation is a rotation about an axis
-/

namespace Verif.Turned
open Verif Verif.Mlp
open Verif.Neighbor (Vec r2 Mat)
open Matrix

/-- A number on the unit circle has an angle. -/
theorem angle_of {c s : ℝ} (h : c * c + s * s = 1) : ∃ θ, Real.cos θ = c ∧ Real.sin θ = s := by
  have hn : ‖(⟨c, s⟩ : ℂ)‖ = 1 := by
    rw [Complex.norm_def, Complex.normSq_mk, h, Real.sqrt_one]
  have h0 : (⟨c, s⟩ : ℂ) ≠ 0 := by
    intro h0
    rw [h0] at hn
    simp at hn
  refine ⟨Complex.arg ⟨c, s⟩, ?_, ?_⟩
  · rw [Complex.cos_arg h0, hn]; simp
  · rw [Complex.sin_arg, hn]; simp

theorem r2_pos {d : Vec ℝ} (h : d ≠ 0) : 0 < r2 d := by
  unfold r2
  by_contra hn
  have h0 := mul_self_nonneg (d 0)
  have h1 := mul_self_nonneg (d 1)
  have h2 := mul_self_nonneg (d 2)
  apply h
  funext x
  fin_cases x
  · exact mul_self_eq_zero.mp (show d 0 * d 0 = 0 by linarith)
  · exact mul_self_eq_zero.mp (show d 1 * d 1 = 0 by linarith)
  · exact mul_self_eq_zero.mp (show d 2 * d 2 = 0 by linarith)

theorem unit_of {d : Vec ℝ} (h : d ≠ 0) : ∃ c : ℝ, r2 (c • d) = 1 := by
  refine ⟨(√(r2 d))⁻¹, ?_⟩
  have hp := r2_pos h
  have : r2 ((√(r2 d))⁻¹ • d) = (√(r2 d))⁻¹ * (√(r2 d))⁻¹ * r2 d := by
    simp only [r2, Pi.smul_apply, _root_.smul_eq_mul]; ring
  rw [this, ← mul_inv, Real.mul_self_sqrt hp.le, inv_mul_cancel₀ hp.ne']

/-- The axis. -/
theorem axis_of {M : Mat} (hM : Spec.Orthogonal3 M) (hd : M.det = 1) : ∃ u : Vec ℝ, r2 u = 1 ∧ M *ᵥ u = u := by
  have h0 : (M - 1).det = 0 := by
    have h1 : M - 1 = M * (1 - M)ᵀ := by
      rw [transpose_sub, transpose_one, Matrix.mul_sub, Matrix.mul_one, hM]
    have h2 : (M - 1).det = (1 - M).det := by
      conv_lhs => rw [h1]
      rw [det_mul, det_transpose, hd, one_mul]
    have h3 : (1 - M).det = -(M - 1).det := by
      rw [← neg_sub M 1, det_neg]
      simp [Fintype.card_fin]
      norm_num
    linarith
  obtain ⟨v, hv, hv0⟩ := Matrix.exists_mulVec_eq_zero_iff.mpr h0
  obtain ⟨c, hc⟩ := unit_of hv
  refine ⟨c • v, hc, ?_⟩
  rw [mulVec_smul]
  rw [Matrix.sub_mulVec, one_mulVec, sub_eq_zero] at hv0
  rw [hv0]

/-- A unit vector at a right angle. -/
theorem normal_of (u : Vec ℝ) : ∃ v : Vec ℝ, r2 v = 1 ∧ Spec.dot3 u v = 0 := by
  by_cases h : u 0 = 0 ∧ u 1 = 0
  · refine ⟨![1, 0, 0], ?_, ?_⟩
    · simp [r2]
    · simp [Spec.dot3, h.1]
  · have hw : (![-u 1, u 0, 0] : Vec ℝ) ≠ 0 := by
      intro h0
      apply h
      have h1 := congrFun h0 0
      have h2 := congrFun h0 1
      simp at h1 h2
      exact ⟨h2, h1⟩
    obtain ⟨c, hc⟩ := unit_of hw
    refine ⟨_, hc, ?_⟩
    simp [Spec.dot3]
    ring

theorem dot3_mul {M : Mat} (hM : Spec.Orthogonal3 M) (u v : Vec ℝ) :
    Spec.dot3 (M *ᵥ u) (M *ᵥ v) = Spec.dot3 u v := by
  have h : ∀ u v : Vec ℝ, Spec.dot3 u v = (r2 (u + v) - r2 u - r2 v) / 2 := by
    intro u v
    simp only [Spec.dot3, r2, Pi.add_apply]
    ring
  rw [h, h, ← mulVec_add, r2_mul hM, r2_mul hM, r2_mul hM]

/-- A vector in a basis of three orthonormal vectors. -/
theorem frame (u v d : Vec ℝ) (hu : r2 u = 1) (hv : r2 v = 1) (huv : Spec.dot3 u v = 0) :
    d = Spec.dot3 u d • u + Spec.dot3 v d • v + Spec.dot3 (Spec.cross3 u v) d • Spec.cross3 u v := by
  have hN : (!![u 0, u 1, u 2; v 0, v 1, v 2; Spec.cross3 u v 0, Spec.cross3 u v 1, Spec.cross3 u v 2] : Mat) *
      (!![u 0, u 1, u 2; v 0, v 1, v 2; Spec.cross3 u v 0, Spec.cross3 u v 1, Spec.cross3 u v 2] : Mat)ᵀ = 1 := by
    unfold r2 at hu hv
    unfold Spec.dot3 at huv
    ext i j
    fin_cases i <;> fin_cases j <;> simp [Matrix.mul_apply, Fin.sum_univ_three, Spec.cross3, Matrix.vecMul, dotProduct] <;>
      first
      | linarith
      | ring1
      | linear_combination (v 0 * v 0 + v 1 * v 1 + v 2 * v 2) * hu + hv - (u 0 * v 0 + u 1 * v 1 + u 2 * v 2) * huv
  have h2 := mul_eq_one_comm.mp hN
  have h3 := congrArg (fun B : Mat => B *ᵥ d) h2
  simp only [one_mulVec, ← mulVec_mulVec] at h3
  refine h3.symm.trans ?_
  funext x
  fin_cases x <;>
    simp [Matrix.mulVec, dotProduct, Fin.sum_univ_three, Spec.dot3, Matrix.vecHead, Matrix.vecTail] <;> ring

theorem cross_mul {M : Mat} (hM : Spec.Orthogonal3 M) (hd : M.det = 1) (u v : Vec ℝ) :
    Spec.cross3 (M *ᵥ u) (M *ᵥ v) = M *ᵥ Spec.cross3 u v := by
  have key : Mᵀ *ᵥ Spec.cross3 (M *ᵥ u) (M *ᵥ v) = Spec.cross3 u v := by
    rw [Matrix.det_fin_three] at hd
    funext x
    fin_cases x <;>
    · simp [Spec.cross3, Matrix.mulVec, dotProduct, Fin.sum_univ_three]
      first
      | linear_combination (u 1 * v 2 - u 2 * v 1) * hd
      | linear_combination (u 2 * v 0 - u 0 * v 2) * hd
      | linear_combination (u 0 * v 1 - u 1 * v 0) * hd
  rw [← key, mulVec_mulVec, hM, one_mulVec]

theorem rotate_add (u : Vec ℝ) (θ : ℝ) (a b : Vec ℝ) :
    Spec.rotate u θ (a + b) = Spec.rotate u θ a + Spec.rotate u θ b := by
  funext x
  unfold Spec.rotate Spec.cross3 Spec.dot3
  fin_cases x <;> simp <;> ring

theorem rotate_smul (u : Vec ℝ) (θ c : ℝ) (a : Vec ℝ) :
    Spec.rotate u θ (c • a) = c • Spec.rotate u θ a := by
  funext x
  unfold Spec.rotate Spec.cross3 Spec.dot3
  fin_cases x <;> simp <;> ring

/-- **Euler's theorem.** -/
theorem rotation_of {M : Mat} (hM : Spec.Orthogonal3 M) (hd : M.det = 1) :
    ∃ (u : Vec ℝ) (θ : ℝ), r2 u = 1 ∧ ∀ d, M *ᵥ d = Spec.rotate u θ d := by
  obtain ⟨u, hu, hMu⟩ := axis_of hM hd
  obtain ⟨v, hv, huv⟩ := normal_of u
  -- the image of the second vector
  have h1 : Spec.dot3 u (M *ᵥ v) = 0 := by
    conv_lhs => rw [← hMu]
    rw [dot3_mul hM, huv]
  have hMv := frame u v (M *ᵥ v) hu hv huv
  rw [h1, zero_smul, zero_add] at hMv
  generalize hcc : Spec.dot3 v (M *ᵥ v) = c at hMv
  generalize hss : Spec.dot3 (Spec.cross3 u v) (M *ᵥ v) = s at hMv
  have hw : r2 (Spec.cross3 u v) = 1 := by
    unfold r2 at hu hv ⊢
    unfold Spec.dot3 at huv
    simp only [Spec.cross3, Matrix.cons_val]
    linear_combination (v 0 * v 0 + v 1 * v 1 + v 2 * v 2) * hu + hv - (u 0 * v 0 + u 1 * v 1 + u 2 * v 2) * huv
  have hvw : Spec.dot3 v (Spec.cross3 u v) = 0 := by
    simp only [Spec.dot3, Spec.cross3, Matrix.cons_val]; ring
  have hcs : c * c + s * s = 1 := by
    have h2 := r2_mul hM v
    rw [hMv, hv] at h2
    have h3 : r2 (c • v + s • Spec.cross3 u v) = c * c * r2 v + s * s * r2 (Spec.cross3 u v) +
        2 * c * s * Spec.dot3 v (Spec.cross3 u v) := by
      simp only [r2, Spec.dot3, Pi.add_apply, Pi.smul_apply, _root_.smul_eq_mul]; ring
    rw [h3, hv, hw, hvw] at h2
    linarith
  obtain ⟨θ, hθc, hθs⟩ := angle_of hcs
  -- rotation of the three vectors
  have ru : Spec.rotate u θ u = u := by
    unfold r2 at hu
    funext x
    unfold Spec.rotate Spec.cross3 Spec.dot3
    fin_cases x
    · simp; linear_combination (1 - Real.cos θ) * u 0 * hu
    · simp; linear_combination (1 - Real.cos θ) * u 1 * hu
    · simp; linear_combination (1 - Real.cos θ) * u 2 * hu
  have rv : Spec.rotate u θ v = c • v + s • Spec.cross3 u v := by
    funext x
    unfold Spec.rotate
    rw [huv, hθc, hθs]
    simp
  have huw : Spec.cross3 u (Spec.cross3 u v) = -v := by
    unfold r2 at hu
    unfold Spec.dot3 at huv
    funext x
    unfold Spec.cross3
    fin_cases x
    · simp; linear_combination u 0 * huv - v 0 * hu
    · simp; linear_combination u 1 * huv - v 1 * hu
    · simp; linear_combination u 2 * huv - v 2 * hu
  have huw0 : Spec.dot3 u (Spec.cross3 u v) = 0 := by
    simp only [Spec.dot3, Spec.cross3, Matrix.cons_val]; ring
  have rw' : Spec.rotate u θ (Spec.cross3 u v) = c • Spec.cross3 u v - s • v := by
    funext x
    unfold Spec.rotate
    rw [huw0, huw, hθc, hθs]
    simp
    ring
  have hMw : M *ᵥ Spec.cross3 u v = c • Spec.cross3 u v - s • v := by
    rw [← cross_mul hM hd, hMu, hMv]
    have : Spec.cross3 u (c • v + s • Spec.cross3 u v) = c • Spec.cross3 u v + s • Spec.cross3 u (Spec.cross3 u v) := by
      funext x
      unfold Spec.cross3
      fin_cases x <;> simp <;> ring
    rw [this, huw, smul_neg, sub_eq_add_neg]
  refine ⟨u, θ, hu, fun d => ?_⟩
  rw [frame u v d hu hv huv]
  simp only [mulVec_add, mulVec_smul, rotate_add, rotate_smul, ru, rv, rw', hMu, hMv, hMw]

end Verif.Turned
