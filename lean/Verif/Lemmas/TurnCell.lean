import Verif.Spec.Turned
import Verif.Props.NeighborCell

/-!
# The search for neighbours in a turned cell
-/

namespace Verif.Turned
open Verif Verif.Neighbor
open Matrix

variable {M : Mat} (hM : Spec.Orthogonal3 M)
include hM

theorem orth' : Mᵀ * M = 1 := mul_eq_one_comm.mp hM

theorem dotc_mul (a : Mat) (p q : Fin 3) : dotc (M * a) p q = dotc a p q := by
  have h : ∀ b : Mat, dotc b p q = (bᵀ * b) p q := by
    intro b
    simp [dotc, Matrix.mul_apply, Fin.sum_univ_three]
  rw [h, h, transpose_mul, Matrix.mul_assoc, ← Matrix.mul_assoc Mᵀ, orth' hM, Matrix.one_mul]

theorem r2_mul (d : Vec ℝ) : r2 (M *ᵥ d) = r2 d := by
  have h : ∀ v : Vec ℝ, r2 v = v ⬝ᵥ v := fun v => by simp [r2, dotProduct, Fin.sum_univ_three]
  rw [h, h, dotProduct_mulVec, vecMul_mulVec, orth' hM, ← mulVec_transpose, transpose_one, one_mulVec]

theorem norm3_mul (d : Vec ℝ) : norm3 (M *ᵥ d) = norm3 d := by
  unfold norm3
  rw [r2_mul hM]

omit hM in
theorem cart_mul (a : Mat) (v : Vec ℝ) : toCartesian (M * a) v = M *ᵥ toCartesian a v := by
  rw [toCartesian_eq, toCartesian_eq, mulVec_mulVec]

omit hM in
theorem replaceCol_mul (a : Mat) (v : Fin 3 → ℤ) (c : Fin 3) : replaceCol (M * a) v c = M * replaceCol a v c := by
  unfold replaceCol
  rw [cart_mul]
  ext i j
  rw [Matrix.mul_apply]
  by_cases h : j = c
  · subst h
    simp [Matrix.mulVec, dotProduct]
  · simp [Matrix.updateCol_ne h, Matrix.mul_apply]

theorem ref_mul (a : Mat) (p q : Fin 3) : ref (M * a) p q ↔ ref a p q := by
  unfold ref
  simp only [dotc_mul hM]

theorem refAny_mul (a : Mat) : refAny (M * a) ↔ refAny a := by
  unfold refAny
  simp only [ref_mul hM]

theorem step01_mul (a : Mat) : step01 (M * a) = M * step01 a := by
  have hc := ref_mul hM a 0 1
  unfold step01 opt0 opt1
  simp only [dotc_mul hM, replaceCol_mul]
  by_cases h : ref a 0 1
  · rw [if_pos h, if_pos (hc.mpr h)]
    split_ifs <;> rfl
  · rw [if_neg h, if_neg (fun k => h (hc.mp k))]

theorem step02_mul (a : Mat) : step02 (M * a) = M * step02 a := by
  have hc := ref_mul hM a 0 2
  unfold step02 opt0 opt2
  simp only [dotc_mul hM, replaceCol_mul]
  by_cases h : ref a 0 2
  · rw [if_pos h, if_pos (hc.mpr h)]
    split_ifs <;> rfl
  · rw [if_neg h, if_neg (fun k => h (hc.mp k))]

theorem step12_mul (a : Mat) : step12 (M * a) = M * step12 a := by
  have hc := ref_mul hM a 1 2
  unfold step12 opt1 opt2
  simp only [dotc_mul hM, replaceCol_mul]
  by_cases h : ref a 1 2
  · rw [if_pos h, if_pos (hc.mpr h)]
    split_ifs <;> rfl
  · rw [if_neg h, if_neg (fun k => h (hc.mp k))]

theorem refineLoop_mul (k : ℕ) : ∀ a : Mat, refineLoop k (M * a) = M * refineLoop k a := by
  induction k with
  | zero => intro a; rfl
  | succ k ih =>
    intro a
    have hc := refAny_mul hM a
    simp only [refineLoop, step01_mul hM, step02_mul hM, step12_mul hM, ih]
    by_cases h : refAny a
    · rw [if_pos h, if_pos (hc.mpr h)]
    · rw [if_neg h, if_neg (fun k => h (hc.mp k))]

theorem refineAxis_mul (a : Mat) : refineAxis (M * a) = M * refineAxis a := refineLoop_mul hM 100 a

theorem cellAxis_mul (a : Mat) : cellAxis (M * a) = M * cellAxis a := by
  have hc := refAny_mul hM a
  unfold cellAxis
  rw [refineAxis_mul hM]
  by_cases h : refAny a
  · rw [if_pos h, if_pos (hc.mpr h)]
  · rw [if_neg h, if_neg (fun k => h (hc.mp k))]

theorem axisInv_turn (A : Mat) (h : A.det ≠ 0) : axisInv (M * A) = axisInv A * Mᵀ := by
  have hd : (M * A).det ≠ 0 := by
    rw [Matrix.det_mul]
    have : M.det * M.det = 1 := by
      have := congrArg Matrix.det hM
      rwa [Matrix.det_mul, Matrix.det_transpose, Matrix.det_one] at this
    exact mul_ne_zero (fun h0 => by rw [h0] at this; simp at this) h
  have h1 := axisInv_mul (M * A) hd
  have h2 : (axisInv A * Mᵀ) * (M * A) = 1 := by
    rw [Matrix.mul_assoc, ← Matrix.mul_assoc Mᵀ, orth' hM, Matrix.one_mul, axisInv_mul' A h]
  calc axisInv (M * A) = ((axisInv A * Mᵀ) * (M * A)) * axisInv (M * A) := by rw [h2, Matrix.one_mul]
    _ = axisInv A * Mᵀ := by rw [Matrix.mul_assoc, h1, Matrix.mul_one]

theorem cellPos_mul (a : Mat) (h : a.det ≠ 0) (v : Vec ℝ) : cellPos (M * a) (M *ᵥ v) = M *ᵥ cellPos a v := by
  have hc := refAny_mul hM a
  unfold cellPos
  by_cases hr : refAny a
  · rw [if_pos hr, if_pos (hc.mpr hr)]
    have hd : (refineAxis a).det ≠ 0 := by
      have := C23_det a
      rw [cellAxis, if_pos hr] at this
      rw [this]; exact h
    rw [refineAxis_mul hM, axisInv_turn hM _ hd, cart_mul]
    congr 3
    rw [toCartesian_eq, toCartesian_eq, mulVec_mulVec, Matrix.mul_assoc, orth' hM, Matrix.mul_one]
  · rw [if_neg hr, if_neg (fun k => hr (hc.mp k))]

theorem maxExp_mul (a : Mat) (c : ℝ) (k : Fin 3) : maxExp (M * a) c k = maxExp a c k := by
  unfold maxExp
  rw [cart_mul, norm3_mul hM]

theorem maxLength_mul (a : Mat) : maxLength (M * a) = maxLength a := by
  unfold maxLength
  simp only [cart_mul, norm3_mul hM]

theorem cellTrans_mul (a : Mat) (c : ℝ) : cellTrans (M * a) c = (cellTrans a c).map fun t => M *ᵥ t := by
  unfold cellTrans
  rw [cellAxis_mul hM]
  unfold findTrans
  rw [List.map_filterMap]
  simp only [maxExp_mul hM, maxLength_mul hM, cart_mul, norm3_mul hM]
  apply List.filterMap_congr
  intro v _
  split_ifs <;> rfl

/-- The full list of a structure that is turned. -/
theorem full_turn (cutoff tol : ℝ) (trans : List (Vec ℝ)) (pos : ℕ → Vec ℝ) (n i : ℕ) (hi : i < n) :
    (neighborFull cutoff tol (trans.map fun t => M *ᵥ t) (fun j => M *ᵥ pos j) n).row i =
      ((neighborFull cutoff tol trans pos n).row i).map fun e => (e.1, M *ᵥ e.2) := by
  rw [neighborFull, neighborFull, mkCsr_row _ _ (by simpa using hi), mkCsr_row _ _ (by simpa using hi)]
  simp only [List.getElem_map, List.getElem_range, fullRow, pairEntries]
  rw [List.map_flatMap]
  congr 1
  funext j
  rw [List.filterMap_map, List.map_filterMap]
  apply List.filterMap_congr
  intro t _
  have h : M *ᵥ pos j - M *ᵥ pos i + M *ᵥ t = M *ᵥ (pos j - pos i + t) := by rw [mulVec_add, mulVec_sub]
  have hr : inRange cutoff tol (M *ᵥ (pos j - pos i + t)) ↔ inRange cutoff tol (pos j - pos i + t) := by
    simp only [inRange, r2_mul hM]
  simp only [Function.comp, h]
  by_cases hk : inRange cutoff tol (pos j - pos i + t)
  · rw [if_pos hk, if_pos (hr.mpr hk)]; rfl
  · rw [if_neg hk, if_neg (fun k => hk (hr.mp k))]; rfl

end Verif.Turned
