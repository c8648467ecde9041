import Verif.Model.Rotation
import Mathlib.Tactic.Linarith
import Mathlib.Tactic.LinearCombination
import Mathlib.Tactic.FieldSimp
import Mathlib.Tactic.NormNum
import Mathlib.LinearAlgebra.Matrix.Notation

/-!
C44: rotation of a cell to the triangular form.
-/

namespace Verif.Rotation
open Matrix

/-- The formulas in terms of scalar products. -/
theorem triAxis_gram (axis : Mat) (h : axis.det ≠ 0) :
    let t := triAxis axis
    0 < t.lx ∧ 0 < t.ly ∧ 0 < t.lz ∧ t.lx * t.lx = dotCol axis 0 0 ∧ t.lx * t.xy = dotCol axis 0 1 ∧
      t.lx * t.xz = dotCol axis 0 2 ∧ t.xy * t.xy + t.ly * t.ly = dotCol axis 1 1 ∧
      t.xy * t.xz + t.ly * t.yz = dotCol axis 1 2 ∧
      t.xz * t.xz + t.yz * t.yz + t.lz * t.lz = dotCol axis 2 2 := by
  intro t
  set g00 := dotCol axis 0 0 with hg00
  set g01 := dotCol axis 0 1 with hg01
  set g02 := dotCol axis 0 2 with hg02
  set g11 := dotCol axis 1 1 with hg11
  set g12 := dotCol axis 1 2 with hg12
  set g22 := dotCol axis 2 2 with hg22
  have hdet : axis.det ^ 2 = g00 * (g11 * g22 - g12 ^ 2) - g01 * (g01 * g22 - g12 * g02)
      + g02 * (g01 * g12 - g11 * g02) := by
    rw [Matrix.det_fin_three]; simp only [hg00, hg01, hg02, hg11, hg12, hg22, dotCol]; ring
  have hd : 0 < axis.det ^ 2 := by positivity
  have n0 : 0 ≤ g00 := by simp only [hg00, dotCol]; nlinarith [sq_nonneg (axis 0 0), sq_nonneg (axis 1 0), sq_nonneg (axis 2 0)]
  have n1 : 0 ≤ g11 := by simp only [hg11, dotCol]; nlinarith [sq_nonneg (axis 0 1), sq_nonneg (axis 1 1), sq_nonneg (axis 2 1)]
  have n2 : 0 ≤ g22 := by simp only [hg22, dotCol]; nlinarith [sq_nonneg (axis 0 2), sq_nonneg (axis 1 2), sq_nonneg (axis 2 2)]
  have cs01 : 0 ≤ g00 * g11 - g01 ^ 2 := by
    have : g00 * g11 - g01 ^ 2 = (axis 1 0 * axis 2 1 - axis 2 0 * axis 1 1) ^ 2 +
      (axis 2 0 * axis 0 1 - axis 0 0 * axis 2 1) ^ 2 + (axis 0 0 * axis 1 1 - axis 1 0 * axis 0 1) ^ 2 := by
      simp only [hg00, hg01, hg11, dotCol]; ring
    rw [this]; positivity
  have cs02 : 0 ≤ g00 * g22 - g02 ^ 2 := by
    have : g00 * g22 - g02 ^ 2 = (axis 1 0 * axis 2 2 - axis 2 0 * axis 1 2) ^ 2 +
      (axis 2 0 * axis 0 2 - axis 0 0 * axis 2 2) ^ 2 + (axis 0 0 * axis 1 2 - axis 1 0 * axis 0 2) ^ 2 := by
      simp only [hg00, hg02, hg22, dotCol]; ring
    rw [this]; positivity
  -- the first column and the first two columns are independent
  have p0 : 0 < g00 := by
    rcases n0.lt_or_eq with hlt | heq
    · exact hlt
    · exfalso
      rw [← heq] at cs01 cs02 hdet
      have e1 : g01 = 0 := by nlinarith
      have e2 : g02 = 0 := by nlinarith
      rw [e1, e2] at hdet; nlinarith
  have key : g00 * axis.det ^ 2 = (g00 * g11 - g01 ^ 2) * (g00 * g22 - g02 ^ 2) - (g00 * g12 - g01 * g02) ^ 2 := by
    rw [hdet]; ring
  have pD : 0 < g00 * g11 - g01 ^ 2 := by
    rcases cs01.lt_or_eq with hlt | heq
    · exact hlt
    · exfalso
      rw [← heq] at key
      have : 0 < g00 * axis.det ^ 2 := by positivity
      nlinarith [sq_nonneg (g00 * g12 - g01 * g02)]
  have p1 : 0 < g11 := by
    by_contra hn
    have : g11 = 0 := by linarith
    rw [this] at pD; nlinarith [sq_nonneg g01]
  have p2 : 0 < g22 := by
    by_contra hn
    have h0 : g22 = 0 := by linarith
    rw [h0] at key
    have : 0 < g00 * axis.det ^ 2 := by positivity
    nlinarith [sq_nonneg (g00 * g12 - g01 * g02), mul_nonneg pD.le (sq_nonneg g02)]
  have sa : 0 < √g00 := Real.sqrt_pos.2 p0
  have sb : 0 < √g11 := Real.sqrt_pos.2 p1
  have sc : 0 < √g22 := Real.sqrt_pos.2 p2
  have qa : √g00 * √g00 = g00 := Real.mul_self_sqrt n0
  have qb : √g11 * √g11 = g11 := Real.mul_self_sqrt n1
  have qc : √g22 * √g22 = g22 := Real.mul_self_sqrt n2
  have hlx : t.lx = √g00 := rfl
  have hsym : dotCol axis 2 0 = g02 := by simp only [hg02, dotCol]; ring
  have hxy : t.xy = g01 / √g00 := by
    change √g11 * (g01 / (√g00 * √g11)) = _
    field_simp
  have hxz : t.xz = g02 / √g00 := by
    change √g22 * (dotCol axis 2 0 / (√g22 * √g00)) = _
    rw [hsym]; field_simp
  have hly : t.ly = √((g00 * g11 - g01 ^ 2) / g00) := by
    change √(√g11 * √g11 - t.xy * t.xy) = _
    rw [qb, hxy]
    congr 1
    rw [div_mul_div_comm, qa]
    field_simp
  have ply : 0 < t.ly := by rw [hly]; exact Real.sqrt_pos.2 (div_pos pD p0)
  have qly : t.ly * t.ly = (g00 * g11 - g01 ^ 2) / g00 := by
    rw [hly]; exact Real.mul_self_sqrt (div_pos pD p0).le
  have hyz : t.yz * t.ly = (g00 * g12 - g01 * g02) / g00 := by
    have : t.yz = (√g11 * √g22 * (g12 / (√g11 * √g22)) - t.xy * t.xz) / t.ly := rfl
    rw [this, div_mul_cancel₀ _ ply.ne', hxy, hxz, div_mul_div_comm, qa]
    field_simp
  have hxz2 : t.xz * t.xz = g02 ^ 2 / g00 := by rw [hxz, div_mul_div_comm, qa]; ring
  have hyz2 : t.yz * t.yz = (g00 * g12 - g01 * g02) ^ 2 / (g00 * (g00 * g11 - g01 ^ 2)) := by
    have h1 : (t.yz * t.yz) * (t.ly * t.ly) = ((g00 * g12 - g01 * g02) / g00) ^ 2 := by
      rw [← hyz]; ring
    rw [qly] at h1
    have hD := pD.ne'
    field_simp at h1 ⊢
    linarith
  have hlz2 : √g22 * √g22 - t.xz * t.xz - t.yz * t.yz = axis.det ^ 2 / (g00 * g11 - g01 ^ 2) := by
    rw [qc, hxz2, hyz2]
    have hD := pD.ne'
    field_simp
    linarith
  have plz : 0 < axis.det ^ 2 / (g00 * g11 - g01 ^ 2) := div_pos hd pD
  have hlz : t.lz = √(√g22 * √g22 - t.xz * t.xz - t.yz * t.yz) := rfl
  refine ⟨by rw [hlx]; exact sa, ply, by rw [hlz, hlz2]; exact Real.sqrt_pos.2 plz, by rw [hlx]; exact qa,
    by rw [hlx, hxy]; field_simp, by rw [hlx, hxz]; field_simp, ?_, ?_, ?_⟩
  · rw [qly, hxy, div_mul_div_comm, qa]; field_simp; ring
  · rw [mul_comm t.ly, hyz, hxy, hxz, div_mul_div_comm, qa]; field_simp; ring
  · have : t.lz * t.lz = √g22 * √g22 - t.xz * t.xz - t.yz * t.yz := by
      rw [hlz]; exact Real.mul_self_sqrt (by rw [hlz2]; exact plz.le)
    rw [this, qc]; ring

/-- **C44.** The triangular cell is upper triangular with positive diagonal and has the metric of the
given cell. -/
theorem C44_metric (axis : Mat) (h : axis.det ≠ 0) :
    (∀ i j : Fin 3, j < i → (triAxis axis).full i j = 0) ∧ (∀ i, 0 < (triAxis axis).full i i) ∧
      (triAxis axis).fullᵀ * (triAxis axis).full = axisᵀ * axis := by
  obtain ⟨p1, p2, p3, e1, e2, e3, e4, e5, e6⟩ := triAxis_gram axis h
  set t := triAxis axis
  refine ⟨?_, ?_, ?_⟩
  · intro i j hij
    fin_cases i <;> fin_cases j <;> first | rfl | (exfalso; revert hij; decide)
  · intro i
    fin_cases i
    exacts [p1, p2, p3]
  · ext i j
    rw [Matrix.mul_apply, Matrix.mul_apply, Fin.sum_univ_three, Fin.sum_univ_three]
    simp only [Matrix.transpose_apply]
    fin_cases i <;> fin_cases j <;> simp [Tri.full, dotCol] at * <;> linarith

/-- **C44.** The rotation maps the given cell to the triangular one and is orthogonal; it is proper
for right-handed cells and improper for left-handed ones. -/
theorem C44_orthogonal (axis : Mat) (h : axis.det ≠ 0) :
    rotation axis * axis = (triAxis axis).full ∧ (rotation axis)ᵀ * rotation axis = 1 ∧
      rotation axis * (rotation axis)ᵀ = 1 ∧
      (0 < axis.det → (rotation axis).det = 1) ∧ (axis.det < 0 → (rotation axis).det = -1) := by
  have hu : IsUnit axis.det := isUnit_iff_ne_zero.2 h
  obtain ⟨htri, hpos, hg⟩ := C44_metric axis h
  have hRA : rotation axis * axis = (triAxis axis).full := by
    unfold rotation
    rw [Matrix.mul_assoc, Matrix.nonsing_inv_mul _ hu, Matrix.mul_one]
  have hRR : (rotation axis)ᵀ * rotation axis = 1 := by
    unfold rotation
    rw [Matrix.transpose_mul, Matrix.mul_assoc, ← Matrix.mul_assoc _ _ axis⁻¹, hg,
      Matrix.mul_assoc, Matrix.mul_nonsing_inv _ hu, Matrix.mul_one, ← Matrix.transpose_mul,
      Matrix.mul_nonsing_inv _ hu, Matrix.transpose_one]
  have hdT : 0 < (triAxis axis).full.det := by
    rw [Matrix.det_fin_three]
    rw [htri 1 0 (by decide), htri 2 0 (by decide), htri 2 1 (by decide)]
    have := mul_pos (mul_pos (hpos 0) (hpos 1)) (hpos 2)
    linarith
  have hdR : (rotation axis).det * axis.det = (triAxis axis).full.det := by rw [← hRA, Matrix.det_mul]
  have hsq : (rotation axis).det ^ 2 = 1 := by
    have := congrArg Matrix.det hRR
    rw [Matrix.det_mul, Matrix.det_transpose, Matrix.det_one] at this
    rw [sq]; exact this
  refine ⟨hRA, hRR, mul_eq_one_comm.1 hRR, fun hp => ?_, fun hn => ?_⟩
  · rcases sq_eq_one_iff.1 hsq with h1 | h1
    · exact h1
    · rw [h1] at hdR; linarith
  · rcases sq_eq_one_iff.1 hsq with h1 | h1
    · rw [h1] at hdR; linarith
    · exact h1

/-- **C44.** The converted structure has all the distances of the original structure. -/
theorem C44_distances {n : ℕ} (axis : Mat) (h : axis.det ≠ 0) (pos : Fin n → Fin 3 → ℝ) (i j : Fin n)
    (shift : Fin 3 → ℤ) :
    let image (m : Mat) := m.mulVec (pos j + fun k => (shift k : ℝ)) - m.mulVec (pos i)
    (convert axis pos).cartesian i = (convert axis pos).axisMatrix.mulVec (pos i) ∧
    image (convert axis pos).axisMatrix ⬝ᵥ image (convert axis pos).axisMatrix = image axis ⬝ᵥ image axis := by
  intro image
  refine ⟨rfl, ?_⟩
  have hm : ∀ m : Mat, image m = m.mulVec ((pos j + fun k => (shift k : ℝ)) - pos i) := by
    intro m; simp only [image, Matrix.mulVec_sub]
  have hq : ∀ (m : Mat) (v : Fin 3 → ℝ), m.mulVec v ⬝ᵥ m.mulVec v = v ⬝ᵥ (mᵀ * m).mulVec v := by
    intro m v
    rw [← Matrix.mulVec_mulVec, Matrix.dotProduct_mulVec, dotProduct_comm, Matrix.mulVec_transpose]
  rw [hm, hm, hq, hq]
  change _ ⬝ᵥ ((triAxis axis).fullᵀ * (triAxis axis).full).mulVec _ = _
  rw [(C44_metric axis h).2.2]

theorem kron_eq (r s : Mat) : recoverStress s r = rᵀ * s * r := by
  ext i j
  simp only [recoverStress, unflat, kron, flat, Matrix.of_apply, Matrix.mulVec, dotProduct,
    Matrix.mul_apply, Matrix.transpose_apply, Fin.sum_univ_three]
  rw [Fin.sum_univ_succ, Fin.sum_univ_eight]
  fin_cases i <;> fin_cases j <;> simp [Fin.succ] <;> ring

/-- **C44.** Forces and stresses computed in the rotated system are converted back exactly. -/
theorem C44_recover {n : ℕ} (axis : Mat) (h : axis.det ≠ 0) (pos : Fin n → Fin 3 → ℝ) (f : Fin 3 → ℝ) (s : Mat) :
    (convert axis pos).recoverForces ((rotation axis).mulVec f) = f ∧
      (convert axis pos).recoverStress (rotation axis * s * (rotation axis)ᵀ) = s := by
  obtain ⟨-, hRR, -⟩ := C44_orthogonal axis h
  unfold Lammps.recoverForces Lammps.recoverStress
  by_cases hi : (convert axis pos).isRotation
  · rw [if_pos hi, if_pos hi]
    change recoverForce _ (rotation axis) = _ ∧ recoverStress _ (rotation axis) = _
    refine ⟨?_, ?_⟩
    · unfold recoverForce
      rw [Matrix.mulVec_mulVec, hRR, Matrix.one_mulVec]
    · rw [kron_eq, Matrix.mul_assoc, Matrix.mul_assoc, hRR, Matrix.mul_one, ← Matrix.mul_assoc, hRR, Matrix.one_mul]
  · rw [if_neg hi, if_neg hi]
    have h1 : rotation axis = 1 := by
      by_contra hne; exact hi hne
    rw [h1]; simp

/-- A sheared, left-handed cell meets the hypothesis. -/
example : (!![1, 2, 3; 0, 1, 4; 5, 6, 0] : Mat).det = 1 ∧ (!![0, 2, 0; 1, 0, 0; 1, 0, 3] : Mat).det = -6 := by
  constructor
  · rw [Matrix.det_fin_three]; simp; norm_num
  · rw [Matrix.det_fin_three]; simp; norm_num

end Verif.Rotation
