import Verif.Model.NeighborCell
import Mathlib.LinearAlgebra.Matrix.NonsingularInverse
import Mathlib.Data.List.Nodup
import Mathlib.Tactic.FinCases
import Mathlib.Tactic.FieldSimp
import Mathlib.Tactic.LinearCombination
import Mathlib.Tactic.NormNum

/-! # Lemmas on cells -/

namespace Verif.Neighbor

open Matrix

theorem toCartesian_eq (a : Mat) (v : Vec ℝ) : toCartesian a v = a *ᵥ v := by
  funext r
  simp [toCartesian, mulVec, dotProduct, Fin.sum_univ_three]

/-- `b` is `a` times an integer matrix of determinant one. -/
def Uni (a b : Mat) : Prop :=
  ∃ U : Matrix (Fin 3) (Fin 3) ℤ, U.det = 1 ∧ b = a * U.map (Int.cast : ℤ → ℝ)

theorem Uni.refl (a : Mat) : Uni a a := ⟨1, by simp, by simp⟩

theorem Uni.trans {a b c : Mat} : Uni a b → Uni b c → Uni a c := by
  rintro ⟨U, hU, rfl⟩ ⟨V, hV, rfl⟩
  refine ⟨U * V, by rw [det_mul, hU, hV, one_mul], ?_⟩
  rw [Matrix.mul_assoc]
  congr 1
  ext i j
  simp [mul_apply]

theorem uni_replaceCol (a : Mat) (v : Fin 3 → ℤ) (col : Fin 3) (h : v col = 1) :
    Uni a (replaceCol a v col) := by
  refine ⟨(1 : Matrix (Fin 3) (Fin 3) ℤ).updateCol col v, ?_, ?_⟩
  · fin_cases col <;> simp at h <;> simp [det_fin_three, updateCol_apply, h]
  · ext r c
    fin_cases col <;> fin_cases c <;>
      simp [replaceCol, updateCol_apply, toCartesian, castV, mul_apply, Fin.sum_univ_three]

theorem uni_step01 (a : Mat) : Uni a (step01 a) := by
  unfold step01
  split
  · split
    · exact uni_replaceCol _ _ _ (by simp [opt1])
    · exact uni_replaceCol _ _ _ (by simp [opt0])
  · exact Uni.refl a

theorem uni_step02 (a : Mat) : Uni a (step02 a) := by
  unfold step02
  split
  · split
    · exact uni_replaceCol _ _ _ (by simp [opt2])
    · exact uni_replaceCol _ _ _ (by simp [opt0])
  · exact Uni.refl a

theorem uni_step12 (a : Mat) : Uni a (step12 a) := by
  unfold step12
  split
  · split
    · exact uni_replaceCol _ _ _ (by simp [opt2])
    · exact uni_replaceCol _ _ _ (by simp [opt1])
  · exact Uni.refl a

theorem uni_refineLoop (n : ℕ) : ∀ a : Mat, Uni a (refineLoop n a) := by
  induction n with
  | zero => intro a; exact Uni.refl a
  | succ n ih =>
      intro a
      rw [refineLoop]
      split
      · exact (((uni_step01 a).trans (uni_step02 _)).trans (uni_step12 _)).trans (ih _)
      · exact Uni.refl a

theorem uni_cellAxis (a : Mat) : Uni a (cellAxis a) := by
  unfold cellAxis
  split
  · exact uni_refineLoop _ _
  · exact Uni.refl a

theorem Uni.det {a b : Mat} : Uni a b → b.det = a.det := by
  rintro ⟨U, hU, rfl⟩
  have h : (U.map (Int.cast : ℤ → ℝ)).det = 1 := by
    have := (Int.castRingHom ℝ).map_det U
    rw [hU] at this
    simpa [RingHom.mapMatrix_apply] using this.symm
  rw [det_mul, h, mul_one]

theorem detA_eq (a : Mat) : detA a = a.det := by
  rw [det_fin_three, detA]; ring

theorem axisInv_mul (a : Mat) (h : a.det ≠ 0) : a * axisInv a = 1 := by
  have hd : detA a ≠ 0 := by rw [detA_eq]; exact h
  ext i j
  fin_cases i <;> fin_cases j <;>
    · simp only [mul_apply, Fin.sum_univ_three, axisInv]
      simp
      field_simp
      simp only [detA]
      ring

theorem axisInv_mul' (a : Mat) (h : a.det ≠ 0) : axisInv a * a = 1 :=
  mul_eq_one_comm.mp (axisInv_mul a h)

/-! ### Norms -/

/-- Scalar product. -/
def dot3 (u v : Vec ℝ) : ℝ := u 0 * v 0 + u 1 * v 1 + u 2 * v 2

theorem r2_nonneg (v : Vec ℝ) : 0 ≤ r2 v := by
  unfold r2; nlinarith [mul_self_nonneg (v 0), mul_self_nonneg (v 1), mul_self_nonneg (v 2)]

theorem dot3_le (u v : Vec ℝ) : |dot3 u v| ≤ norm3 u * norm3 v := by
  rw [norm3, norm3, ← Real.sqrt_mul (r2_nonneg u)]
  apply Real.abs_le_sqrt
  unfold dot3 r2
  nlinarith [mul_self_nonneg (u 0 * v 1 - u 1 * v 0), mul_self_nonneg (u 0 * v 2 - u 2 * v 0),
    mul_self_nonneg (u 1 * v 2 - u 2 * v 1)]

theorem norm3_nonneg (v : Vec ℝ) : 0 ≤ norm3 v := Real.sqrt_nonneg _

theorem norm3_sq (v : Vec ℝ) : norm3 v * norm3 v = r2 v := Real.mul_self_sqrt (r2_nonneg v)

theorem norm3_sub_le (u v : Vec ℝ) : norm3 (u - v) ≤ norm3 u + norm3 v := by
  have h : r2 (u - v) = r2 u - 2 * dot3 u v + r2 v := by
    simp only [r2, dot3, Pi.sub_apply]; ring
  have hd := dot3_le u v
  have h1 : r2 (u - v) ≤ (norm3 u + norm3 v) ^ 2 := by
    rw [h]
    have := norm3_sq u
    have := norm3_sq v
    have := neg_abs_le (dot3 u v)
    nlinarith
  exact Real.sqrt_le_iff.mpr ⟨add_nonneg (norm3_nonneg u) (norm3_nonneg v), h1⟩

theorem norm3_neg (v : Vec ℝ) : norm3 (-v) = norm3 v := by simp [norm3, r2]

theorem norm3_lt_iff (v : Vec ℝ) (c : ℝ) (hc : 0 < c) : norm3 v < c ↔ r2 v < c * c := by
  rw [norm3, Real.sqrt_lt' hc, sq]

/-- A quadratic on `[-1, 1]` is largest at an end. -/
theorem r2_segment (u v : Vec ℝ) (x : ℝ) (hx : |x| ≤ 1) :
    ∃ s : ℤ, (s = 1 ∨ s = -1) ∧ r2 (u + x • v) ≤ r2 (u + (s : ℝ) • v) := by
  have h : ∀ y : ℝ, r2 (u + y • v) = r2 u + 2 * y * dot3 u v + y * y * r2 v := by
    intro y
    simp only [r2, dot3, Pi.add_apply, Pi.smul_apply, smul_eq_mul]; ring
  obtain ⟨h1, h2⟩ := abs_le.mp hx
  have hv := r2_nonneg v
  rcases le_total 0 (dot3 u v) with hd | hd
  · refine ⟨1, Or.inl rfl, ?_⟩
    rw [h, h]
    push_cast
    have a1 : 0 ≤ (1 - x) * dot3 u v := mul_nonneg (by linarith) hd
    have a2 : 0 ≤ (1 - x) * (1 + x) * r2 v := mul_nonneg (mul_nonneg (by linarith) (by linarith)) hv
    linarith
  · refine ⟨-1, Or.inr rfl, ?_⟩
    rw [h, h]
    push_cast
    have a1 : 0 ≤ (1 + x) * (-dot3 u v) := mul_nonneg (by linarith) (by linarith)
    have a2 : 0 ≤ (1 - x) * (1 + x) * r2 v := mul_nonneg (mul_nonneg (by linarith) (by linarith)) hv
    linarith

/-! ### Integer ranges -/

theorem mem_intRange (m z : ℤ) : z ∈ intRange m ↔ -m ≤ z ∧ z ≤ m := by
  simp only [intRange, List.mem_map, List.mem_range]
  constructor
  · rintro ⟨t, ht, rfl⟩; omega
  · rintro ⟨h1, h2⟩
    exact ⟨(z + m).toNat, by omega, by omega⟩

theorem nodup_intRange (m : ℤ) : (intRange m).Nodup := by
  unfold intRange
  apply List.nodup_range.map
  intro a b h
  simp only at h
  omega

theorem mem_grid (m0 m1 m2 : ℤ) (v : Fin 3 → ℤ) :
    v ∈ grid m0 m1 m2 ↔ (-m0 ≤ v 0 ∧ v 0 ≤ m0) ∧ (-m1 ≤ v 1 ∧ v 1 ≤ m1) ∧
      (-m2 ≤ v 2 ∧ v 2 ≤ m2) := by
  simp only [grid, List.mem_flatMap, List.mem_map, mem_intRange]
  constructor
  · rintro ⟨i, hi, j, hj, k, hk, rfl⟩
    exact ⟨hi, hj, hk⟩
  · rintro ⟨h0, h1, h2⟩
    refine ⟨v 0, h0, v 1, h1, v 2, h2, ?_⟩
    funext k; fin_cases k <;> rfl

theorem nodup_grid (m0 m1 m2 : ℤ) : (grid m0 m1 m2).Nodup := by
  unfold grid
  rw [List.nodup_flatMap]
  constructor
  · intro i _
    rw [List.nodup_flatMap]
    constructor
    · intro j _
      apply (nodup_intRange m2).map
      intro a b h
      have := congrFun h 2
      simpa using this
    · apply (nodup_intRange m1).imp
      intro a b hab x hx hy
      simp only [List.mem_map] at hx hy
      obtain ⟨k, _, rfl⟩ := hx
      obtain ⟨k', _, h⟩ := hy
      have := congrFun h 1
      exact hab (by simpa using this.symm)
  · apply (nodup_intRange m0).imp
    intro a b hab x hx hy
    simp only [List.mem_flatMap, List.mem_map] at hx hy
    obtain ⟨j, _, k, _, rfl⟩ := hx
    obtain ⟨j', _, k', _, h⟩ := hy
    have := congrFun h 0
    exact hab (by simpa using this.symm)

theorem grid_neg (m0 m1 m2 : ℤ) : ((grid m0 m1 m2).map (fun v => -v)).Perm (grid m0 m1 m2) := by
  rw [List.perm_ext_iff_of_nodup ((nodup_grid _ _ _).map neg_injective) (nodup_grid _ _ _)]
  intro v
  simp only [List.mem_map, mem_grid]
  constructor
  · rintro ⟨w, ⟨⟨a1, a2⟩, ⟨b1, b2⟩, c1, c2⟩, rfl⟩
    simp only [Pi.neg_apply]
    omega
  · rintro ⟨⟨a1, a2⟩, ⟨b1, b2⟩, c1, c2⟩
    refine ⟨-v, ?_, by simp⟩
    simp only [Pi.neg_apply]
    omega

theorem toCartesian_castV_neg (a : Mat) (v : Fin 3 → ℤ) :
    toCartesian a (castV (-v)) = -toCartesian a (castV v) := by
  funext r
  simp [toCartesian, castV]
  ring

theorem foldl_max_le {α : Type} (f : α → ℝ) (l : List α) :
    ∀ m : ℝ,
      (m ≤ l.foldl (fun mx v => open Classical in if mx < f v then f v else mx) m) ∧
      ∀ v ∈ l, f v ≤ l.foldl (fun mx v => open Classical in if mx < f v then f v else mx) m := by
  induction l with
  | nil => intro m; simp
  | cons x l ih =>
      intro m
      rw [List.foldl_cons]
      obtain ⟨h1, h2⟩ := ih (open Classical in if m < f x then f x else m)
      have hm : m ≤ (open Classical in if m < f x then f x else m) := by
        split
        · rename_i h; exact le_of_lt h
        · exact le_rfl
      have hx : f x ≤ (open Classical in if m < f x then f x else m) := by
        split
        · exact le_rfl
        · rename_i h; exact not_lt.mp h
      refine ⟨hm.trans h1, ?_⟩
      intro v hv
      rcases List.mem_cons.mp hv with rfl | hv
      · exact hx.trans h1
      · exact h2 v hv

theorem le_maxLength (a : Mat) (v : Fin 3 → ℤ) (h : ∀ k, v k = 1 ∨ v k = -1 ∨ v k = 0) :
    norm3 (toCartesian a (castV v)) ≤ maxLength a := by
  apply (foldl_max_le (fun v => norm3 (toCartesian a (castV v))) (grid 1 1 1) 0).2
  rw [mem_grid]
  have h0 := h 0
  have h1 := h 1
  have h2 := h 2
  omega

/-- The difference of two wrapped positions is not longer than the longest diagonal. -/
theorem cube_le_maxLength (a : Mat) (g : Vec ℝ) (h : ∀ k, |g k| ≤ 1) :
    norm3 (toCartesian a g) ≤ maxLength a := by
  have hexp : ∀ w : Vec ℝ, toCartesian a w =
      w 0 • (fun r => a r 0) + w 1 • (fun r => a r 1) + w 2 • (fun r => a r 2) := by
    intro w; funext r
    simp only [toCartesian, Pi.add_apply, Pi.smul_apply, smul_eq_mul]; ring
  set c0 : Vec ℝ := fun r => a r 0
  set c1 : Vec ℝ := fun r => a r 1
  set c2 : Vec ℝ := fun r => a r 2
  obtain ⟨s0, hs0, e0⟩ := r2_segment (g 1 • c1 + g 2 • c2) c0 (g 0) (h 0)
  obtain ⟨s1, hs1, e1⟩ := r2_segment ((s0 : ℝ) • c0 + g 2 • c2) c1 (g 1) (h 1)
  obtain ⟨s2, hs2, e2⟩ := r2_segment ((s0 : ℝ) • c0 + (s1 : ℝ) • c1) c2 (g 2) (h 2)
  have hv := le_maxLength a ![s0, s1, s2] (by
    intro k; fin_cases k
    · rcases hs0 with h | h <;> simp [h]
    · rcases hs1 with h | h <;> simp [h]
    · rcases hs2 with h | h <;> simp [h])
  refine le_trans (Real.sqrt_le_sqrt ?_) hv
  rw [hexp, hexp]
  have q0 : g 0 • c0 + g 1 • c1 + g 2 • c2 = (g 1 • c1 + g 2 • c2) + g 0 • c0 := by
    funext r; simp; ring
  have q1 : (g 1 • c1 + g 2 • c2) + (s0 : ℝ) • c0 = ((s0 : ℝ) • c0 + g 2 • c2) + g 1 • c1 := by
    funext r; simp; ring
  have q2 : ((s0 : ℝ) • c0 + g 2 • c2) + (s1 : ℝ) • c1 =
      ((s0 : ℝ) • c0 + (s1 : ℝ) • c1) + g 2 • c2 := by
    funext r; simp; ring
  rw [q1] at e0
  rw [q2] at e1
  rw [q0]
  have := e0.trans (e1.trans e2)
  simpa [castV] using this

end Verif.Neighbor
