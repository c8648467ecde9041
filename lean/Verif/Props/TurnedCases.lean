import Verif.Props.TurnedSym

/-!
# C124: a concrete case
-/

namespace Verif.Turned
open Verif Verif.Mlp Verif.SameCrystal
open Verif.Neighbor (Vec r2 Mat cellTrans cellPos refAny)
open Matrix

/-- A cubic cell. -/
noncomputable def exAxes : Mat := !![6, 0, 0; 0, 6, 0; 0, 0, 6]

/-- Two atoms at the distance `√2`. -/
noncomputable def exPos (i : ℕ) : Vec ℝ := if i = 0 then 0 else ![1, 1, 0]

/-- A rotation about the z axis followed by a reflection at the xy plane. -/
noncomputable def exTurn : Mat := !![3/5, -4/5, 0; 4/5, 3/5, 0; 0, 0, -1]

theorem exTurn_orth : Spec.Orthogonal3 exTurn ∧ exTurn.det = -1 := by
  refine ⟨?_, ?_⟩
  · unfold Spec.Orthogonal3
    ext i j
    fin_cases i <;> fin_cases j <;> simp [exTurn, Matrix.mul_apply, Fin.sum_univ_three] <;> norm_num
  · rw [Matrix.det_fin_three]
    simp [exTurn]
    norm_num

theorem exAxes_det : exAxes.det ≠ 0 := by
  rw [Matrix.det_fin_three]
  simp [exAxes]

theorem exAxes_ref : ¬ refAny exAxes := by
  unfold refAny Neighbor.ref Neighbor.dotc exAxes
  simp
  norm_num

theorem exPos_cell (v : Vec ℝ) : cellPos exAxes v = v := by
  unfold cellPos
  rw [if_neg exAxes_ref]

/-- All translations are triples of multiples of six. -/
theorem exTrans (t : Vec ℝ) (h : t ∈ Spec.lattice exAxes) : ∃ v : Fin 3 → ℤ, ∀ k, t k = 6 * v k := by
  rw [Neighbor.mem_lattice] at h
  obtain ⟨v, rfl⟩ := h
  refine ⟨v, fun k => ?_⟩
  fin_cases k <;> simp [exAxes, Matrix.mulVec, dotProduct, Fin.sum_univ_three, Neighbor.castV]

theorem exDist (t : Vec ℝ) (h : t ∈ Spec.lattice exAxes) (δ : Vec ℝ) (hδ : ∀ k, |δ k| ≤ 1) :
    t = 0 ∨ 25 ≤ r2 (δ + t) := by
  obtain ⟨v, hv⟩ := exTrans t h
  by_cases h0 : ∀ k, v k = 0
  · left
    funext k
    rw [hv k, h0 k]; simp
  · right
    push Not at h0
    obtain ⟨k, hk⟩ := h0
    have h1 : (1 : ℝ) ≤ |(v k : ℝ)| := by
      have := Int.one_le_abs hk
      exact_mod_cast this
    have h2 : (5 : ℝ) ≤ |(δ + t) k| := by
      rw [Pi.add_apply, hv k]
      have h3 : |6 * (v k : ℝ)| ≤ |δ k + 6 * v k| + |δ k| := by
        have := abs_sub_abs_le_abs_sub (6 * (v k : ℝ)) (-δ k)
        rw [abs_neg, sub_neg_eq_add, add_comm (6 * (v k : ℝ))] at this
        linarith
      rw [abs_mul] at h3
      have := hδ k
      norm_num at h3
      linarith
    have h4 : (25 : ℝ) ≤ (δ + t) k * (δ + t) k := by
      rw [← abs_mul_abs_self]
      nlinarith
    have h5 : (δ + t) k * (δ + t) k ≤ r2 (δ + t) := by
      unfold r2
      have a0 := mul_self_nonneg ((δ + t) 0)
      have a1 := mul_self_nonneg ((δ + t) 1)
      have a2 := mul_self_nonneg ((δ + t) 2)
      fin_cases k
      · show (δ + t) 0 * (δ + t) 0 ≤ _; linarith
      · show (δ + t) 1 * (δ + t) 1 ≤ _; linarith
      · show (δ + t) 2 * (δ + t) 2 ≤ _; linarith
    exact h4.trans h5

theorem exPos_diff (i j : ℕ) (hi : i < 2) (hj : j < 2) : (∀ k, |(exPos j - exPos i) k| ≤ 1) ∧
    (i = j ∨ r2 (exPos j - exPos i) = 2) ∧ (i = j → exPos j - exPos i = 0) := by
  refine ⟨fun k => ?_, ?_, fun h => by rw [h, sub_self]⟩
  · interval_cases i <;> interval_cases j <;> fin_cases k <;> simp [exPos]
  · interval_cases i <;> interval_cases j <;> simp [exPos, r2] <;> norm_num

theorem exLong : Spec.LongTranslations (Spec.lattice exAxes) (1 / 10) := by
  intro t ht
  rcases exDist t ht 0 (fun k => by simp) with h | h
  · exact Or.inl h
  · right
    rw [zero_add] at h
    refine lt_of_lt_of_le ?_ h
    norm_num

theorem exLat (t : Vec ℝ) (h : t ∈ cellTrans exAxes exGrad.cutoff) : t ∈ Spec.lattice exAxes :=
  Neighbor.C23_translations exAxes exGrad.cutoff t h

theorem exSep : Separated (1 / 10) (cellTrans exAxes exGrad.cutoff) (fun j => cellPos exAxes (exPos j)) 2 := by
  refine ⟨fun t h => exLong t (exLat t h), fun i hi j hj t h => ?_⟩
  simp only [exPos_cell]
  obtain ⟨h1, h2, h3⟩ := exPos_diff i j hi hj
  rcases exDist t (exLat t h) _ h1 with rfl | h4
  · rcases h2 with rfl | h2
    · exact Or.inl ⟨rfl, rfl⟩
    · right; rw [add_zero, h2]; norm_num
  · right
    refine lt_of_lt_of_le ?_ h4
    norm_num

theorem exOff : OffThreshold exGrad (cellTrans exAxes exGrad.cutoff) (fun j => cellPos exAxes (exPos j)) 2 := by
  intro i hi j hj t h m hm
  simp only [exPos_cell]
  apply exGrad_rad m hm
  obtain ⟨h1, h2, h3⟩ := exPos_diff i j hi hj
  rcases exDist t (exLat t h) _ h1 with rfl | h4
  · right
    refine ⟨Real.sqrt_nonneg _, Real.sqrt_le_iff.2 ⟨by norm_num, ?_⟩⟩
    rw [add_zero]
    rcases h2 with h2 | h2
    · rw [h3 h2]; simp [r2]; norm_num
    · rw [h2]; norm_num
  · left
    apply Real.le_sqrt_of_sq_le
    refine le_trans ?_ h4
    norm_num

theorem exCond : ∀ i j, (exGrad.cond i j).Nodup := by
  intro i j
  show (if i = j then [0] else [0, 1]).Nodup
  split_ifs <;> decide

/-- Two atoms in a cubic cell, turned and reflected, meet all hypotheses of C124. -/
example (c : ℕ → ℝ) :
    let R := evalGtinv exGrad Real.sqrt (exGrad.pot c) (fun _ => 0) 2 (halfList exAxes 3 (1 / 10) exPos 2)
    let R' := evalGtinv exGrad Real.sqrt (exGrad.pot c) (fun _ => 0) 2
      (halfList (exTurn * exAxes) 3 (1 / 10) (fun j => exTurn *ᵥ exPos j) 2)
    Spec.TurnedProps 2 exTurn R.energy R'.energy R.forces R'.forces R.stress R'.stress := by
  refine C124_invariant_properties exGrad ⟨rfl, rfl, rfl⟩ (fun n => (1, n)) ⟨rfl, rfl⟩ ?_ ?_ _ exCond exRot_table
    exTurn_orth.1 2 (1 / 10) (by norm_num) ?_ c exAxes exAxes_det exPos exLong exSep exOff
    (fun _ _ => Or.inl exGrad_map) (fun _ _ => Or.inl exGrad_map)
  · show (0 : ℝ) < 3; norm_num
  · show (0 : ℝ) < 1 / 1000; norm_num
  · intro i _
    show 0 < _
    decide

/-- The inversion. -/
noncomputable def exInv : Mat := !![-1, 0, 0; 0, -1, 0; 0, 0, -1]

theorem exInv_orth : Spec.Orthogonal3 exInv ∧ exInv.det = -1 := by
  refine ⟨?_, ?_⟩
  · unfold Spec.Orthogonal3
    ext i j
    fin_cases i <;> fin_cases j <;> simp [exInv, Matrix.mul_apply, Fin.sum_univ_three]
  · rw [Matrix.det_fin_three]
    simp [exInv]

theorem exInv_mul (v : Vec ℝ) : exInv *ᵥ v = ![-v 0, -v 1, -v 2] := by
  funext k
  fin_cases k <;> simp [exInv, Matrix.mulVec, dotProduct, Fin.sum_univ_three]

/-- The inversion at the point between the two atoms exchanges them. -/
theorem exInv_sym : Spec.CrystalSymmetry 2 (fun _ => 0) exPos (Spec.lattice exAxes) exInv ![1, 1, 0]
    (fun i => 1 - i) := by
  have hz : (0 : Vec ℝ) ∈ Spec.lattice exAxes := (Neighbor.mem_lattice _ _).2 ⟨0, by
    funext k; fin_cases k <;> simp [exAxes, Matrix.mulVec, dotProduct, Fin.sum_univ_three, Neighbor.castV]⟩
  have hfwd : ∀ t, t ∈ Spec.lattice exAxes → exInv *ᵥ t ∈ Spec.lattice exAxes := by
    intro t h
    rw [Neighbor.mem_lattice] at h ⊢
    obtain ⟨v, rfl⟩ := h
    refine ⟨![-v 0, -v 1, -v 2], ?_⟩
    funext k
    fin_cases k <;> simp [exAxes, exInv, Matrix.mulVec, dotProduct, Fin.sum_univ_three, Neighbor.castV]
  refine ⟨exInv_orth.1, fun t => ⟨fun h => ?_, hfwd t⟩, fun i hi => ?_, fun j hj => ?_⟩
  · have h1 := hfwd _ h
    have h2 : exInv *ᵥ (exInv *ᵥ t) = t := by
      funext k
      fin_cases k <;> simp [exInv, Matrix.mulVec, dotProduct, Fin.sum_univ_three]
    rwa [h2] at h1
  · refine ⟨by omega, rfl, ?_⟩
    have h0 : exInv *ᵥ exPos i + ![1, 1, 0] - exPos (1 - i) = 0 := by
      rw [exInv_mul]
      interval_cases i <;> funext k <;> fin_cases k <;> simp [exPos]
    rw [h0]
    exact hz
  · refine ⟨1 - j, ⟨by omega, by omega⟩, fun i hi => ?_⟩
    obtain ⟨h1, h2⟩ := hi
    omega

theorem exNeighbors : Spec.AllNeighbors 2 exPos (Spec.lattice exAxes) 3 (1 / 10) (fullList exAxes 3 (1 / 10) exPos 2).row := by
  refine C123_search_orthogonal exAxes exAxes_det ?_ ?_ ?_ 3 (1 / 10) (by norm_num) exPos 2 fun j hj => ?_
  · simp [Neighbor.dotc, exAxes]
  · simp [Neighbor.dotc, exAxes]
  · simp [Neighbor.dotc, exAxes]
  · refine ⟨if j = 0 then 0 else ![1/6, 1/6, 0], ?_, ?_⟩
    · intro k
      interval_cases j <;> fin_cases k <;> norm_num
    · interval_cases j <;> funext k <;> fin_cases k <;>
        simp [exPos, exAxes, Matrix.mulVec, dotProduct, Fin.sum_univ_three]

/-- The forces of the two atoms go into each other and the stress has the symmetry. -/
example (c : ℕ → ℝ) :
    let R := evalGtinv exGrad Real.sqrt (exGrad.pot c) (fun _ => 0) 2 (halfList exAxes 3 (1 / 10) exPos 2)
    Spec.SymmetricProps 2 exInv (fun i => 1 - i) R.forces R.stress := by
  refine C124_symmetry_invariant (tol := 1 / 10) exGrad ⟨rfl, rfl, rfl⟩ (fun n => (1, n)) ⟨rfl, rfl⟩ ?_ ?_ exCond exRot_table c
    exAxes_det (by norm_num) ?_ exLong exSep exOff (fun _ _ => Or.inl exGrad_map) exNeighbors exInv_sym
  · show (0 : ℝ) < 3; norm_num
  · show (0 : ℝ) < 1 / 1000; norm_num
  · intro i _
    show 0 < _
    decide

/-- Inversion at the first atom and at the centre of the cell. -/
example (p : PairParams ℝ) (hp : 1 < p.nType) (sqrt : ℝ → ℝ) (c : ℕ → ℝ) (q : ℕ) (hq : q < 2) :
    (evalPair p sqrt (p.pot c) (fun i => i) 2 (halfList exAxes 4 (1 / 10)
      (fun i => if i = 0 then 0 else ![3, 3, 3]) 2)).forces q = 0 := by
  refine C124_inversion_pair (a := exAxes) (tol := 1 / 10) (s := 0) (σ := fun i => i) p sqrt c exAxes_det
    (by norm_num) (fun i hi => by omega) exLong ?_ ?_ q hq rfl
  · refine C123_search_orthogonal exAxes exAxes_det ?_ ?_ ?_ 4 (1 / 10) (by norm_num) _ 2 fun j hj => ?_
    · simp [Neighbor.dotc, exAxes]
    · simp [Neighbor.dotc, exAxes]
    · simp [Neighbor.dotc, exAxes]
    · refine ⟨if j = 0 then 0 else ![1/2, 1/2, 1/2], ?_, ?_⟩
      · intro k
        interval_cases j <;> fin_cases k <;> norm_num
      · interval_cases j <;> funext k <;> fin_cases k <;>
          simp [exAxes, Matrix.mulVec, dotProduct, Fin.sum_univ_three] <;> norm_num
  · have hneg := fun t (h : t ∈ Spec.lattice exAxes) => Neighbor.neg_mem_lattice exAxes h
    refine ⟨by simp [Spec.Orthogonal3], fun t => ⟨fun h => ?_, fun h => ?_⟩, fun i hi => ⟨hi, rfl, ?_⟩,
      fun j hj => ⟨j, ⟨hj, rfl⟩, fun i h => h.2⟩⟩
    · rw [neg_mulVec, one_mulVec] at h
      have := hneg _ h
      rwa [neg_neg] at this
    · rw [neg_mulVec, one_mulVec]; exact hneg t h
    · rw [Neighbor.mem_lattice]
      refine ⟨if i = 0 then 0 else ![-1, -1, -1], ?_⟩
      interval_cases i <;> funext k <;> fin_cases k <;>
        simp [exAxes, Matrix.mulVec, dotProduct, Fin.sum_univ_three, Neighbor.castV] <;> norm_num

/-- Three atoms on a line. -/
noncomputable def exLine (i : ℕ) : Vec ℝ := if i = 0 then ![1, 0, 0] else if i = 1 then ![3/2, 0, 0] else ![1/2, 0, 0]

theorem exLine_diff (i j : ℕ) (hi : i < 3) (hj : j < 3) : (∀ k, |(exLine j - exLine i) k| ≤ 1) ∧
    (i = j ∨ 1 / 4 ≤ r2 (exLine j - exLine i)) ∧ r2 (exLine j - exLine i) ≤ 1 ∧
    (i = j → exLine j - exLine i = 0) := by
  refine ⟨fun k => ?_, ?_, ?_, fun h => by rw [h, sub_self]⟩
  · interval_cases i <;> interval_cases j <;> fin_cases k <;> simp [exLine] <;> norm_num [abs_le]
  · interval_cases i <;> interval_cases j <;> simp [exLine, r2] <;> norm_num
  · interval_cases i <;> interval_cases j <;> simp [exLine, r2] <;> norm_num

theorem exLine_sep : Separated (1 / 10) (cellTrans exAxes exGrad.cutoff) (fun j => cellPos exAxes (exLine j)) 3 := by
  refine ⟨fun t h => exLong t (exLat t h), fun i hi j hj t h => ?_⟩
  simp only [exPos_cell]
  obtain ⟨h1, h2, h3, -⟩ := exLine_diff i j hi hj
  rcases exDist t (exLat t h) _ h1 with rfl | h4
  · rcases h2 with rfl | h2
    · exact Or.inl ⟨rfl, rfl⟩
    · right
      rw [add_zero]
      refine lt_of_lt_of_le ?_ h2
      norm_num
  · right
    refine lt_of_lt_of_le ?_ h4
    norm_num

theorem exLine_off : OffThreshold exGrad (cellTrans exAxes exGrad.cutoff) (fun j => cellPos exAxes (exLine j)) 3 := by
  intro i hi j hj t h m hm
  simp only [exPos_cell]
  apply exGrad_rad m hm
  obtain ⟨h1, -, h3, -⟩ := exLine_diff i j hi hj
  rcases exDist t (exLat t h) _ h1 with rfl | h4
  · right
    refine ⟨Real.sqrt_nonneg _, Real.sqrt_le_iff.2 ⟨by norm_num, ?_⟩⟩
    rw [add_zero]
    refine h3.trans ?_
    norm_num
  · left
    apply Real.le_sqrt_of_sq_le
    refine le_trans ?_ h4
    norm_num

/-- Inversion at the atom in the middle of a line of three atoms. -/
example (c : ℕ → ℝ) : (evalGtinv exGrad Real.sqrt (exGrad.pot c) (fun _ => 0) 3
    (halfList exAxes 3 (1 / 10) exLine 3)).forces 0 = 0 := by
  refine C124_inversion_invariant (a := exAxes) (tol := 1 / 10) (s := ![2, 0, 0]) (pos := exLine)
    (σ := fun i => if i = 0 then 0 else 3 - i) exGrad ⟨rfl, rfl, rfl⟩ (fun n => (1, n)) ⟨rfl, rfl⟩ ?_ ?_ exCond
    exRot_table c exAxes_det (by norm_num) ?_ exLong exLine_sep exLine_off (fun _ _ => Or.inl exGrad_map) ?_ ?_ 0
    (by norm_num) rfl
  · show (0 : ℝ) < 3; norm_num
  · show (0 : ℝ) < 1 / 1000; norm_num
  · intro i _
    show 0 < _
    decide
  · refine C123_search_orthogonal exAxes exAxes_det ?_ ?_ ?_ 3 (1 / 10) (by norm_num) _ 3 fun j hj => ?_
    · simp [Neighbor.dotc, exAxes]
    · simp [Neighbor.dotc, exAxes]
    · simp [Neighbor.dotc, exAxes]
    · refine ⟨if j = 0 then ![1/6, 0, 0] else if j = 1 then ![1/4, 0, 0] else ![1/12, 0, 0], ?_, ?_⟩
      · intro k
        interval_cases j <;> fin_cases k <;> norm_num
      · interval_cases j <;> funext k <;> fin_cases k <;>
          simp [exLine, exAxes, Matrix.mulVec, dotProduct, Fin.sum_univ_three] <;> norm_num
  · have hneg := fun t (h : t ∈ Spec.lattice exAxes) => Neighbor.neg_mem_lattice exAxes h
    refine ⟨by simp [Spec.Orthogonal3], fun t => ⟨fun h => ?_, fun h => ?_⟩, fun i hi => ⟨?_, rfl, ?_⟩,
      fun j hj => ⟨if j = 0 then 0 else 3 - j, ?_, ?_⟩⟩
    · rw [neg_mulVec, one_mulVec] at h
      have := hneg _ h
      rwa [neg_neg] at this
    · rw [neg_mulVec, one_mulVec]; exact hneg t h
    · interval_cases i <;> simp
    · rw [Neighbor.mem_lattice]
      refine ⟨0, ?_⟩
      rw [neg_mulVec, one_mulVec]
      interval_cases i <;> funext k <;> fin_cases k <;>
        simp [exLine, exAxes, Matrix.mulVec, dotProduct, Fin.sum_univ_three, Neighbor.castV] <;> norm_num
    · interval_cases j <;> simp
    · rintro i ⟨hi, rfl⟩
      interval_cases i <;> simp

end Verif.Turned
