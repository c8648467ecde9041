import Verif.Props.StrGenSym

/-!
# C96: every symmetric structure near the given one can be drawn
-/

namespace Verif.StrGenSym
open Verif.Spec
open Verif.StrGen (Str Vec Mat inv volumeChange mulVec_inv inv_ok mapM_forall₂)
open Verif.OptGeom

/-- The sum of the entries of a column of the basis of the axes is at most two. -/
theorem colAbs (spg k : ℕ) : ((List.range 9).map fun q => |colEntry (basisCell spg) q k|).sum ≤ 2 := by
  have h2 := sqrt2_ge
  have h3 := sqrt3_ge
  have h3' := sqrt3_le
  have s2 : √2 * √2 = 2 := Real.mul_self_sqrt (by norm_num)
  have s3 : √3 * √3 = 3 := Real.mul_self_sqrt (by norm_num)
  have p2 : 0 < √2 := by positivity
  have p3 : 0 < √3 := by positivity
  have i2 : (√2)⁻¹ ≤ 1 := inv_le_one_of_one_le₀ h2
  have i3 : (√3)⁻¹ * 3 = √3 := by field_simp; linarith
  have i2' : (√2)⁻¹ * 2 = √2 := by field_simp; linarith
  have u2 : √2 ≤ 3 / 2 := by rw [Real.sqrt_le_left (by norm_num)]; norm_num
  have u3 : √3 ≤ 9 / 5 := by rw [Real.sqrt_le_left (by norm_num)]; norm_num
  by_cases hk : (basisCell spg).length ≤ k
  · have : ∀ q, colEntry (basisCell spg) q k = 0 := by
      intro q
      unfold colEntry
      have : (basisCell spg).getD k [] = [] := by
        rw [List.getD_eq_getElem?_getD, List.getElem?_eq_none hk]; rfl
      rw [this]
      simp
    simp [this]
  push Not at hk
  by_cases c1 : 195 ≤ spg
  · rw [basisCell_cubic spg c1] at hk ⊢
    simp only [List.length_cons, List.length_nil] at hk
    interval_cases k
    simp [colEntry, List.range_succ, abs_of_pos p3]
    linarith
  by_cases c2 : 143 ≤ spg
  · rw [basisCell_hexagonal spg c2 (by omega)] at hk ⊢
    simp only [List.length_cons, List.length_nil] at hk
    have e4 : |-0.5 / √2| = (√2)⁻¹ / 2 := by
      rw [abs_div, abs_of_pos p2]; norm_num [abs_of_neg]; ring
    have e5 : |√3 / 2 / √2| ≤ (√2)⁻¹ * (9 / 10) := by
      rw [abs_of_nonneg (by positivity), div_eq_mul_inv, mul_comm]
      apply mul_le_mul_of_nonneg_left _ (by positivity)
      linarith
    have e6 : (√2)⁻¹ ≤ 3 / 4 := by linarith
    interval_cases k <;> simp [colEntry, List.range_succ, abs_of_pos p2] at e4 e5 ⊢ <;> linarith
  by_cases c3 : 75 ≤ spg
  · rw [basisCell_tetragonal spg c3 (by omega)] at hk ⊢
    simp only [List.length_cons, List.length_nil] at hk
    interval_cases k <;> simp [colEntry, List.range_succ, abs_of_pos p2] <;> linarith
  by_cases c4 : 16 ≤ spg
  · rw [basisCell_orthorhombic spg c4 (by omega)] at hk ⊢
    simp only [List.length_cons, List.length_nil] at hk
    interval_cases k <;> simp [colEntry, List.range_succ]
  by_cases c5 : 3 ≤ spg
  · rw [basisCell_monoclinic spg c5 (by omega)] at hk ⊢
    simp only [List.length_cons, List.length_nil] at hk
    interval_cases k <;> simp [colEntry, List.range_succ]
  · rw [basisCell_triclinic spg (by omega)] at hk ⊢
    simp only [List.length_cons, List.length_nil, List.length_map, List.length_range] at hk
    interval_cases k <;> simp [colEntry, List.range_succ, unitCol]

theorem sum_bound2 (l : List ℕ) (f g : ℕ → ℝ) (d : ℝ) (hg : ∀ k, |g k| ≤ d) (hd : 0 ≤ d)
    (hf : (l.map fun k => |f k|).sum ≤ 2) : |(l.map fun k => f k * g k).sum| ≤ 2 * d := by
  have h := sum_bound l (fun k => f k / 2) (fun k => 2 * g k) (2 * d)
    (fun k => by rw [abs_mul]; norm_num; linarith [hg k]) (by linarith) (by
      have : (l.map fun k => |f k / 2|) = (l.map fun k => |f k|).map (fun x => x * (1 / 2)) := by
        rw [List.map_map]
        apply List.map_congr_left
        intro k _
        simp only [Function.comp, abs_div]
        norm_num
        ring
      rw [this, List.sum_map_mul_right, List.map_id']
      linarith)
  convert h using 3
  apply List.map_congr_left
  intro k _
  ring

/-- The random number that gives a coefficient. -/
theorem coeff_reached {x d : ℝ} (h : |x| ≤ d) : ∃ r, 0 ≤ r ∧ r ≤ 1 ∧ coeff r d = x := by
  by_cases hd : d = 0
  · subst hd
    refine ⟨0, le_rfl, zero_le_one, ?_⟩
    have : x = 0 := abs_eq_zero.mp (le_antisymm h (abs_nonneg _))
    simp [coeff, this]
  · have hd' : 0 < d := lt_of_le_of_ne (le_trans (abs_nonneg _) h) (Ne.symm hd)
    rw [abs_le] at h
    refine ⟨x / (2 * d) + 1 / 2, ?_, ?_, ?_⟩
    · have : -(1 / 2) ≤ x / (2 * d) := by rw [le_div_iff₀ (by positivity)]; linarith
      linarith
    · have : x / (2 * d) ≤ 1 / 2 := by rw [div_le_iff₀ (by positivity)]; linarith
      linarith
    · unfold coeff
      field_simp
      ring

/-- **C96.** Nothing that has the symmetry is left out, and axes and positions are drawn independently: for all axes of
the shape of the crystal system whose entries differ by at most half of the maximum from the given ones, and for all
combinations of the symmetric displacements with coefficients up to the maximum, there are random numbers for which the
samples have exactly these axes and displacements. -/
theorem C96_all_reached (tol : ℝ) (h0 : 0 < tol) (h1 : tol < 1) (e : Ext) (cell c : Str) (spg m : ℕ) (b : ℕ → ℕ → ℝ)
    (hc : e.standardize cell = .ok c) (hs : e.spaceGroup c = some spg) (hst : Standard spg c.axis)
    (hb : e.basisCartesian c = some (m, b)) (a d : ℝ) (n calls : ℕ)
    (A : ℕ → Mat) (hA : ∀ s, Standard spg (A s) ∧ NearAxes (a / 2) c.axis (A s) ∧ (A s).det ≠ 0)
    (y : ℕ → ℕ → ℝ) (hy : ∀ s k, |y s k| ≤ d) :
    ∃ g rand g' calls', init e cell false false = .ok g ∧ (∀ k r s, 0 ≤ rand k r s ∧ rand k r s ≤ 1) ∧
      run tol rand calls g n a d = .ok (g', calls') ∧ g'.structures.length = n ∧
      ∀ (s : ℕ) t, g'.structures[s]? = some t → t.axis = A s ∧
        ∀ i, i < c.positions.length → MovedBy c t i fun j => ∑ k ∈ Finset.range m, y s k * b (3 * i + j) k := by
  have ha : 0 ≤ a / 2 := le_trans (abs_nonneg _) ((hA 0).2.1 0 0)
  have hx : ∀ s k, |initialCoeffs (basisCell spg) (A s) k - initialCoeffs (basisCell spg) c.axis k| ≤ a := by
    intro s k
    have h := sum_bound2 (List.range 9) (fun q => colEntry (basisCell spg) q k)
      (fun q => A s (Fin.ofNat 3 (q / 3)) (Fin.ofNat 3 q) - c.axis (Fin.ofNat 3 (q / 3)) (Fin.ofNat 3 q)) (a / 2)
      (fun q => (hA s).2.1 _ _) ha (colAbs spg k)
    have e1 : initialCoeffs (basisCell spg) (A s) k - initialCoeffs (basisCell spg) c.axis k =
        ((List.range 9).map fun q => colEntry (basisCell spg) q k *
          (A s (Fin.ofNat 3 (q / 3)) (Fin.ofNat 3 q) - c.axis (Fin.ofNat 3 (q / 3)) (Fin.ofNat 3 q))).sum := by
      simp only [initialCoeffs, List.range_succ, List.range_zero, List.nil_append, List.map_append, List.map_cons,
        List.map_nil, List.sum_append, List.sum_cons, List.sum_nil]
      ring
    rw [e1]
    linarith
  choose rx rx0 rx1 rxe using fun s k => coeff_reached (hx s k)
  choose ry ry0 ry1 rye using fun s k => coeff_reached (hy s k)
  let g : Gen := ⟨c, false, false, some (basisCell spg), some (some (m, b)), []⟩
  let rand : ℕ → ℕ → ℕ → ℝ := fun k r s => if k = calls then rx s r else ry s r
  have hax : ∀ s, (axes rand calls g a).1 s = A s := by
    intro s
    have : (axes rand calls g a).1 s = recoverAxis (basisCell spg) (initialCoeffs (basisCell spg) (A s)) := by
      simp only [axes, g]
      congr 1
      funext k
      simp only [rand, if_pos, rxe]
      ring
    rw [this, recoverAxis_eq]
    exact C66_start spg _ rfl rfl (A s) (hA s).1 _ (by intro k; simp [dummy])
  have hd : ∀ s i, (displacements rand (axes rand calls g a).2 g d).1 s i =
      fun j : Fin 3 => ∑ k ∈ Finset.range m, y s k * b (3 * i + j) k := by
    intro s i
    have h2 : (axes rand calls g a).2 = calls + 1 := rfl
    rw [h2]
    funext j
    simp only [displacements, g, recoverDisps]
    rw [sum_list]
    congr 1
    apply List.map_congr_left
    intro k _
    have : rand (calls + 1) k s = ry s k := by simp [rand]
    rw [this, rye]
    ring
  have hr : ∀ k r s, 0 ≤ rand k r s ∧ rand k r s ≤ 1 := by
    intro k r s
    simp only [rand]
    split
    · exact ⟨rx0 s r, rx1 s r⟩
    · exact ⟨ry0 s r, ry1 s r⟩
  have hinit : init e cell false false = .ok g := by
    simp [init, basisOfAxis, bind, Except.bind, hc, hs, hb, orErr, pure, Except.pure, g]
  have hok : ∃ r, run tol rand calls g n a d = .ok r := by
    have hm : ∀ l : List ℕ, ∃ sts, (l.mapM fun (s : ℕ) => sample tol g.cell ((axes rand calls g a).1 s)
        ((displacements rand (axes rand calls g a).2 g d).1 s)) = Except.ok sts := by
      intro l
      induction l with
      | nil => exact ⟨[], rfl⟩
      | cons s l ih =>
        obtain ⟨sts, h⟩ := ih
        obtain ⟨t, ht⟩ := sample_ok tol g.cell ((axes rand calls g a).1 s)
          ((displacements rand (axes rand calls g a).2 g d).1 s) (by rw [hax]; exact (hA s).2.2)
        exact ⟨t :: sts, by rw [List.mapM_cons, ht, h]; rfl⟩
    obtain ⟨sts, h⟩ := hm (List.range n)
    refine ⟨({ g with structures := g.structures ++ sts }, (displacements rand (axes rand calls g a).2 g d).2), ?_⟩
    simp only [run, bind, Except.bind, h, pure, Except.pure]
  obtain ⟨⟨g', calls'⟩, hrun⟩ := hok
  obtain ⟨new, hg', hl, hnew⟩ := run_spec tol h0 h1 rand calls g n a d g' calls' hrun
  refine ⟨g, rand, g', calls', hinit, hr, hrun, by rw [hg']; simpa [g] using hl, ?_⟩
  intro s t ht
  rw [hg'] at ht
  obtain ⟨b1, b2, b3, b4, b5, b6⟩ := hnew s t (by simpa [g] using ht)
  refine ⟨by rw [b1, hax], fun i hi => ?_⟩
  have := b6 i hi
  rwa [hd] at this

/-- The hypotheses hold: two samples of the cube, one of them larger, with an atom moved in opposite directions. -/
example : ∃ g rand g' calls', init ⟨fun c => .ok c, fun _ => some 221, fun _ => some (1, fun q _ => if q = 0 then 1 else 0)⟩ cubic
      false false = .ok g ∧ (∀ k r s, 0 ≤ rand k r s ∧ rand k r s ≤ (1 : ℝ)) ∧
    run 1e-13 rand 0 g 2 (1 / 5) (1 / 10) = .ok (g', calls') ∧ g'.structures.length = 2 ∧
      ∀ (s : ℕ) t, g'.structures[s]? = some t → t.axis = (if s = 0 then 1 else !![1.1, 0, 0; 0, 1.1, 0; 0, 0, 1.1]) := by
  have hone : Standard 221 (1 : Mat) := by
    rw [Standard, if_pos (by norm_num)]
    refine ⟨1, ?_⟩
    ext i j; fin_cases i <;> fin_cases j <;> simp
  have hst : Standard 221 cubic.axis := by
    have : cubic.axis = 1 := rfl
    rw [this]; exact hone
  obtain ⟨g, rand, g', calls', k1, k2, k3, k4, k5⟩ := C96_all_reached 1e-13 (by norm_num) (by norm_num)
    ⟨fun c => .ok c, fun _ => some 221, fun _ => some (1, fun q _ => if q = 0 then 1 else 0)⟩ cubic cubic 221 1 _ rfl rfl
    hst rfl (1 / 5) (1 / 10) 2 0 (fun s => if s = 0 then 1 else !![1.1, 0, 0; 0, 1.1, 0; 0, 0, 1.1])
    (by
      intro s
      have hc : cubic.axis = 1 := rfl
      rw [hc]
      split
      · refine ⟨hone, ?_, by simp⟩
        intro i j; norm_num
      · refine ⟨?_, ?_, ?_⟩
        · rw [Standard, if_pos (by norm_num)]
          exact ⟨1.1, rfl⟩
        · intro i j
          fin_cases i <;> fin_cases j <;> norm_num [abs_le]
        · rw [Matrix.det_fin_three]; simp; norm_num)
    (fun s _ => if s = 0 then 1 / 10 else -1 / 10) (by intro s k; split <;> norm_num [abs_le])
  exact ⟨g, rand, g', calls', k1, k2, k3, k4, fun s t ht => (k5 s t ht).1⟩

end Verif.StrGenSym
