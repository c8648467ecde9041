import Verif.Model.Weights
import Mathlib.Tactic.Linarith
import Mathlib.Tactic.NormNum
import Mathlib.Tactic.Positivity
import Mathlib.Analysis.SpecialFunctions.Pow.Real
import Mathlib.Algebra.Order.Field.Rat

namespace Verif.Weights
variable {K : Type} [Field K] [LinearOrder K] [IsStrictOrderedRing K]

/-- **C14, energies.** The weight is one of 1, 0.5, 0.3, 0.1, and a structure with a higher energy per
atom never has a larger weight. -/
theorem C14_energy_values (minE e : K) (n : ℕ) :
    weightEnergy minE e n ∈ ({1, 1 / 2, 3 / 10, 1 / 10} : Set K) := by
  unfold weightEnergy
  simp only
  split_ifs <;> simp

theorem C14_energy_antitone (minE e e' : K) (n n' : ℕ) (h : e / (n : K) ≤ e' / (n' : K)) :
    weightEnergy minE e' n' ≤ weightEnergy minE e n := by
  unfold weightEnergy
  simp only
  have a : (1 : K) / 10 ≤ 3 / 10 := by norm_num
  have b : (3 : K) / 10 ≤ 1 / 2 := by norm_num
  have c : (1 : K) / 2 ≤ 1 := by norm_num
  split_ifs <;> first | linarith | (exfalso; linarith)

/-- Which weight is given: with a non-positive reference energy `E₀` the energy axis is cut at
`0.75 E₀`, `0.5 E₀` and `0`. -/
theorem C14_energy_bins (minE e : K) (n : ℕ) (hm : minE ≤ 0) :
    (e / (n : K) ≤ minE * (3 / 4) → weightEnergy minE e n = 1) ∧
    (minE * (3 / 4) < e / (n : K) → e / (n : K) ≤ minE * (1 / 2) → weightEnergy minE e n = 1 / 2) ∧
    (minE * (1 / 2) < e / (n : K) → e / (n : K) ≤ 0 → weightEnergy minE e n = 3 / 10) ∧
    (0 < e / (n : K) → weightEnergy minE e n = 1 / 10) := by
  unfold weightEnergy
  simp only
  refine ⟨?_, ?_, ?_, ?_⟩
  · intro h
    rw [if_neg (by linarith), if_neg (by linarith), if_neg (by linarith)]
  · intro h1 h2
    rw [if_neg (by linarith), if_neg (by linarith), if_pos h1]
  · intro h1 h2
    rw [if_neg (by linarith), if_pos h1]
  · intro h
    rw [if_pos h]

/-- The most stable structure always has weight 1 (for a non-positive energy). -/
theorem C14_energy_ground_state (e : K) (n : ℕ) (h : e / (n : K) ≤ 0) :
    weightEnergy (e / (n : K)) e n = 1 :=
  (C14_energy_bins (e / (n : K)) e n h).1 (by linarith)

/-- For a positive reference energy everything above zero has the lowest weight. -/
theorem C14_energy_positive_reference (minE e : K) (n : ℕ) (h : 0 < e / (n : K)) :
    weightEnergy minE e n = 1 / 10 := by
  unfold weightEnergy
  simp only
  rw [if_pos h]

/-- **C14, forces.** The weight is `1 / max(1, |f|)`. -/
theorem C14_force_eq (tol f : K) (h0 : 0 < tol) (h1 : tol ≤ 1) :
    weightForce tol f = 1 / max 1 |f| := by
  unfold weightForce
  simp only
  by_cases ht : |f| < tol
  · rw [if_pos ht, max_eq_left (by linarith)]
    have : (1 : K) ≤ tol⁻¹ := (one_le_inv₀ h0).mpr h1
    rcases this.lt_or_eq with h | h
    · rw [if_pos h]; simp
    · rw [← h]; simp
  · rw [if_neg ht]
    push Not at ht
    have hp : 0 < |f| := lt_of_lt_of_le h0 ht
    rcases le_total |f| 1 with h | h
    · rw [max_eq_left h]
      have : (1 : K) ≤ |f|⁻¹ := (one_le_inv₀ hp).mpr h
      rcases this.lt_or_eq with h | h
      · rw [if_pos h]; simp
      · rw [← h]; simp
    · rw [max_eq_right h, if_neg]
      · simp
      · rw [gt_iff_lt, not_lt]
        exact inv_le_one_of_one_le₀ h

theorem C14_force_bounds (tol f : K) (h0 : 0 < tol) (h1 : tol ≤ 1) :
    0 < weightForce tol f ∧ weightForce tol f ≤ 1 ∧ |weightForce tol f * f| ≤ 1 ∧
      (weightForce tol f = 1 ↔ |f| ≤ 1) := by
  rw [C14_force_eq tol f h0 h1]
  have hp : (0 : K) < max 1 |f| := lt_of_lt_of_le one_pos (le_max_left _ _)
  refine ⟨by positivity, ?_, ?_, ?_⟩
  · rw [div_le_one hp]; exact le_max_left _ _
  · rw [abs_mul, abs_of_pos (by positivity : (0 : K) < 1 / max 1 |f|), one_div, inv_mul_le_iff₀ hp]
    simp
  · rw [div_eq_one_iff_eq hp.ne']
    constructor
    · intro h; exact le_of_le_of_eq (le_max_right _ _) h.symm
    · intro h; rw [max_eq_left h]

theorem C14_force_antitone (tol f f' : K) (h0 : 0 < tol) (h1 : tol ≤ 1) (h : |f| ≤ |f'|) :
    weightForce tol f' ≤ weightForce tol f := by
  rw [C14_force_eq tol f h0 h1, C14_force_eq tol f' h0 h1]
  apply one_div_le_one_div_of_le
  · exact lt_of_lt_of_le one_pos (le_max_left _ _)
  · exact max_le_max le_rfl h

/-- **C14, stresses.** For a positive constant `c = weight_stress * weight`: the weight is
`c * min(1, 5^(-log10 max(|s|, tol)))`. -/
theorem C14_stress_eq (tol c s : ℝ) :
    weightStress tol c s = min 1 ((5 : ℝ) ^ (-Real.logb 10 (max |s| tol))) * c := by
  unfold weightStress
  simp only
  have : (if |s| > tol then Real.logb 10 |s| else Real.logb 10 tol) = Real.logb 10 (max |s| tol) := by
    split_ifs with h
    · rw [max_eq_left h.le]
    · rw [max_eq_right (not_lt.mp h)]
  rw [this]
  congr 1
  split_ifs with h
  · rw [min_eq_left h.le]
  · rw [min_eq_right (not_lt.mp h)]

theorem C14_stress_bounds (tol c s : ℝ) (h0 : 0 < tol) (h1 : tol ≤ 1) (hc : 0 < c) :
    0 < weightStress tol c s ∧ weightStress tol c s ≤ c ∧ (weightStress tol c s = c ↔ |s| ≤ 1) := by
  rw [C14_stress_eq]
  have hm : 0 < max |s| tol := lt_of_lt_of_le h0 (le_max_right _ _)
  have hpos : (0 : ℝ) < (5 : ℝ) ^ (-Real.logb 10 (max |s| tol)) := by positivity
  refine ⟨by positivity, ?_, ?_⟩
  · calc _ ≤ 1 * c := by gcongr; exact min_le_left _ _
      _ = c := one_mul c
  · constructor
    · intro h
      have h' : min 1 ((5 : ℝ) ^ (-Real.logb 10 (max |s| tol))) = 1 := by
        have := mul_right_cancel₀ hc.ne' (h.trans (one_mul c).symm)
        exact this
      have h2 : (1 : ℝ) ≤ (5 : ℝ) ^ (-Real.logb 10 (max |s| tol)) := by
        rw [← h']; exact min_le_right _ _
      by_contra hs
      push Not at hs
      have h3 : 0 < Real.logb 10 (max |s| tol) :=
        Real.logb_pos (by norm_num) (lt_of_lt_of_le hs (le_max_left _ _))
      have := Real.rpow_lt_one_of_one_lt_of_neg (x := 5) (by norm_num)
        (show -Real.logb 10 (max |s| tol) < 0 by linarith)
      linarith
    · intro h
      have h3 : Real.logb 10 (max |s| tol) ≤ 0 :=
        Real.logb_nonpos (by norm_num) hm.le (max_le h h1)
      have h4 : (1 : ℝ) ≤ (5 : ℝ) ^ (-Real.logb 10 (max |s| tol)) :=
        Real.one_le_rpow (by norm_num) (by linarith)
      rw [min_eq_left h4, one_mul]

theorem C14_stress_antitone (tol c s s' : ℝ) (h0 : 0 < tol) (hc : 0 ≤ c) (h : |s| ≤ |s'|) :
    weightStress tol c s' ≤ weightStress tol c s := by
  rw [C14_stress_eq, C14_stress_eq]
  have hm : 0 < max |s| tol := lt_of_lt_of_le h0 (le_max_right _ _)
  have hl : Real.logb 10 (max |s| tol) ≤ Real.logb 10 (max |s'| tol) :=
    Real.logb_le_logb_of_le (by norm_num) hm (max_le_max h le_rfl)
  apply mul_le_mul_of_nonneg_right _ hc
  apply min_le_min le_rfl
  exact Real.rpow_le_rpow_of_exponent_le (by norm_num) (by linarith)

/-! ## The reference energy -/

theorem foldl_min_spec (l : List (K × ℕ)) (a : K) :
    let m := l.foldl (fun m q => min m (q.1 / (q.2 : K))) a
    m ≤ a ∧ (∀ q ∈ l, m ≤ q.1 / (q.2 : K)) ∧ (m = a ∨ ∃ q ∈ l, m = q.1 / (q.2 : K)) := by
  induction l generalizing a with
  | nil => simp
  | cons q l ih =>
    obtain ⟨h1, h2, h3⟩ := ih (min a (q.1 / (q.2 : K)))
    simp only [List.foldl_cons, List.mem_cons, forall_eq_or_imp, exists_eq_or_imp]
    refine ⟨h1.trans (min_le_left _ _), ⟨h1.trans (min_le_right _ _), h2⟩, ?_⟩
    rcases h3 with h3 | h3
    · rcases min_choice a (q.1 / (q.2 : K)) with h | h
      · left; rw [h3, h]
      · right; left; rw [h3, h]
    · right; right; exact h3

theorem getMinEnergy_fold (D : List (List (K × ℕ))) (hD : ∀ d ∈ D, d ≠ []) (a : K) :
    ∃ m, D.foldlM (fun m d => do
        let t ← minPerAtom d
        return if t < m then t else m) a = Except.ok (ε := Err) m ∧ m ≤ a ∧
      (∀ q ∈ D.flatten, m ≤ q.1 / (q.2 : K)) ∧ (m = a ∨ ∃ q ∈ D.flatten, m = q.1 / (q.2 : K)) := by
  induction D generalizing a with
  | nil => exact ⟨a, rfl, le_rfl, by simp, .inl rfl⟩
  | cons d D ih =>
    cases d with
    | nil => exact absurd rfl (hD [] (by simp))
    | cons q l =>
      obtain ⟨e, n⟩ := q
      obtain ⟨t1, t2, t3⟩ := foldl_min_spec l (e / (n : K))
      set t := l.foldl (fun m q => min m (q.1 / (q.2 : K))) (e / (n : K)) with ht
      obtain ⟨m, hm, h1, h2, h3⟩ := ih (fun d hd => hD d (by simp [hd])) (if t < a then t else a)
      have hle : (if t < a then t else a) = min t a := by
        split_ifs with h
        · rw [min_eq_left h.le]
        · rw [min_eq_right (not_lt.mp h)]
      rw [hle] at h1 h3
      refine ⟨m, ?_, h1.trans (min_le_right _ _), ?_, ?_⟩
      · rw [List.foldlM_cons]
        simp only [minPerAtom, bind, Except.bind, pure, Except.pure, ← ht]
        simpa only [minPerAtom, bind, Except.bind, pure, Except.pure] using hm
      · intro q hq
        rw [List.flatten_cons, List.mem_append, List.mem_cons] at hq
        have hmt : m ≤ t := h1.trans (min_le_left _ _)
        rcases hq with (rfl | hq) | hq
        · exact hmt.trans t1
        · exact hmt.trans (t2 q hq)
        · exact h2 q hq
      · rcases h3 with h3 | ⟨q, hq, h3⟩
        · rcases min_choice t a with h | h
          · right
            rw [h] at h3
            rcases t3 with t3 | ⟨q, hq, t3⟩
            · exact ⟨(e, n), by simp, by rw [h3, t3]⟩
            · exact ⟨q, by simp [hq], by rw [h3, t3]⟩
          · left; rw [h3, h]
        · right; exact ⟨q, by simp [hq], h3⟩

/-- **C14, reference energy.** For non-empty data sets whose energies per atom are not all above
`10^10`, the reference energy used for the weights is the lowest energy per atom of all data. -/
theorem C14_reference_energy (D : List (List (K × ℕ))) (hD : ∀ d ∈ D, d ≠ [])
    (hb : ∃ q ∈ D.flatten, q.1 / (q.2 : K) < 10 ^ 10) :
    ∃ m, getMinEnergy D = .ok m ∧ (∃ q ∈ D.flatten, m = q.1 / (q.2 : K)) ∧
      ∀ q ∈ D.flatten, m ≤ q.1 / (q.2 : K) := by
  obtain ⟨m, hm, h1, h2, h3⟩ := getMinEnergy_fold D hD (10 ^ 10)
  refine ⟨m, hm, ?_, h2⟩
  rcases h3 with h3 | h3
  · obtain ⟨q, hq, hlt⟩ := hb
    exact absurd (h2 q hq) (by rw [h3]; exact not_le.mpr hlt)
  · exact h3

/-- An empty data set is reported. -/
theorem C14_reference_energy_empty (A B : List (List (K × ℕ))) (hA : ∀ d ∈ A, d ≠ []) :
    getMinEnergy (A ++ [] :: B) = .error .runtimeError := by
  obtain ⟨m, hm, -⟩ := getMinEnergy_fold A hA (10 ^ 10)
  unfold getMinEnergy
  rw [List.foldlM_append, hm]
  rfl

/-- Concrete case: two data sets, energies per atom −4, −2.5, −1.5, 1. -/
example : getMinEnergy [[((-8 : ℚ), 2), (-5, 2)], [(-3, 2), (1, 1)]] = .ok (-4) ∧
    weightEnergy (-4 : ℚ) (-8) 2 = 1 ∧ weightEnergy (-4 : ℚ) (-5) 2 = 1 / 2 ∧
    weightEnergy (-4 : ℚ) (-3) 2 = 3 / 10 ∧ weightEnergy (-4 : ℚ) 1 1 = 1 / 10 ∧
    weightForce (1 / 10 ^ 12 : ℚ) (-4) = 1 / 4 ∧ weightForce (1 / 10 ^ 12 : ℚ) 0 = 1 := by
  decide +kernel

/-- Concrete case: `|s| = 10` has weight `c / 5`. -/
example : weightStress (1 / 10 ^ 12) 2 (-10) = 2 / 5 := by
  have h : max |(-10 : ℝ)| (1 / 10 ^ 12) = 10 := by
    rw [abs_neg, abs_of_pos (by norm_num)]
    exact max_eq_left (by norm_num)
  have h10 : Real.logb 10 10 = 1 := Real.logb_self_eq_one (by norm_num)
  rw [C14_stress_eq, h, h10, Real.rpow_neg (by norm_num), Real.rpow_one]
  norm_num

end Verif.Weights
