import Verif.Model.Electron
import Verif.Spec.Electron
import Mathlib.Analysis.Calculus.Deriv.Inv
import Mathlib.Analysis.Calculus.Deriv.Add
import Mathlib.Tactic.LinearCombination
import Mathlib.Tactic.FieldSimp
import Mathlib.Tactic.Positivity

/-!
# C101: electronic properties at finite temperatures
-/

namespace Verif.Electron
open Verif.Spec

/-! ## Sums over levels -/

theorem levelSum_cons (g w : ℝ) (ws : List ℝ) (row : List ℝ) (lv : List (List ℝ)) (q : ℝ → ℝ) :
    levelSum g (w :: ws) (row :: lv) q = g * (w * (row.map q).sum) + levelSum g ws lv q := by
  simp [levelSum, mul_add]

theorem levelSum_nil (g : ℝ) (ws : List ℝ) (lv : List (List ℝ)) (q : ℝ → ℝ)
    (h : ws = [] ∨ lv = []) : levelSum g ws lv q = 0 := by
  rcases h with rfl | rfl <;> simp [levelSum]

theorem sum_lin (row : List ℝ) (a b : ℝ) (p q : ℝ → ℝ) :
    (row.map fun e => a * p e + b * q e).sum = a * (row.map p).sum + b * (row.map q).sum := by
  induction row with
  | nil => simp
  | cons e row ih => simp only [List.map_cons, List.sum_cons, ih]; ring

theorem levelSum_lin (g : ℝ) (ws : List ℝ) (lv : List (List ℝ)) (a b : ℝ) (p q : ℝ → ℝ) :
    levelSum g ws lv (fun e => a * p e + b * q e) =
      a * levelSum g ws lv p + b * levelSum g ws lv q := by
  induction ws generalizing lv with
  | nil => simp [levelSum]
  | cons w ws ih =>
    cases lv with
    | nil => simp [levelSum]
    | cons row lv => rw [levelSum_cons, levelSum_cons, levelSum_cons, ih, sum_lin]; ring

theorem sum_le (row : List ℝ) (p q : ℝ → ℝ) (h : ∀ e ∈ row, p e ≤ q e) :
    (row.map p).sum ≤ (row.map q).sum := by
  induction row with
  | nil => simp
  | cons e row ih =>
    simp only [List.map_cons, List.sum_cons]
    exact add_le_add (h e (by simp)) (ih fun x hx => h x (by simp [hx]))

theorem levelSum_le (g : ℝ) (hg : 0 ≤ g) (ws : List ℝ) (hw : ∀ w ∈ ws, 0 ≤ w)
    (lv : List (List ℝ)) (p q : ℝ → ℝ) (h : ∀ row ∈ lv, ∀ e ∈ row, p e ≤ q e) :
    levelSum g ws lv p ≤ levelSum g ws lv q := by
  induction ws generalizing lv with
  | nil => simp [levelSum]
  | cons w ws ih =>
    cases lv with
    | nil => simp [levelSum]
    | cons row lv =>
      rw [levelSum_cons, levelSum_cons]
      refine add_le_add ?_ (ih (fun x hx => hw x (by simp [hx])) lv fun r hr => h r (by simp [hr]))
      exact mul_le_mul_of_nonneg_left (mul_le_mul_of_nonneg_left
        (sum_le row p q (h row (by simp))) (hw w (by simp))) hg

theorem levelSum_congr (g : ℝ) (ws : List ℝ) (lv : List (List ℝ)) (p q : ℝ → ℝ)
    (h : ∀ row ∈ lv, ∀ e ∈ row, p e = q e) : levelSum g ws lv p = levelSum g ws lv q := by
  induction ws generalizing lv with
  | nil => simp [levelSum]
  | cons w ws ih =>
    cases lv with
    | nil => simp [levelSum]
    | cons row lv =>
      rw [levelSum_cons, levelSum_cons, ih lv fun r hr => h r (by simp [hr]),
        List.map_congr_left (h row (by simp))]

theorem sum_deriv (row : List ℝ) (F : ℝ → ℝ → ℝ) (F' : ℝ → ℝ) (T : ℝ)
    (h : ∀ e, HasDerivAt (fun t => F e t) (F' e) T) :
    HasDerivAt (fun t => (row.map fun e => F e t).sum) (row.map F').sum T := by
  induction row with
  | nil => simpa using hasDerivAt_const T (0 : ℝ)
  | cons e row ih =>
    simp only [List.map_cons, List.sum_cons]
    exact (h e).add ih

theorem levelSum_deriv (g : ℝ) (ws : List ℝ) (lv : List (List ℝ)) (F : ℝ → ℝ → ℝ) (F' : ℝ → ℝ)
    (T : ℝ) (h : ∀ e, HasDerivAt (fun t => F e t) (F' e) T) :
    HasDerivAt (fun t => levelSum g ws lv (fun e => F e t)) (levelSum g ws lv F') T := by
  induction ws generalizing lv with
  | nil => simpa [levelSum] using hasDerivAt_const T (0 : ℝ)
  | cons w ws ih =>
    cases lv with
    | nil => simpa [levelSum] using hasDerivAt_const T (0 : ℝ)
    | cons row lv =>
      simp only [levelSum_cons]
      exact (((sum_deriv row F F' T h).const_mul w).const_mul g).add (ih lv)

/-! ## The occupation -/

/-- The factor `e^x / (e^x + 1)^2`. -/
noncomputable def bell (x : ℝ) : ℝ := Real.exp x / (Real.exp x + 1) ^ 2

theorem bell_pos (x : ℝ) : 0 < bell x := by unfold bell; positivity

theorem bell_neg (x : ℝ) : bell (-x) = bell x := by
  unfold bell
  have := Real.exp_pos x
  rw [Real.exp_neg]
  field_simp
  ring

theorem fermi_deriv (k ε T : ℝ) (μ : ℝ → ℝ) (μ' : ℝ) (hk : 0 < k) (hT : 0 < T)
    (hμ : HasDerivAt μ μ' T) :
    HasDerivAt (fun t => fermi k ε (μ t) t)
      (bell ((ε - μ T) / (k * T)) * ((ε - μ T) / (k * T) / T + μ' / (k * T))) T := by
  have hkT : k * T ≠ 0 := by positivity
  have h1 : HasDerivAt (fun t => (ε - μ t) / (k * t))
      ((-μ' * (k * T) - (ε - μ T) * (k * 1)) / (k * T) ^ 2) T :=
    ((hμ.const_sub ε)).div ((hasDerivAt_id T).const_mul k) hkT
  have h2 := (h1.exp.add_const 1).inv (by positivity)
  have h3 : (fun t => fermi k ε (μ t) t) = fun t => (Real.exp ((ε - μ t) / (k * t)) + 1)⁻¹ := by
    funext t; simp [fermi]
  rw [h3]
  refine h2.congr_deriv ?_
  unfold bell
  have := Real.exp_pos ((ε - μ T) / (k * T))
  field_simp
  ring

theorem clip_id (x : ℝ) (h : |x| ≤ 100) : clip x = x := by
  obtain ⟨h1, h2⟩ := abs_le.1 h
  unfold clip
  by_cases h3 : x < 100
  · by_cases h4 : x > -100
    · simp [h3, h4]
    · simp only [h3, if_true, h4, if_false]; linarith
  · have : x = 100 := by linarith
    subst this; norm_num

theorem clip_high (x : ℝ) (h : 100 ≤ x) : clip x = 100 := by
  unfold clip
  simp only [not_lt.2 h, if_false]
  norm_num

theorem clip_low (x : ℝ) (h : x ≤ -100) : clip x = -100 := by
  unfold clip
  have h1 : x < 100 := by linarith
  simp only [h1, if_true]
  rw [if_neg (by linarith)]

theorem dfdT_eq (kB ε μ T : ℝ) : dfdT kB ε μ T =
    clip ((ε - μ) / (kB * T)) * bell (clip ((ε - μ) / (kB * T))) / T := by
  unfold dfdT bell
  simp only
  by_cases hT : T = 0
  · subst hT; simp
  · have := Real.exp_pos (clip ((ε - μ) / (kB * T)))
    field_simp

/-- C101: for a level within `100 k T` of the chemical potential, the slope used is the derivative
of its occupation with respect to temperature at a fixed chemical potential. -/
theorem C101_slope (kB ε μ T : ℝ) (hk : 0 < kB) (hT : 0 < T) (h : |ε - μ| ≤ 100 * (kB * T)) :
    HasDerivAt (fun t => fermi kB ε μ t) (dfdT kB ε μ T) T := by
  have hx : |(ε - μ) / (kB * T)| ≤ 100 := by
    rw [abs_div, abs_of_pos (by positivity : 0 < kB * T), div_le_iff₀ (by positivity)]
    exact h
  refine (fermi_deriv kB ε T (fun _ => μ) 0 hk hT (hasDerivAt_const T μ)).congr_deriv ?_
  rw [dfdT_eq, clip_id _ hx]
  ring

example : |(1 : ℝ) - 0.99| ≤ 100 * (0.0000862 * 300) := by norm_num [abs_of_pos]

/-- Beyond `100` the factor `x e^x / (e^x + 1)^2` only falls. -/
theorem tail_le (x : ℝ) (h : 100 ≤ x) : x * bell x ≤ 100 * bell 100 := by
  obtain ⟨t, ht, rfl⟩ : ∃ t : ℝ, 0 ≤ t ∧ x = 100 + t := ⟨x - 100, by linarith, by ring⟩
  unfold bell
  rw [Real.exp_add]
  have hA : (2 : ℝ) ≤ Real.exp 100 := by
    have := Real.add_one_le_exp (100 : ℝ); linarith
  have hu : t + 1 ≤ Real.exp t := Real.add_one_le_exp t
  generalize Real.exp 100 = A at *
  generalize Real.exp t = u at *
  have hu1 : 1 ≤ u := by linarith
  rw [← mul_div_assoc, ← mul_div_assoc, div_le_div_iff₀ (by positivity) (by positivity)]
  have key : (100 + t) * u * (A + 1) ^ 2 ≤ 100 * (A * u + 1) ^ 2 := by
    have h1 : (100 + t) * u * (A + 1) ^ 2 ≤ (100 + (u - 1)) * u * (A + 1) ^ 2 := by
      apply mul_le_mul_of_nonneg_right _ (by positivity)
      apply mul_le_mul_of_nonneg_right _ (by linarith)
      linarith
    have h2 : 100 * (A * u + 1) ^ 2 - (100 + (u - 1)) * u * (A + 1) ^ 2 =
        (u - 1) * (100 * (A ^ 2 * u - 1) - u * (A + 1) ^ 2) := by ring
    have h3 : 0 ≤ 100 * (A ^ 2 * u - 1) - u * (A + 1) ^ 2 := by
      have h4 : (A + 1) ^ 2 ≤ 4 * A ^ 2 := by nlinarith
      have h5 : u * (A + 1) ^ 2 ≤ u * (4 * A ^ 2) := mul_le_mul_of_nonneg_left h4 (by linarith)
      have h6 : 4 * 1 ≤ A ^ 2 * u := by nlinarith
      nlinarith
    have h7 := mul_nonneg (by linarith : 0 ≤ u - 1) h3
    linarith
  have hA0 : 0 < A := by linarith
  calc (100 + t) * (A * u) * (A + 1) ^ 2 = A * ((100 + t) * u * (A + 1) ^ 2) := by ring
    _ ≤ A * (100 * (A * u + 1) ^ 2) := mul_le_mul_of_nonneg_left key hA0.le
    _ = 100 * A * (A * u + 1) ^ 2 := by ring

theorem clip_ge (x : ℝ) : x ^ 2 * bell x ≤ x * clip x * bell (clip x) := by
  rcases le_total 100 x with h | h
  · rw [clip_high x h]
    have := mul_le_mul_of_nonneg_left (tail_le x h) (by linarith : (0 : ℝ) ≤ x)
    nlinarith
  rcases le_total x (-100) with h' | h'
  · rw [clip_low x h', bell_neg 100]
    have := mul_le_mul_of_nonneg_left (tail_le (-x) (by linarith)) (by linarith : (0 : ℝ) ≤ -x)
    rw [bell_neg] at this
    nlinarith
  · rw [clip_id x (abs_le.2 ⟨h', h⟩), pow_two]

/-! ## The specific heat -/

theorem cv_levelSum (kB : ℝ) (efe : Efe) (T : ℝ) (hk : 0 < kB) (hT : 0 < T) :
    calcCv kB efe T = levelSum efe.g efe.weights efe.eigenvalues (fun e =>
      kB * ((e - efe.mu T) / (kB * T) * clip ((e - efe.mu T) / (kB * T)) *
        bell (clip ((e - efe.mu T) / (kB * T))))) := by
  unfold calcCv
  rw [if_neg hT.ne']
  show levelSum _ _ _ (fun e => (e - efe.mu T) * dfdT kB e (efe.mu T) T) = _
  apply levelSum_congr
  intro row _ e _
  rw [dfdT_eq]
  generalize clip ((e - efe.mu T) / (kB * T)) = c
  field_simp

/-- The derivative of the energy at a fixed number of electrons. -/
theorem energy_deriv (kB g : ℝ) (ws : List ℝ) (lv : List (List ℝ)) (μ : ℝ → ℝ) (μ' T : ℝ)
    (hk : 0 < kB) (hT : 0 < T) (hμ : HasDerivAt μ μ' T) (hN : KeepsNumber kB g ws lv μ T) :
    HasDerivAt (bandEnergy kB g ws lv μ)
      (levelSum g ws lv (fun e => kB * (((e - μ T) / (kB * T)) ^ 2 * bell ((e - μ T) / (kB * T))) +
        -(μ' ^ 2 / kB) * bell ((e - μ T) / (kB * T)))) T := by
  obtain ⟨N, hN⟩ := hN
  have hdN := levelSum_deriv g ws lv (fun e t => fermi kB e (μ t) t) _ T
    (fun e => fermi_deriv kB e T μ μ' hk hT hμ)
  have hzero : levelSum g ws lv (fun e => bell ((e - μ T) / (kB * T)) *
      ((e - μ T) / (kB * T) / T + μ' / (kB * T))) = 0 := by
    have h0 : HasDerivAt (fun t => levelSum g ws lv (fun e => fermi kB e (μ t) t)) 0 T :=
      (hasDerivAt_const T N).congr_of_eventuallyEq hN
    exact hdN.unique h0
  have hdE := levelSum_deriv g ws lv (fun e t => fermi kB e (μ t) t * e) _ T
    (fun e => (fermi_deriv kB e T μ μ' hk hT hμ).mul_const e)
  have : HasDerivAt (bandEnergy kB g ws lv μ) _ T := hdE
  refine this.congr_deriv ?_
  set X : ℝ → ℝ := fun e => bell ((e - μ T) / (kB * T)) *
      ((e - μ T) / (kB * T) / T + μ' / (kB * T)) with hX
  have e1 : levelSum g ws lv (fun e => X e * e) =
      levelSum g ws lv (fun e => 1 * (kB * (((e - μ T) / (kB * T)) ^ 2 *
        bell ((e - μ T) / (kB * T))) + -(μ' ^ 2 / kB) * bell ((e - μ T) / (kB * T))) +
          (μ T + μ' * T) * X e) := by
    apply levelSum_congr
    intro row _ e _
    simp only [hX]
    generalize bell ((e - μ T) / (kB * T)) = b
    field_simp
    ring
  rw [e1, levelSum_lin, hzero]
  ring

/-- C101: the specific heat is never below the derivative of the energy with respect to
temperature at a fixed number of electrons. -/
theorem C101_cv_upper (kB : ℝ) (efe : Efe) (T μ' : ℝ) (hk : 0 < kB) (hT : 0 < T)
    (hg : 0 ≤ efe.g) (hw : ∀ w ∈ efe.weights, 0 ≤ w) (hμ : HasDerivAt efe.mu μ' T)
    (hN : KeepsNumber kB efe.g efe.weights efe.eigenvalues efe.mu T) :
    deriv (bandEnergy kB efe.g efe.weights efe.eigenvalues efe.mu) T ≤ calcCv kB efe T := by
  rw [(energy_deriv kB efe.g _ _ _ μ' T hk hT hμ hN).deriv, cv_levelSum kB efe T hk hT]
  apply levelSum_le _ hg _ hw
  intro row _ e _
  have h1 := mul_le_mul_of_nonneg_left (clip_ge ((e - efe.mu T) / (kB * T))) hk.le
  have h2 : 0 ≤ μ' ^ 2 / kB * bell ((e - efe.mu T) / (kB * T)) :=
    mul_nonneg (by positivity) (bell_pos _).le
  nlinarith

/-- C101: the specific heat is too large by the square of the slope of the chemical potential,
if all levels are within `100 k T` of the chemical potential. -/
theorem C101_cv_excess (kB : ℝ) (efe : Efe) (T μ' : ℝ) (hk : 0 < kB) (hT : 0 < T)
    (hμ : HasDerivAt efe.mu μ' T)
    (hN : KeepsNumber kB efe.g efe.weights efe.eigenvalues efe.mu T)
    (hnear : ∀ row ∈ efe.eigenvalues, ∀ e ∈ row, |e - efe.mu T| ≤ 100 * (kB * T)) :
    calcCv kB efe T = deriv (bandEnergy kB efe.g efe.weights efe.eigenvalues efe.mu) T +
      μ' ^ 2 / kB * levelSum efe.g efe.weights efe.eigenvalues (fun e =>
        fermi kB e (efe.mu T) T * (1 - fermi kB e (efe.mu T) T)) := by
  rw [(energy_deriv kB efe.g _ _ _ μ' T hk hT hμ hN).deriv, cv_levelSum kB efe T hk hT,
    levelSum_lin]
  have hb : levelSum efe.g efe.weights efe.eigenvalues (fun e =>
        fermi kB e (efe.mu T) T * (1 - fermi kB e (efe.mu T) T)) =
      levelSum efe.g efe.weights efe.eigenvalues (fun e => bell ((e - efe.mu T) / (kB * T))) := by
    apply levelSum_congr
    intro row _ e _
    unfold fermi bell
    have := Real.exp_pos ((e - efe.mu T) / (kB * T))
    field_simp
    ring
  rw [hb]
  have hc : levelSum efe.g efe.weights efe.eigenvalues (fun e =>
      kB * ((e - efe.mu T) / (kB * T) * clip ((e - efe.mu T) / (kB * T)) *
        bell (clip ((e - efe.mu T) / (kB * T))))) =
      levelSum efe.g efe.weights efe.eigenvalues (fun e =>
        kB * (((e - efe.mu T) / (kB * T)) ^ 2 * bell ((e - efe.mu T) / (kB * T))) + 0 * 0) := by
    apply levelSum_congr
    intro row hr e he
    have hx : |(e - efe.mu T) / (kB * T)| ≤ 100 := by
      rw [abs_div, abs_of_pos (by positivity : 0 < kB * T), div_le_iff₀ (by positivity)]
      exact hnear row hr e he
    rw [clip_id _ hx]
    ring
  rw [hc, levelSum_lin]
  ring

/-- One level occupied by a fixed part of an electron: its chemical potential is `- k T`. -/
noncomputable def oneLevel (kB : ℝ) : Efe where
  eigenvalues := [[0]]
  weights := [1]
  g := 2
  mu := fun t => -(kB * t)
  energy := fun _ => 0
  entropy := fun _ => 0
  freeEnergy := fun _ => 0

theorem oneLevel_slope (kB T : ℝ) : HasDerivAt (oneLevel kB).mu (-kB) T := by
  have h := ((hasDerivAt_id T).const_mul kB).neg
  rw [mul_one] at h
  exact h

theorem oneLevel_keeps (kB T : ℝ) (hk : 0 < kB) (hT : 0 < T) :
    KeepsNumber kB (oneLevel kB).g (oneLevel kB).weights (oneLevel kB).eigenvalues
      (oneLevel kB).mu T := by
  refine ⟨2 * (1 / (Real.exp 1 + 1)), ?_⟩
  filter_upwards [lt_mem_nhds hT] with t ht
  have : (0 - (oneLevel kB).mu t) / (kB * t) = 1 := by
    have : kB * t ≠ 0 := by positivity
    simp [oneLevel, this]
  simp only [levelSum, oneLevel, List.zipWith_cons_cons, List.zipWith_nil_left, List.map_cons,
    List.map_nil, List.sum_cons, List.sum_nil, fermi] at this ⊢
  rw [this]
  ring

/-- Non-vacuity of the hypotheses of `C101_cv_upper` and `C101_cv_excess`. -/
example (kB T : ℝ) (hk : 0 < kB) (hT : 0 < T) :
    0 ≤ (oneLevel kB).g ∧ (∀ w ∈ (oneLevel kB).weights, 0 ≤ w) ∧
      HasDerivAt (oneLevel kB).mu (-kB) T ∧
      (∀ row ∈ (oneLevel kB).eigenvalues, ∀ e ∈ row, |e - (oneLevel kB).mu T| ≤ 100 * (kB * T)) := by
  refine ⟨by simp [oneLevel], by simp [oneLevel], ?_, ?_⟩
  · exact oneLevel_slope kB T
  · simp only [oneLevel, List.mem_singleton, forall_eq]
    have : 0 < kB * T := by positivity
    rw [zero_sub, neg_neg, abs_of_pos this]
    linarith

/-- C101 (F161): the specific heat is not the derivative of the energy.  For a level occupied by a
fixed part of an electron the energy does not depend on temperature at all, but the specific heat is
positive. -/
theorem C101_cv_violation (kB T : ℝ) (hk : 0 < kB) (hT : 0 < T) :
    ∃ (efe : Efe) (μ' : ℝ), HasDerivAt efe.mu μ' T ∧
      KeepsNumber kB efe.g efe.weights efe.eigenvalues efe.mu T ∧
      (∀ t, bandEnergy kB efe.g efe.weights efe.eigenvalues efe.mu t = 0) ∧
      0 < calcCv kB efe T := by
  refine ⟨oneLevel kB, -kB, ?_, oneLevel_keeps kB T hk hT, ?_, ?_⟩
  · exact oneLevel_slope kB T
  · intro t
    simp [bandEnergy, levelSum, oneLevel]
  · rw [cv_levelSum kB _ T hk hT]
    have : (0 - (oneLevel kB).mu T) / (kB * T) = 1 := by
      have : kB * T ≠ 0 := by positivity
      simp [oneLevel, this]
    simp only [levelSum, oneLevel, List.zipWith_cons_cons, List.zipWith_nil_left, List.map_cons,
      List.map_nil, List.sum_cons, List.sum_nil] at this ⊢
    rw [this, clip_id 1 (by norm_num)]
    have := bell_pos 1
    have : 0 < kB * (1 * 1 * bell 1) := by positivity
    linarith

/-- C101: the specific heat is not negative. -/
theorem C101_cv_nonneg (kB : ℝ) (efe : Efe) (T : ℝ) (hk : 0 < kB) (hT : 0 ≤ T)
    (hg : 0 ≤ efe.g) (hw : ∀ w ∈ efe.weights, 0 ≤ w) : 0 ≤ calcCv kB efe T := by
  rcases hT.eq_or_lt with rfl | hT
  · simp [calcCv]
  · rw [cv_levelSum kB efe T hk hT]
    have h0 : levelSum efe.g efe.weights efe.eigenvalues (fun _ => 0) = 0 := by
      have := levelSum_lin efe.g efe.weights efe.eigenvalues 0 0 (fun _ => 0) (fun _ => 0)
      simpa using this
    rw [← h0]
    apply levelSum_le _ hg _ hw
    intro row _ e _
    have h1 := clip_ge ((e - efe.mu T) / (kB * T))
    have h2 : 0 ≤ ((e - efe.mu T) / (kB * T)) ^ 2 * bell ((e - efe.mu T) / (kB * T)) :=
      mul_nonneg (sq_nonneg _) (bell_pos _).le
    exact mul_nonneg hk.le (h2.trans h1)

/-! ## The table -/

/-- C101: the table has a row for each multiple of the interval up to the maximum temperature (and
one tenth of a kelvin), in ascending order, and the rows hold the energies relative to 0 K, the
entropies and the specific heats at these temperatures. -/
theorem C101_table (kB : ℝ) (efe : Efe) (tempMax tempStep : ℝ) (r : Results)
    (hs : 0 < tempStep) (h : run kB efe tempMax tempStep = .ok r) :
    (∀ n : ℕ, n < r.temperatures.length ↔ (n : ℝ) * tempStep < tempMax + 1 / 10) ∧
    r.energies.length = r.temperatures.length ∧ r.entropies.length = r.temperatures.length ∧
    r.freeEnergies.length = r.temperatures.length ∧ r.cvs.length = r.temperatures.length ∧
    ∀ (n : ℕ), n < r.temperatures.length →
      r.temperatures[n]? = some (n * tempStep) ∧
      r.energies[n]? = some (efe.energy (n * tempStep) - efe.energy 0) ∧
      r.freeEnergies[n]? = some (efe.freeEnergy (n * tempStep) - efe.freeEnergy 0) ∧
      (n = 0 → r.entropies[n]? = some (efe.entropy 0)) ∧
      (0 < n → r.entropies[n]? = some (efe.entropy (n * tempStep) / (n * tempStep))) ∧
      (n = 0 → r.cvs[n]? = some 0) ∧ r.cvs[n]? = some (calcCv kB efe (n * tempStep)) := by
  unfold run SschaApi.arange at h
  rw [if_neg hs.ne'] at h
  simp only [bind, Except.bind, sub_zero] at h
  set m := ⌈(tempMax + 1 / 10) / tempStep⌉.toNat with hm
  have hmn : ∀ n : ℕ, n < m ↔ (n : ℝ) * tempStep < tempMax + 1 / 10 := by
    intro n
    rw [hm, Int.lt_toNat, Int.lt_ceil, lt_div_iff₀ hs]
    simp
  clear_value m
  cases m with
  | zero => simp [minusFirst, orErr, bind, Except.bind] at h
  | succ m =>
    have hh : ∀ F : ℝ → ℝ, minusFirst (((List.range (m + 1)).map
        fun (i : ℕ) => (0 : ℝ) + i * tempStep).map F) = .ok (((List.range (m + 1)).map
          fun (i : ℕ) => (0 : ℝ) + i * tempStep).map (fun t => F t - F 0)) := by
      intro F
      unfold minusFirst
      rw [List.range_succ_eq_map]
      simp [orErr, bind, Except.bind, pure, Except.pure]
    rw [hh, hh] at h
    simp only [pure, Except.pure, Except.ok.injEq] at h
    subst h
    have hlen : (List.map efe.entropy ((List.range (m + 1)).map
      fun (i : ℕ) => (0 : ℝ) + i * tempStep)).length = m + 1 := by simp
    refine ⟨by simpa using hmn, by simp, ?_, by simp, by simp, ?_⟩
    · simp [divRest]; omega
    · intro n hn
      have hn' : n < m + 1 := by simpa using hn
      refine ⟨by simp [hn'], by simp [hn'], by simp [hn'], ?_, ?_, ?_, by simp [hn']⟩
      · rintro rfl
        simp [divRest, List.range_succ_eq_map]
      rotate_left
      · rintro rfl
        simp [calcCv]
      intro hpos
      obtain ⟨n, rfl⟩ : ∃ j, n = j + 1 := ⟨n - 1, by omega⟩
      unfold divRest
      rw [List.getElem?_append_right (by simp), List.getElem?_zipWith]
      have e1 : n + 1 - (List.take 1 (List.map efe.entropy ((List.range (m + 1)).map
          fun (i : ℕ) => (0 : ℝ) + i * tempStep))).length = n := by simp
      rw [e1, List.getElem?_drop, List.getElem?_drop, Nat.add_comm 1 n]
      simp [hn']

/-- C101: in each row the free energy is the energy minus temperature times entropy, if this holds
for the energies computed by phonopy and the entropic term vanishes at 0 K. -/
theorem C101_free_energy (kB : ℝ) (efe : Efe) (tempMax tempStep : ℝ) (r : Results)
    (hs : 0 < tempStep) (h : run kB efe tempMax tempStep = .ok r)
    (hF : ∀ t, efe.freeEnergy t = efe.energy t - efe.entropy t) (h0 : efe.entropy 0 = 0)
    (n : ℕ) (t e s f : ℝ) (ht : r.temperatures[n]? = some t) (he : r.energies[n]? = some e)
    (hsn : r.entropies[n]? = some s) (hf : r.freeEnergies[n]? = some f) : f = e - t * s := by
  obtain ⟨_, _, _, _, _, H⟩ := C101_table kB efe tempMax tempStep r hs h
  obtain ⟨hn, _⟩ := List.getElem?_eq_some_iff.1 ht
  obtain ⟨h1, h2, h3, _, h4, _⟩ := H n hn
  rw [h1] at ht
  rw [h2] at he
  rw [h3] at hf
  rw [← Option.some.inj ht, ← Option.some.inj he, ← Option.some.inj hf, hF, hF, h0]
  rcases Nat.eq_zero_or_pos n with rfl | hpos
  · simpa using h0
  · rw [h4 hpos] at hsn
    rw [← Option.some.inj hsn]
    have : (n : ℝ) * tempStep ≠ 0 := by positivity
    field_simp
    ring

/-- C101: a table is made for every positive interval and maximum temperature. -/
theorem C101_made (kB : ℝ) (efe : Efe) (tempMax tempStep : ℝ) (hs : 0 < tempStep)
    (hm : 0 ≤ tempMax) : ∃ r, run kB efe tempMax tempStep = .ok r := by
  unfold run SschaApi.arange
  rw [if_neg hs.ne']
  simp only [bind, Except.bind, sub_zero]
  have : 0 < ⌈(tempMax + 1 / 10) / tempStep⌉.toNat := by
    rw [Int.lt_toNat, Int.lt_ceil]
    simp only [Nat.cast_zero, Int.cast_zero]
    positivity
  obtain ⟨m, hm'⟩ : ∃ m, ⌈(tempMax + 1 / 10) / tempStep⌉.toNat = m + 1 :=
    ⟨_, (Nat.succ_pred_eq_of_pos this).symm⟩
  rw [hm', List.range_succ_eq_map]
  simp [minusFirst, orErr, bind, Except.bind, pure, Except.pure]

end Verif.Electron
