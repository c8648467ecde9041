import Verif.Model.Sgd
import Verif.Spec.Sgd
import Mathlib.Tactic.FieldSimp
import Mathlib.Tactic.Linarith
import Mathlib.Tactic.Ring
import Mathlib.Tactic.NormNum
import Mathlib.Tactic.Positivity
import Mathlib.Algebra.BigOperators.Fin
import Mathlib.LinearAlgebra.Matrix.Notation

/-!
# C127: regression by stochastic gradients
-/

namespace Verif.Sgd
open Verif Verif.Spec Matrix
variable {N n : ℕ}

theorem gradAdd_eq (x : Matrix (Fin N) (Fin n) ℝ) (y : Fin N → ℝ) (alpha : ℝ) (c : Fin n → ℝ) :
    gradAdd x (xᵀ *ᵥ y) alpha c = ridgeGradient x y alpha c := by
  unfold gradAdd ridgeGradient
  rw [mulVec_sub]
  abel

/-- The averages after a successful pass. -/
def MomOk (m : Moments n) : Prop := ∀ j, 0 < m.sq j ∧ m.grad j ^ 2 ≤ (73 / 10) ^ 2 * m.sq j

/-- Convex combinations of gradients at points near `c`. -/
def hull (G : (Fin n → ℝ) → Fin n → ℝ) (D : ℝ) (c : Fin n → ℝ) : Set (Fin n → ℝ) :=
  convexHull ℝ {v | ∃ c', Within D c' c ∧ v = G c'}

theorem hull_move (G : (Fin n → ℝ) → Fin n → ℝ) {D E : ℝ} {c c' : Fin n → ℝ} (h : Within E c' c) :
    hull G D c ⊆ hull G (D + E) c' := by
  apply convexHull_mono
  rintro v ⟨d, hd, rfl⟩
  refine ⟨d, fun j => ?_, rfl⟩
  have h1 := hd j
  have h2 := h j
  rw [abs_sub_comm] at h2
  calc |d j - c' j| = |(d j - c j) + (c j - c' j)| := by ring_nf
    _ ≤ |d j - c j| + |c j - c' j| := abs_add_le _ _
    _ ≤ D + E := add_le_add h1 h2

theorem hull_mono (G : (Fin n → ℝ) → Fin n → ℝ) {D E : ℝ} (h : D ≤ E) (c : Fin n → ℝ) : hull G D c ⊆ hull G E c := by
  apply convexHull_mono
  rintro v ⟨d, hd, rfl⟩
  exact ⟨d, fun j => (hd j).trans h, rfl⟩

theorem step_ok (x : Matrix (Fin N) (Fin n) ℝ) (xty : Fin n → ℝ) (alpha lr D : ℝ) (hlr : 0 ≤ lr) (hD : 0 ≤ D)
    (coef c : Fin n → ℝ) (mom : Option (Moments n)) (m : Moments n)
    (hm : ∀ a ∈ mom, MomOk a ∧ a.grad ∈ hull (gradAdd x xty alpha) D coef)
    (h : adamStep x xty alpha (9 / 10) (999 / 1000) lr coef mom = some (c, m)) :
    MomOk m ∧ Within (73 / 10 * lr) c coef ∧ m.grad ∈ hull (gradAdd x xty alpha) (D + 73 / 10 * lr) c := by
  unfold adamStep at h
  dsimp only at h
  split_ifs at h with hz
  simp only [Option.some.injEq, Prod.mk.injEq] at h
  obtain ⟨rfl, rfl⟩ := h
  push Not at hz
  have hself : gradAdd x xty alpha coef ∈ hull (gradAdd x xty alpha) D coef :=
    subset_convexHull ℝ _ ⟨coef, fun j => by simpa using hD, rfl⟩
  have key : MomOk (moments (9 / 10) (999 / 1000) (gradAdd x xty alpha coef) mom) ∧
      (moments (9 / 10) (999 / 1000) (gradAdd x xty alpha coef) mom).grad ∈ hull (gradAdd x xty alpha) D coef := by
    cases mom with
    | none =>
      refine ⟨fun j => ?_, hself⟩
      have h0 := hz j
      change gradAdd x xty alpha coef j ^ 2 ≠ 0 at h0
      have hp := lt_of_le_of_ne (sq_nonneg (gradAdd x xty alpha coef j)) h0.symm
      refine ⟨hp, ?_⟩
      show gradAdd x xty alpha coef j ^ 2 ≤ (73 / 10) ^ 2 * gradAdd x xty alpha coef j ^ 2
      nlinarith
    | some a =>
      obtain ⟨ha, hah⟩ := hm a rfl
      refine ⟨fun j => ?_, ?_⟩
      · obtain ⟨h1, h2⟩ := ha j
        constructor
        · show 0 < 999 / 1000 * a.sq j + (1 - 999 / 1000) * gradAdd x xty alpha coef j ^ 2
          have := sq_nonneg (gradAdd x xty alpha coef j)
          linarith
        · show (9 / 10 * a.grad j + (1 - 9 / 10) * gradAdd x xty alpha coef j) ^ 2 ≤
            (73 / 10) ^ 2 * (999 / 1000 * a.sq j + (1 - 999 / 1000) * gradAdd x xty alpha coef j ^ 2)
          nlinarith [sq_nonneg (a.grad j - (9 / 19) * gradAdd x xty alpha coef j),
            sq_nonneg (gradAdd x xty alpha coef j)]
      · have := (convex_convexHull ℝ {v | ∃ c', Within D c' coef ∧ v = gradAdd x xty alpha c'}) hah hself
          (by norm_num : (0 : ℝ) ≤ 9 / 10) (by norm_num : (0 : ℝ) ≤ 1 - 9 / 10) (by norm_num)
        exact this
  have hw : Within (73 / 10 * lr) (fun j => coef j - lr *
      ((moments (9 / 10) (999 / 1000) (gradAdd x xty alpha coef) mom).grad j /
        √((moments (9 / 10) (999 / 1000) (gradAdd x xty alpha coef) mom).sq j))) coef := by
    intro j
    obtain ⟨h1, h2⟩ := key.1 j
    show |coef j - lr * ((moments (9 / 10) (999 / 1000) (gradAdd x xty alpha coef) mom).grad j /
      √((moments (9 / 10) (999 / 1000) (gradAdd x xty alpha coef) mom).sq j)) - coef j| ≤ _
    generalize (moments (9 / 10) (999 / 1000) (gradAdd x xty alpha coef) mom).grad j = g at *
    generalize (moments (9 / 10) (999 / 1000) (gradAdd x xty alpha coef) mom).sq j = s at *
    have hs := Real.sqrt_pos.mpr h1
    have hg : |g| ≤ 73 / 10 * √s := by
      apply abs_le_of_sq_le_sq _ (by positivity)
      rw [mul_pow, Real.sq_sqrt h1.le]
      exact h2
    have : |g / √s| ≤ 73 / 10 := by
      rw [abs_div, abs_of_pos hs, div_le_iff₀ hs]
      exact hg
    have e : coef j - lr * (g / √s) - coef j = -(lr * (g / √s)) := by ring
    rw [e, abs_neg, abs_mul, abs_of_nonneg hlr, mul_comm]
    exact mul_le_mul_of_nonneg_right this hlr
  exact ⟨key.1, hw, hull_move _ hw key.2⟩

theorem within_trans {D E : ℝ} {a b c : Fin n → ℝ} (h1 : Within D a b) (h2 : Within E b c) : Within (D + E) a c := by
  intro j
  calc |a j - c j| = |(a j - b j) + (b j - c j)| := by ring_nf
    _ ≤ |a j - b j| + |b j - c j| := abs_add_le _ _
    _ ≤ D + E := add_le_add (h1 j) (h2 j)

theorem stage_ok (x : Matrix (Fin N) (Fin n) ℝ) (xty : Fin n → ℝ) (alpha thr lr : ℝ) (hlr : 0 ≤ lr) :
    ∀ (k : ℕ) (D : ℝ), 0 ≤ D → ∀ (coef : Fin n → ℝ) (norm : ℝ) (mom : Option (Moments n)) (r : (Fin n → ℝ) × ℝ),
      (∀ a ∈ mom, MomOk a ∧ a.grad ∈ hull (gradAdd x xty alpha) D coef) →
      (∃ v ∈ hull (gradAdd x xty alpha) D coef, norm = lengthPer v) →
      stage x xty alpha (9 / 10) (999 / 1000) thr lr k coef norm mom = some r →
      Within (k * (73 / 10 * lr)) r.1 coef ∧
        ∃ v ∈ hull (gradAdd x xty alpha) (D + k * (73 / 10 * lr)) r.1, r.2 = lengthPer v
  | 0, D, hD, coef, norm, mom, r, _, hn, h => by
    simp only [stage, Option.some.injEq] at h
    subst h
    obtain ⟨v, hv, hv2⟩ := hn
    refine ⟨fun j => by simp, v, by simpa using hv, hv2⟩
  | k + 1, D, hD, coef, norm, mom, r, hm, hn, h => by
    have hB : 0 ≤ 73 / 10 * lr := by positivity
    unfold stage at h
    split_ifs at h with ht
    · simp only [Option.some.injEq] at h
      subst h
      obtain ⟨v, hv, hv2⟩ := hn
      refine ⟨fun j => by simpa using by positivity, v, hull_mono _ ?_ _ hv, hv2⟩
      have : 0 ≤ ((k + 1 : ℕ) : ℝ) * (73 / 10 * lr) := by positivity
      linarith
    · cases hs : adamStep x xty alpha (9 / 10) (999 / 1000) lr coef mom with
      | none => rw [hs] at h; simp at h
      | some cm =>
        obtain ⟨c, m⟩ := cm
        rw [hs] at h
        dsimp only at h
        obtain ⟨h1, h2, h3⟩ := step_ok x xty alpha lr D hlr hD coef c mom m hm hs
        have := stage_ok x xty alpha thr lr hlr k (D + 73 / 10 * lr) (by positivity) c (meanNorm m.grad) (some m) r
          (by rintro a ⟨⟩; exact ⟨h1, h3⟩) ⟨_, h3, rfl⟩ h
        obtain ⟨h4, v, h5, h6⟩ := this
        refine ⟨?_, v, ?_, h6⟩
        · have := within_trans h4 h2
          push_cast
          rwa [add_mul, one_mul]
        · push_cast
          rw [show D + ((k : ℝ) + 1) * (73 / 10 * lr) = D + 73 / 10 * lr + k * (73 / 10 * lr) by ring]
          exact h5

theorem stage_first (x : Matrix (Fin N) (Fin n) ℝ) (xty : Fin n → ℝ) (alpha thr lr : ℝ) (hlr : 0 ≤ lr) (k : ℕ)
    (coef : Fin n → ℝ) (norm : ℝ) (hn : ¬ norm < thr) (r : (Fin n → ℝ) × ℝ)
    (h : stage x xty alpha (9 / 10) (999 / 1000) thr lr (k + 1) coef norm none = some r) :
    Within ((k + 1 : ℕ) * (73 / 10 * lr)) r.1 coef ∧
      ∃ v ∈ hull (gradAdd x xty alpha) ((k + 1 : ℕ) * (73 / 10 * lr)) r.1, r.2 = lengthPer v := by
  unfold stage at h
  rw [if_neg hn] at h
  cases hs : adamStep x xty alpha (9 / 10) (999 / 1000) lr coef none with
  | none => rw [hs] at h; simp at h
  | some cm =>
    obtain ⟨c, m⟩ := cm
    rw [hs] at h
    dsimp only at h
    obtain ⟨h1, h2, h3⟩ := step_ok x xty alpha lr 0 hlr le_rfl coef c none m (by rintro a ⟨⟩) hs
    rw [zero_add] at h3
    obtain ⟨h4, v, h5, h6⟩ := stage_ok x xty alpha thr lr hlr k (73 / 10 * lr) (by positivity) c (meanNorm m.grad)
      (some m) r (by rintro a ⟨⟩; exact ⟨h1, h3⟩) ⟨_, h3, rfl⟩ h
    refine ⟨?_, v, ?_, h6⟩
    · have := within_trans h4 h2
      push_cast
      rwa [add_mul, one_mul]
    · push_cast
      rw [show ((k : ℝ) + 1) * (73 / 10 * lr) = 73 / 10 * lr + k * (73 / 10 * lr) by ring]
      exact h5

/-- **C127** With the default averages, no coefficient ends farther than 2.28 per pass from its start, and the norm
that is compared with the thresholds is that of a convex combination of gradients at points near the result. -/
theorem C127_average_partial (x : Matrix (Fin N) (Fin n) ℝ) (y : Fin N → ℝ) (alpha : ℝ) (maxIter : ℕ)
    (hmax : 0 < maxIter) (coef0 : Fin n → ℝ) (r : (Fin n → ℝ) × ℝ)
    (h : stages x y alpha (9 / 10) (999 / 1000) maxIter (some coef0) = some r) :
    Within (228 / 100 * maxIter) r.1 coef0 ∧
      ∃ v ∈ convexHull ℝ {v | ∃ c, Within (228 / 100 * maxIter) c r.1 ∧ v = ridgeGradient x y alpha c},
        r.2 = lengthPer v := by
  obtain ⟨k, rfl⟩ := Nat.exists_eq_add_one_of_ne_zero hmax.ne'
  unfold stages at h
  simp only [Option.bind_eq_some_iff, Option.getD_some] at h
  obtain ⟨r1, h1, r2, h2, r3, h3, h4⟩ := h
  have hk : (0 : ℝ) ≤ ((k + 1 : ℕ) : ℝ) := by positivity
  obtain ⟨w1, g1⟩ := stage_first x _ alpha 1 (3 / 10) (by norm_num) k coef0 (10 ^ 10) (by norm_num) r1 h1
  obtain ⟨w2, g2⟩ := stage_ok x _ alpha (1 / 10) (1 / 100) (by norm_num) (k + 1) _ (by positivity) r1.1 r1.2 none r2
    (by rintro a ⟨⟩) g1 h2
  obtain ⟨w3, g3⟩ := stage_ok x _ alpha (1 / 100) (1 / 1000) (by norm_num) (k + 1) _ (by positivity) r2.1 r2.2 none r3
    (by rintro a ⟨⟩) g2 h3
  obtain ⟨w4, v, g4, g5⟩ := stage_ok x _ alpha (1 / 1000) (1 / 10000) (by norm_num) (k + 1) _ (by positivity) r3.1 r3.2
    none r (by rintro a ⟨⟩) g3 h4
  refine ⟨fun j => ?_, v, ?_, g5⟩
  · have := within_trans w4 (within_trans w3 (within_trans w2 w1)) j
    linarith
  · have e : gradAdd x (xᵀ *ᵥ y) alpha = ridgeGradient x y alpha := funext (gradAdd_eq x y alpha)
    rw [e] at g4
    exact hull_mono _ (by linarith) _ g4

/-- **C127** If a component of the gradient is zero at the start, the coefficients are not finite numbers. -/
theorem C127_zero_gradient_violation (x : Matrix (Fin N) (Fin n) ℝ) (y : Fin N → ℝ) (alpha beta1 beta2 : ℝ)
    (maxIter : ℕ) (hmax : 0 < maxIter) (coef0 : Fin n → ℝ) (j : Fin n) (hj : ridgeGradient x y alpha coef0 j = 0) :
    solverSgd x y alpha beta1 beta2 maxIter (some coef0) = none := by
  obtain ⟨k, rfl⟩ := Nat.exists_eq_add_one_of_ne_zero hmax.ne'
  have hs : adamStep x (xᵀ *ᵥ y) alpha beta1 beta2 (3 / 10) coef0 none = none := by
    have hz : (moments beta1 beta2 (gradAdd x (xᵀ *ᵥ y) alpha coef0) none).sq j = 0 := by
      show gradAdd x (xᵀ *ᵥ y) alpha coef0 j ^ 2 = 0
      rw [gradAdd_eq, hj]
      exact zero_pow two_ne_zero
    exact if_pos ⟨j, hz⟩
  have h1 : stage x (xᵀ *ᵥ y) alpha beta1 beta2 1 (3 / 10) (k + 1) coef0 (10 ^ 10) none = none := by
    unfold stage
    rw [if_neg (by norm_num), hs]
  unfold solverSgd stages
  simp only [Option.getD_some, h1, Option.bind_none, Option.map_none]

/-- **C127** A feature that vanishes in all data spoils all coefficients. -/
theorem C127_zero_feature_violation (x : Matrix (Fin N) (Fin n) ℝ) (y : Fin N → ℝ) (alpha beta1 beta2 : ℝ)
    (maxIter : ℕ) (hmax : 0 < maxIter) (j : Fin n) (hj : ∀ i, x i j = 0) :
    solverSgd x y alpha beta1 beta2 maxIter none = none := by
  have h := C127_zero_gradient_violation x y alpha beta1 beta2 maxIter hmax (fun _ => 0) j (by
    unfold ridgeGradient
    simp only [Pi.add_apply, mulVec, dotProduct, transpose_apply, hj, zero_mul, Finset.sum_const_zero, Pi.smul_apply,
      smul_eq_mul, mul_zero, add_zero])
  exact h

theorem stage_done (x : Matrix (Fin N) (Fin n) ℝ) (xty : Fin n → ℝ) (alpha beta1 beta2 thr lr : ℝ) (k : ℕ)
    (coef : Fin n → ℝ) (norm : ℝ) (mom : Option (Moments n)) (h : norm < thr) :
    stage x xty alpha beta1 beta2 thr lr k coef norm mom = some (coef, norm) := by
  cases k with
  | zero => rfl
  | succ k => unfold stage; rw [if_pos h]

/-- **C127** Converged coefficients may be far from the solution: for one feature with value one and a small positive
target the solution is below the target, the result is 0.3, and all four stages report convergence. -/
theorem C127_converged_violation (t alpha beta1 beta2 : ℝ) (ht : 0 < t) (ht2 : t < 1 / 1000) (maxIter : ℕ)
    (hmax : 0 < maxIter) :
    stages (!![1] : Matrix (Fin 1) (Fin 1) ℝ) ![t] alpha beta1 beta2 maxIter none = some (fun _ => 3 / 10, t) := by
  obtain ⟨k, rfl⟩ := Nat.exists_eq_add_one_of_ne_zero hmax.ne'
  have hg : gradAdd (!![1] : Matrix (Fin 1) (Fin 1) ℝ) (!![1]ᵀ *ᵥ ![t]) alpha (fun _ => 0) = fun _ => -t := by
    funext j
    fin_cases j
    simp [gradAdd, mulVec, dotProduct]
  have hm : meanNorm (fun _ : Fin 1 => -t) = t := by
    unfold meanNorm
    simp [abs_of_pos ht, Real.sqrt_sq_eq_abs]
  have hs : adamStep (!![1] : Matrix (Fin 1) (Fin 1) ℝ) (!![1]ᵀ *ᵥ ![t]) alpha beta1 beta2 (3 / 10) (fun _ => 0) none =
      some (fun _ => 3 / 10, ⟨fun _ => -t, fun _ => (-t) ^ 2⟩) := by
    unfold adamStep
    dsimp only
    rw [hg]
    have hne : ¬ ∃ j : Fin 1, (moments beta1 beta2 (fun _ : Fin 1 => -t) none).sq j = 0 := by
      rintro ⟨j, hj⟩
      change (-t) ^ 2 = 0 at hj
      have := pow_pos ht 2
      rw [neg_sq] at hj
      linarith
    rw [if_neg hne]
    congr 2
    funext j
    show 0 - 3 / 10 * (-t / √((-t) ^ 2)) = 3 / 10
    rw [neg_sq, Real.sqrt_sq ht.le]
    field_simp
    ring
  have h1 : stage (!![1] : Matrix (Fin 1) (Fin 1) ℝ) (!![1]ᵀ *ᵥ ![t]) alpha beta1 beta2 1 (3 / 10) (k + 1)
      (fun _ => 0) (10 ^ 10) none = some (fun _ => 3 / 10, t) := by
    unfold stage
    rw [if_neg (by norm_num), hs]
    dsimp only
    rw [hm, stage_done _ _ _ _ _ _ _ _ _ _ _ (by linarith)]
  unfold stages
  simp only [Option.getD_none, h1, Option.bind_some]
  rw [stage_done _ _ _ _ _ _ _ _ _ _ _ (by linarith)]
  simp only [Option.bind_some]
  rw [stage_done _ _ _ _ _ _ _ _ _ _ _ (by linarith)]
  simp only [Option.bind_some]
  rw [stage_done _ _ _ _ _ _ _ _ _ _ _ (by linarith)]

/-- The gradient at that result is far above the last threshold. -/
example (t alpha : ℝ) (ha : 0 ≤ alpha) (ht2 : t < 1 / 1000) :
    299 / 1000 < ridgeGradient (!![1] : Matrix (Fin 1) (Fin 1) ℝ) ![t] alpha (fun _ => 3 / 10) 0 := by
  simp [ridgeGradient, mulVec, dotProduct]
  linarith

/-- The hypotheses are met: a run that ends, with one pass in the first stage. -/
example : ∃ r, stages (!![1] : Matrix (Fin 1) (Fin 1) ℝ) ![1 / 2000] 1 (9 / 10) (999 / 1000) 5 (some fun _ => 0) = some r :=
  ⟨_, C127_converged_violation (1 / 2000) 1 (9 / 10) (999 / 1000) (by norm_num) (by norm_num) 5 (by norm_num)⟩

/-- Two features, one of which vanishes in all data. -/
example (y : Fin 2 → ℝ) : solverSgd !![1, 0; 2, 0] y (1 / 1000) (9 / 10) (999 / 1000) 100000 none = none :=
  C127_zero_feature_violation _ y _ _ _ _ (by norm_num) 1 (by intro i; fin_cases i <;> rfl)

end Verif.Sgd
