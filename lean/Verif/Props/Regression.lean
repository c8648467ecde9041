import Verif.Model.Regression
import Verif.Spec.Regression
import Verif.Props.Sequential
import Mathlib.Algebra.BigOperators.Ring.List
import Mathlib.Algebra.BigOperators.Ring.Finset
import Mathlib.Algebra.Order.BigOperators.Group.Finset
import Mathlib.Tactic.Linarith
import Mathlib.Tactic.Ring
import Mathlib.Tactic.FieldSimp

/-! # C09, C10, C11, C13, C52, C53: errors, ridge path and model selection -/

namespace Verif.Regression
open Verif.Sequential Verif.LSQ
variable {p : ℕ} {K : Type}

/-! ## C09 -/

private theorem sum_xtx [CommRing K] (X : List (Vec p K × K)) (c : Vec p K) :
    dot c (mulVec (xtxOf X) c) = (X.map fun r => predict c r.1 ^ 2).sum := by
  induction X with
  | nil => simp [dot, mulVec, xtxOf]
  | cons r X ih =>
    have h : dot c (mulVec (xtxOf (r :: X)) c)
        = predict c r.1 ^ 2 + dot c (mulVec (xtxOf X) c) := by
      unfold dot mulVec predict xtxOf
      simp only [List.map_cons, List.sum_cons]
      rw [pow_two, Finset.sum_mul_sum, ← Finset.sum_add_distrib]
      refine Finset.sum_congr rfl fun a _ => ?_
      rw [Finset.mul_sum, Finset.mul_sum, ← Finset.sum_add_distrib]
      refine Finset.sum_congr rfl fun b _ => ?_
      ring
    rw [h, ih, List.map_cons, List.sum_cons]

private theorem sum_xty [CommRing K] (X : List (Vec p K × K)) (c : Vec p K) :
    dot (fun a => -2 * c a) (xtyOf X) = (X.map fun r => -2 * (r.2 * predict c r.1)).sum := by
  induction X with
  | nil => simp [dot, xtyOf]
  | cons r X ih =>
    have h : dot (fun a => -2 * c a) (xtyOf (r :: X))
        = -2 * (r.2 * predict c r.1) + dot (fun a => -2 * c a) (xtyOf X) := by
      unfold dot predict xtyOf
      simp only [List.map_cons, List.sum_cons]
      rw [Finset.mul_sum, Finset.mul_sum, ← Finset.sum_add_distrib]
      refine Finset.sum_congr rfl fun a _ => ?_
      ring
    rw [h, ih, List.map_cons, List.sum_cons]

/-- **C09.** The error computed from the accumulated products is the mean squared residual. -/
theorem C09_mse [Field K] (X : List (Vec p K × K)) (c : Vec p K) :
    computeMse (xtxOf X) (xtyOf X) (yyOf X) X.length c = meanSq X c := by
  unfold computeMse meanSq
  simp only
  rw [sum_xtx, sum_xty]
  congr 1
  unfold yyOf
  clear * -
  induction X with
  | nil => simp
  | cons r X ih =>
    simp only [List.map_cons, List.sum_cons]
    rw [← ih]; ring

private theorem meanSq_nonneg [Field K] [LinearOrder K] [IsStrictOrderedRing K]
    (X : List (Vec p K × K)) (c : Vec p K) : 0 ≤ meanSq X c := by
  unfold meanSq
  refine div_nonneg ?_ (Nat.cast_nonneg _)
  induction X with
  | nil => simp
  | cons r X ih =>
    rw [List.map_cons, List.sum_cons]
    exact add_nonneg (sq_nonneg _) ih

/-- **C09, sign.** It is never negative, so its square root is never NaN: the sequential error list
consists of numbers only and equals the list computed directly from the rows. -/
theorem C09_rmse_paths_agree [Field K] [LinearOrder K] [IsStrictOrderedRing K] (sqrt : K → K)
    (X : List (Vec p K × K)) (N : Normal p K) (hx : N.xtx = xtxOf X) (hy : N.xty = xtyOf X)
    (hs : N.ySq = yyOf X) (hn : N.nData = X.length) (cs : List (Vec p K)) (f g : Bool) :
    computeRmse sqrt cs (.products N) f = .ok (cs.map fun c => .val (sqrt (meanSq X c))) ∧
    computeRmse sqrt cs (.rows X) g = .ok (cs.map fun c => .val (sqrt (meanSq X c))) := by
  constructor
  · unfold computeRmse computeRmseSeq
    simp only [Bool.false_eq_true, if_false, pure, Except.pure, Except.ok.injEq]
    refine List.map_congr_left fun c _ => ?_
    rw [hx, hy, hs, hn, C09_mse]
    unfold npSqrt
    rw [if_neg (not_lt.mpr (meanSq_nonneg X c))]
  · unfold computeRmse computeRmseStandard
    simp only [Bool.false_eq_true, if_false, pure, Except.pure, Except.ok.injEq]
    refine List.map_congr_left fun c _ => ?_
    have : (X.map fun r => (r.2 - dot r.1 c) * (r.2 - dot r.1 c)).sum / (X.length : K)
        = meanSq X c := by
      unfold meanSq
      simp only [pow_two]
      rfl
    rw [this]
    unfold npSqrt
    rw [if_neg (not_lt.mpr (meanSq_nonneg X c))]

/-! ## C10 -/

private theorem flat_diag (r c : Fin p) : (r.val * p + c.val) % (p + 1) = 0 ↔ r = c := by
  have hr := r.isLt
  have hc := c.isLt
  constructor
  · intro h
    obtain ⟨k, hk⟩ := Nat.dvd_of_mod_eq_zero h
    have e : (r.val : ℤ) * p + c.val = (p + 1) * k := by exact_mod_cast hk
    have e2 : ((p : ℤ) + 1) * (k - r.val) = c.val - r.val := by linarith
    have hk0 : (k : ℤ) - r.val = 0 := by
      by_contra hne
      rcases lt_or_gt_of_ne hne with h1 | h1
      · have : ((p : ℤ) + 1) * (k - r.val) ≤ ((p : ℤ) + 1) * (-1) :=
          mul_le_mul_of_nonneg_left (by omega) (by omega)
        omega
      · have : ((p : ℤ) + 1) * 1 ≤ ((p : ℤ) + 1) * (k - r.val) :=
          mul_le_mul_of_nonneg_left (by omega) (by omega)
        omega
    rw [hk0, mul_zero] at e2
    exact Fin.ext (by omega)
  · rintro rfl
    rw [show r.val * p + r.val = (p + 1) * r.val by ring]
    exact Nat.mul_mod_right _ _

private theorem addFlat_ridge [Ring K] (A : Mat p K) (α β : K) :
    addFlat (ridge A α) β = ridge A (α + β) := by
  funext r c
  unfold addFlat ridge
  simp only [flat_diag]
  by_cases h : r = c
  · simp [h, add_assoc]
  · simp [h]

private theorem ridge_zero [Ring K] (A : Mat p K) : ridge A 0 = A := by
  funext r c; simp [ridge]

private theorem ridgeLoop_eq [Field K] (posv : Mat p K → Vec p K → Option (Vec p K)) (A : Mat p K)
    (b : Vec p K) : ∀ (alphas : List K) (prev : K),
    (ridgeLoop posv b (ridge A prev) prev alphas).2
        = alphas.map (fun α => (posv (ridge A α) b).getD fun _ => 10 ^ 30) ∧
      (ridgeLoop posv b (ridge A prev) prev alphas).1 = ridge A (alphas.getLast?.getD prev)
  | [], prev => by simp [ridgeLoop]
  | α :: rest, prev => by
    obtain ⟨h1, h2⟩ := ridgeLoop_eq posv A b rest α
    have e : addFlat (ridge A prev) (α - prev) = ridge A α := by
      rw [addFlat_ridge]; congr 1; ring
    simp only [ridgeLoop]
    rw [e]
    refine ⟨by rw [h1]; rfl, ?_⟩
    rw [h2]
    cases rest with
    | nil => rfl
    | cons x xs =>
      rw [List.getLast?_cons_cons,
        List.getLast?_eq_some_getLast (List.cons_ne_nil _ _)]
      rfl

/-- **C10.** Whatever the alphas (any order, repetitions) and whatever the linear solver does, the
`i`-th column is the solver's answer for `A + alpha_i I` (or the failure marker), and the caller's
matrix is unchanged when the function returns. -/
theorem C10_ridge_path [Field K] (posv : Mat p K → Vec p K → Option (Vec p K)) (A : Mat p K)
    (b : Vec p K) (alphas : List K) (hne : alphas ≠ []) :
    solverRidge posv A b alphas =
      .ok (alphas.map (fun α => (posv (ridge A α) b).getD fun _ => 10 ^ 30), A) := by
  obtain ⟨h1, h2⟩ := ridgeLoop_eq posv A b alphas 0
  rw [ridge_zero] at h1 h2
  unfold solverRidge
  simp only
  rw [List.getLast?_eq_some_getLast hne] at h2 ⊢
  simp only [Option.getD_some] at h2
  simp only
  rw [h1, h2, addFlat_ridge, add_neg_cancel, ridge_zero]

/-- With no alphas the call fails with an unbound variable. -/
theorem C10_no_alphas [Field K] (posv : Mat p K → Vec p K → Option (Vec p K)) (A : Mat p K)
    (b : Vec p K) : solverRidge posv A b [] = .error .nameError := rfl

/-! ## C11 -/

/-- The entries are all numbers. -/
private theorem argminFrom_spec [LinearOrder K] : ∀ (done rest : List K) (best : K) (idx : ℕ),
    done[idx]? = some best → (∀ (j : ℕ) (x : K), done[j]? = some x → best ≤ x) →
    (∀ (j : ℕ) (x : K), j < idx → done[j]? = some x → best < x) →
    ∃ m, (done ++ rest)[argminFrom best idx done.length (rest.map NF.val)]? = some m ∧
      (∀ (j : ℕ) (x : K), (done ++ rest)[j]? = some x → m ≤ x) ∧
      (∀ (j : ℕ) (x : K), j < argminFrom best idx done.length (rest.map NF.val) →
        (done ++ rest)[j]? = some x → m < x)
  | done, [], best, idx, h1, h2, h3 => by
    simp only [List.map_nil, argminFrom, List.append_nil]
    exact ⟨best, h1, h2, h3⟩
  | done, x :: rest, best, idx, h1, h2, h3 => by
    have hidx : idx < done.length := by
      rw [List.getElem?_eq_some_iff] at h1; exact h1.1
    have happ : done ++ x :: rest = (done ++ [x]) ++ rest := by simp
    have hget : ∀ (j : ℕ) (y : K), (done ++ [x])[j]? = some y →
        (done[j]? = some y ∧ j < done.length) ∨ (j = done.length ∧ y = x) := by
      intro j y hj
      by_cases hlt : j < done.length
      · rw [List.getElem?_append_left hlt] at hj; exact .inl ⟨hj, hlt⟩
      · rw [List.getElem?_append_right (by omega)] at hj
        have : j - done.length = 0 := by
          by_contra hne
          rw [List.getElem?_eq_none (by simp; omega)] at hj
          simp at hj
        rw [this] at hj
        simp only [List.getElem?_cons_zero, Option.some.injEq] at hj
        exact .inr ⟨by omega, hj.symm⟩
    simp only [List.map_cons, argminFrom]
    rw [happ, show done.length + 1 = (done ++ [x]).length by simp]
    split
    · rename_i hx
      refine argminFrom_spec (done ++ [x]) rest x done.length (by simp) ?_ ?_
      · intro j y hj
        rcases hget j y hj with ⟨h, _⟩ | ⟨_, rfl⟩
        · exact hx.le.trans (h2 j y h)
        · exact le_refl _
      · intro j y hjl hj
        rcases hget j y hj with ⟨h, _⟩ | ⟨h, _⟩
        · exact lt_of_lt_of_le hx (h2 j y h)
        · omega
    · rename_i hx
      refine argminFrom_spec (done ++ [x]) rest best idx ?_ ?_ ?_
      · rw [List.getElem?_append_left hidx]; exact h1
      · intro j y hj
        rcases hget j y hj with ⟨h, _⟩ | ⟨_, rfl⟩
        · exact h2 j y h
        · exact not_lt.mp hx
      · intro j y hjl hj
        rcases hget j y hj with ⟨h, _⟩ | ⟨h, _⟩
        · exact h3 j y hjl h
        · omega

private theorem argmin_spec [LinearOrder K] (xs : List K) (hne : xs ≠ []) :
    ∃ (i : ℕ) (m : K), argmin (xs.map NF.val) = .ok i ∧ xs[i]? = some m ∧
      (∀ (j : ℕ) (x : K), xs[j]? = some x → m ≤ x) ∧ (∀ (j : ℕ) (x : K), j < i → xs[j]? = some x → m < x) := by
  cases xs with
  | nil => exact absurd rfl hne
  | cons x rest =>
    obtain ⟨m, h⟩ := argminFrom_spec [x] rest x 0 rfl
      (by intro j y hj
          have : j = 0 := by
            by_contra hne
            rw [List.getElem?_eq_none (by simp; omega)] at hj; simp at hj
          subst this; simp at hj; exact hj.le)
      (by intro j y hj; omega)
    exact ⟨_, m, rfl, h⟩

/-- **C11.** When the numbers of alphas, coefficient columns and errors agree and the test errors are
numbers, the model returned is one of the candidates (coefficients, alpha and both errors from the
same column), no candidate has a smaller test error, and every earlier candidate has a larger one. -/
theorem C11_best_model [LinearOrder K] (alphas : List K) (cs : List (Vec p K)) (train : List (NF K))
    (test : List K) (hne : alphas ≠ []) (h1 : cs.length = alphas.length)
    (h2 : train.length = alphas.length) (h3 : test.length = alphas.length) :
    ∃ (b : Best p K) (i : ℕ) (m : K), getBestModel alphas cs train (test.map NF.val) = .ok b ∧
      cs[i]? = some b.coeffs ∧ alphas[i]? = some b.alpha ∧ train[i]? = some b.rmseTrain ∧
      test[i]? = some m ∧ b.rmseTest = .val m ∧
      (∀ (j : ℕ) (x : K), test[j]? = some x → m ≤ x) ∧
      (∀ (j : ℕ) (x : K), j < i → test[j]? = some x → m < x) := by
  have ht : test ≠ [] := by
    intro h; rw [h] at h3; simp at h3; exact hne (List.length_eq_zero_iff.mp h3.symm)
  obtain ⟨i, m, e, hm, hmin, hfirst⟩ := argmin_spec test ht
  have hi : i < test.length := (List.getElem?_eq_some_iff.mp hm).1
  have hc : cs[i]? = some cs[i] := List.getElem?_eq_getElem (by omega)
  have htr : train[i]? = some train[i] := List.getElem?_eq_getElem (by omega)
  have ha : alphas[i]? = some alphas[i] := List.getElem?_eq_getElem (by omega)
  refine ⟨⟨cs[i], train[i], .val m, alphas[i]⟩, i, m, ?_, hc, ha, htr, hm, rfl, hmin, hfirst⟩
  unfold getBestModel
  rw [if_neg (by omega), if_neg (by omega), if_neg (by simp; omega)]
  simp only [e, hc, htr, ha, List.getElem?_map, hm, Option.map_some, orErr, bind, Except.bind, pure,
    Except.pure]

/-- **C11, error branches.** Inconsistent shapes and an empty candidate list are rejected. -/
theorem C11_rejected [LinearOrder K] (alphas : List K) (cs : List (Vec p K))
    (train test : List (NF K)) :
    ((alphas.length ≠ cs.length ∨ alphas.length ≠ train.length ∨ alphas.length ≠ test.length) →
      getBestModel alphas cs train test = .error .runtimeError) ∧
    (getBestModel (p := p) (K := K) [] [] [] [] = .error .valueError) := by
  refine ⟨?_, rfl⟩
  intro h
  unfold getBestModel
  split
  · rfl
  split
  · rfl
  split
  · rfl
  omega

/-- Where a candidate's test error is NaN, that candidate is selected: the first NaN wins. -/
theorem C11_nan_selected [LinearOrder K] (xs : List K) (rest : List (NF K)) :
    argmin (xs.map NF.val ++ .nan :: rest) = .ok xs.length := by
  have key : ∀ (ys : List K) (best : K) (idx i : ℕ),
      argminFrom best idx i (ys.map NF.val ++ .nan :: rest) = i + ys.length := by
    intro ys
    induction ys with
    | nil => intro best idx i; simp [argminFrom]
    | cons y ys ih =>
      intro best idx i
      simp only [List.map_cons, List.cons_append, argminFrom]
      split <;> rw [ih] <;> simp <;> omega
  cases xs with
  | nil => rfl
  | cons x xs =>
    simp only [List.map_cons, List.cons_append, argmin]
    rw [key]; simp; omega

/-- **C11 end to end.** `fit` on the products of training rows `Tr` and test rows `Te` returns the
ridge solution of one of the requested alphas, with the smallest mean squared test error of all of
them, and it returns exactly what `fit_standard` returns on the rows. -/
theorem C11_fit [Field K] [LinearOrder K] [IsStrictOrderedRing K] (sqrt : K → K)
    (hsqrt : ∀ x y, 0 ≤ x → 0 ≤ y → (sqrt x ≤ sqrt y ↔ x ≤ y))
    (posv : Mat p K → Vec p K → Option (Vec p K)) (alphas : List K) (hne : alphas ≠ [])
    (Tr Te : List (Vec p K × K)) (s : Vec p K) :
    let sol : K → Vec p K := fun α => (posv (ridge (xtxOf Tr) α) (xtyOf Tr)).getD fun _ => 10 ^ 30
    ∃ b : Best p K,
      fit sqrt posv alphas ⟨xtxOf Tr, xtyOf Tr, yyOf Tr, Tr.length, s⟩
        ⟨xtxOf Te, xtyOf Te, yyOf Te, Te.length, s⟩ = .ok b ∧
      fitStandard sqrt posv alphas Tr Te = .ok b ∧
      b.alpha ∈ alphas ∧ b.coeffs = sol b.alpha ∧
      b.rmseTrain = .val (sqrt (meanSq Tr b.coeffs)) ∧
      b.rmseTest = .val (sqrt (meanSq Te b.coeffs)) ∧
      ∀ α ∈ alphas, meanSq Te b.coeffs ≤ meanSq Te (sol α) := by
  intro sol
  have e1 := C10_ridge_path posv (xtxOf Tr) (xtyOf Tr) alphas hne
  obtain ⟨b, i, m, hb, hc, ha, htr, hm, hre, hmin, -⟩ :=
    C11_best_model alphas (alphas.map sol)
      ((alphas.map sol).map fun c => NF.val (sqrt (meanSq Tr c)))
      ((alphas.map sol).map fun c => sqrt (meanSq Te c)) hne (by simp) (by simp) (by simp)
  simp only [List.map_map] at hb
  have hcs : b.coeffs = sol b.alpha := by
    rw [List.getElem?_map, ha] at hc
    simpa using hc.symm
  have hmm : m = sqrt (meanSq Te b.coeffs) := by
    rw [List.getElem?_map, hc] at hm
    simpa using hm.symm
  refine ⟨b, ?_, ?_, List.mem_of_getElem? ha, hcs, ?_, by rw [hre, hmm], ?_⟩
  · unfold fit
    simp only [e1, bind, Except.bind]
    rw [(C09_rmse_paths_agree sqrt Tr _ rfl rfl rfl rfl _ _ true).1,
      (C09_rmse_paths_agree sqrt Te _ rfl rfl rfl rfl _ _ true).1]
    simp only [List.map_map]
    exact hb
  · unfold fitStandard
    simp only [e1, bind, Except.bind]
    rw [(C09_rmse_paths_agree sqrt Tr ⟨xtxOf Tr, xtyOf Tr, yyOf Tr, Tr.length, s⟩
        rfl rfl rfl rfl _ true _).2,
      (C09_rmse_paths_agree sqrt Te ⟨xtxOf Te, xtyOf Te, yyOf Te, Te.length, s⟩
        rfl rfl rfl rfl _ true _).2]
    simp only [List.map_map]
    exact hb
  · rw [List.getElem?_map, hc] at htr
    simpa using htr.symm
  · intro α hα
    obtain ⟨j, hj, rfl⟩ := List.getElem_of_mem hα
    have := hmin j (sqrt (meanSq Te (sol alphas[j]))) (by simp [List.getElem?_eq_getElem hj])
    rw [hmm] at this
    exact (hsqrt _ _ (meanSq_nonneg _ _) (meanSq_nonneg _ _)).mp this

/-! ## C13, C52 -/

/-- **C13, first half.** No scale used as a divisor is zero. -/
theorem C13_scales_nonzero [Field K] [LinearOrder K] [IsStrictOrderedRing K] (scales : Vec p K)
    (includeForce : Bool) (thr : K) (ht : 0 < thr) (a : Fin p) :
    (roundScales scales includeForce thr).1 a ≠ 0 := by
  have h2 : (0 : K) < thr * thr := mul_pos ht ht
  intro h0
  cases includeForce
  · simp only [roundScales, Bool.false_eq_true, if_false] at h0
    by_cases h : |scales a| < thr * thr
    · simp [h] at h0
    · rw [if_neg (by simpa using h)] at h0
      rw [h0, abs_zero] at h
      exact h h2
  · simp only [roundScales, if_true] at h0
    by_cases h : |scales a| < thr
    · simp [h] at h0
    · rw [if_neg (by simpa using h)] at h0
      rw [h0, abs_zero] at h
      exact h ht

/-- **C13, second half.** For every feature row, predicting from the raw features with
`coeffs / scales` gives the prediction from the zeroed and scaled features with the fitted
coefficients, provided the coefficients of the zeroed features vanish (C52 shows they do). -/
theorem C13_scaling_transparent [Field K] [LinearOrder K]
    (scales : Vec p K) (includeForce : Bool) (thr : K) (c raw : Vec p K)
    (hz : ∀ a, (roundScales scales includeForce thr).2 a = true → c a = 0) :
    predict (scaledCoeffs c (roundScales scales includeForce thr).1) raw =
      predict c (fun a => (if (roundScales scales includeForce thr).2 a then 0 else raw a) /
        (roundScales scales includeForce thr).1 a) := by
  unfold predict scaledCoeffs
  refine Finset.sum_congr rfl fun a _ => ?_
  by_cases h : (roundScales scales includeForce thr).2 a = true
  · simp [h, hz a h]
  · simp only [h]
    simp only [Bool.false_eq_true, if_false]
    ring

/-- **C13, reuse of scales.** Passing the scales of the training data to a later call (test data)
leaves them unchanged and zeroes nothing, for every threshold `0 < thr ≤ 1`; so the test rows are just
the raw rows divided by the training scales. -/
theorem C13_scales_reused [Field K] [LinearOrder K] [IsStrictOrderedRing K] (scales : Vec p K)
    (includeForce : Bool) (thr : K) (ht : 0 < thr) (h1 : thr ≤ 1) :
    roundScales (roundScales scales includeForce thr).1 includeForce thr =
      ((roundScales scales includeForce thr).1, fun _ => false) := by
  have h2 : thr * thr ≤ 1 := by nlinarith
  have key : ∀ a, (roundScales (roundScales scales includeForce thr).1 includeForce thr).2 a
      = false := by
    intro a
    cases includeForce
    · simp only [roundScales, Bool.false_eq_true, if_false, decide_eq_false_iff_not, not_lt]
      by_cases h : |scales a| < thr * thr
      · simpa [h] using h2
      · rw [if_neg (by simpa using h)]; exact not_lt.mp h
    · simp only [roundScales, if_true, decide_eq_false_iff_not, not_lt]
      by_cases h : |scales a| < thr
      · simpa [h] using h1
      · rw [if_neg (by simpa using h)]; exact not_lt.mp h
  refine Prod.ext ?_ (funext key)
  funext a
  have h := key a
  have e : ∀ v : Vec p K, (roundScales v includeForce thr).1 a
      = if (roundScales v includeForce thr).2 a then 1 else v a := fun _ => rfl
  rw [e, h]
  simp

/-- **C52.** With a linear solver whose answers solve the system, every ridge solution with
`alpha ≠ 0` computed from the scaled data gives coefficient zero to every feature whose scale was
below the threshold. -/
theorem C52_zeroed_features [Field K] [LinearOrder K] (sqrt : K → K) (includeForce : Bool) (thr : K)
    (scales : Option (Vec p K)) (rows : List (Row p K)) (α : K) (hα : α ≠ 0) (c : Vec p K)
    (hsol : Solves (ridge (calcXY sqrt includeForce thr scales rows).xtx α)
      (calcXY sqrt includeForce thr scales rows).xty c) (a : Fin p)
    (ha : (roundScales (scales.getD fun a => sqrt (stdVariance rows a)) includeForce thr).2 a) :
    c a = 0 := by
  have hcol : ∀ b, (calcXY sqrt includeForce thr scales rows).xtx a b = 0 := by
    intro b
    simp only [calcXY, xtxOf, List.map_map]
    refine List.sum_eq_zero ?_
    intro x hx
    obtain ⟨r, _, rfl⟩ := List.mem_map.mp hx
    simp [Row.weighted, ha]
  have hy : (calcXY sqrt includeForce thr scales rows).xty a = 0 := by
    simp only [calcXY, xtyOf, List.map_map]
    refine List.sum_eq_zero ?_
    intro x hx
    obtain ⟨r, _, rfl⟩ := List.mem_map.mp hx
    simp [Row.weighted, ha]
  have h := hsol a
  rw [hy] at h
  unfold ridge at h
  simp only [hcol, zero_add, ite_mul, zero_mul] at h
  rw [Finset.sum_ite_eq] at h
  simp only [Finset.mem_univ, if_true, mul_eq_zero] at h
  rcases h with h | h
  · exact absurd h hα
  · exact h

/-- **C52/C13 together.** For the solution of any requested `alpha ≠ 0` the saved coefficients
(`coeffs / scales`) predict from raw features exactly what the fit predicts from scaled features. -/
theorem C13_fitted_model_transparent [Field K] [LinearOrder K] (sqrt : K → K) (includeForce : Bool)
    (thr : K) (rows : List (Row p K)) (α : K) (hα : α ≠ 0)
    (posv : Mat p K → Vec p K → Option (Vec p K))
    (hposv : ∀ A b c, posv A b = some c → Solves A b c) (c : Vec p K)
    (hc : posv (ridge (calcXY sqrt includeForce thr none rows).xtx α)
      (calcXY sqrt includeForce thr none rows).xty = some c) (raw : Vec p K) :
    let rs := roundScales (fun a => sqrt (stdVariance rows a)) includeForce thr
    predict (scaledCoeffs c (calcXY sqrt includeForce thr none rows).scales) raw =
      predict c (fun a => (if rs.2 a then 0 else raw a) / rs.1 a) := by
  intro rs
  exact C13_scaling_transparent _ includeForce thr c raw fun a ha =>
    C52_zeroed_features sqrt includeForce thr none rows α hα c (hposv _ _ _ hc) a ha

/-! ## What a solution of the normal equations means -/

/-- **C10, meaning.** A vector solving the system presented to the solver for `alpha ≥ 0` minimises the
penalised sum of squares over the training rows. -/
theorem C10_solution_minimises [Field K] [LinearOrder K] [IsStrictOrderedRing K]
    (X : List (Vec p K × K)) (α : K) (hα : 0 ≤ α) (c : Vec p K)
    (hsol : Solves (ridge (xtxOf X) α) (xtyOf X) c) (d : Vec p K) :
    objective X α c ≤ objective X α d := by
  have hgrad : ∀ i, gradient X α c i = 0 := by
    intro i
    have h := hsol i
    unfold ridge at h
    simp only [add_mul, Finset.sum_add_distrib, ite_mul, zero_mul, Finset.sum_ite_eq,
      Finset.mem_univ, if_true] at h
    have e : ∑ j, xtxOf X i j * c j = (X.map fun r => predict c r.1 * r.1 i).sum := by
      clear h hsol
      induction X with
      | nil => simp [xtxOf]
      | cons r X ih =>
        simp only [xtxOf, List.map_cons, List.sum_cons, add_mul, Finset.sum_add_distrib] at ih ⊢
        rw [ih]
        congr 1
        unfold predict
        rw [Finset.sum_mul]
        exact Finset.sum_congr rfl fun b _ => by ring
    rw [e] at h
    unfold gradient
    have e2 : (X.map fun r => (predict c r.1 - r.2) * r.1 i).sum
        = (X.map fun r => predict c r.1 * r.1 i).sum - xtyOf X i := by
      clear e h hsol
      unfold xtyOf
      induction X with
      | nil => simp
      | cons r X ih => simp only [List.map_cons, List.sum_cons]; rw [ih]; ring
    rw [e2]
    linarith
  have hlin : ∀ v x : Vec p K, predict v x - predict c x = predict (fun a => v a - c a) x := by
    intro v x
    unfold predict
    rw [← Finset.sum_sub_distrib]
    exact Finset.sum_congr rfl fun a _ => by ring
  set e : Vec p K := fun a => d a - c a with he
  have expand : objective X α d = objective X α c + 2 * ∑ i, gradient X α c i * e i
      + ((X.map fun r => predict e r.1 ^ 2).sum + α * ∑ a, e a ^ 2) := by
    have hrows : (X.map fun r => (r.2 - predict d r.1) ^ 2).sum
        = (X.map fun r => (r.2 - predict c r.1) ^ 2).sum
          + 2 * ∑ i, (X.map fun r => (predict c r.1 - r.2) * r.1 i).sum * e i
          + (X.map fun r => predict e r.1 ^ 2).sum := by
      clear hgrad hsol
      induction X with
      | nil => simp
      | cons r X ih =>
        simp only [List.map_cons, List.sum_cons, add_mul, Finset.sum_add_distrib]
        rw [ih]
        have hx : ∑ i, (predict c r.1 - r.2) * r.1 i * e i
            = (predict c r.1 - r.2) * predict e r.1 := by
          unfold predict
          rw [Finset.mul_sum]
          exact Finset.sum_congr rfl fun b _ => by ring
        rw [hx]
        have hd : predict d r.1 = predict c r.1 + predict e r.1 := by
          rw [he, ← hlin d r.1]; ring
        rw [hd]; ring
    have hpen : ∑ a, d a ^ 2 = ∑ a, c a ^ 2 + 2 * ∑ a, c a * e a + ∑ a, e a ^ 2 := by
      rw [Finset.mul_sum, ← Finset.sum_add_distrib, ← Finset.sum_add_distrib]
      refine Finset.sum_congr rfl fun a _ => ?_
      simp only [he]; ring
    unfold objective gradient
    simp only [add_mul, Finset.sum_add_distrib]
    rw [hrows, hpen]
    have : ∑ i, α * c i * e i = α * ∑ a, c a * e a := by
      rw [Finset.mul_sum]; exact Finset.sum_congr rfl fun a _ => by ring
    rw [this]; ring
  have hzero : ∑ i, gradient X α c i * e i = 0 :=
    Finset.sum_eq_zero fun i _ => by rw [hgrad i, zero_mul]
  have hnn : 0 ≤ (X.map fun r => predict e r.1 ^ 2).sum := by
    clear * -
    induction X with
    | nil => simp
    | cons r X ih => rw [List.map_cons, List.sum_cons]; exact add_nonneg (sq_nonneg _) ih
  have hpp : 0 ≤ α * ∑ a, e a ^ 2 :=
    mul_nonneg hα (Finset.sum_nonneg fun _ _ => sq_nonneg _)
  rw [expand, hzero]
  linarith

/-! ## C53 -/

/-- **C53, violation.** If the factorisation fails for every requested alpha, `fit` does not raise:
it returns a model whose coefficients are all `1e30`, whatever the data. -/
theorem C53_singular_not_reported [Field K] [LinearOrder K] [IsStrictOrderedRing K] (sqrt : K → K)
    (alphas : List K) (hne : alphas ≠ []) (Tr Te : List (Vec p K × K)) (s : Vec p K) :
    ∃ b : Best p K,
      fit sqrt (fun _ _ => none) alphas ⟨xtxOf Tr, xtyOf Tr, yyOf Tr, Tr.length, s⟩
        ⟨xtxOf Te, xtyOf Te, yyOf Te, Te.length, s⟩ = .ok b ∧
      b.coeffs = fun _ => 10 ^ 30 := by
  have e1 := C10_ridge_path (fun _ _ => none) (xtxOf Tr) (xtyOf Tr) alphas hne
  obtain ⟨b, i, m, hb, hc, -⟩ :=
    C11_best_model alphas (alphas.map fun _ => fun _ => (10 ^ 30 : K))
      ((alphas.map fun _ => fun _ => (10 ^ 30 : K)).map fun c => NF.val (sqrt (meanSq Tr c)))
      ((alphas.map fun _ => fun _ => (10 ^ 30 : K)).map fun c => sqrt (meanSq Te c))
      hne (by simp) (by simp) (by simp)
  simp only [List.map_map] at hb
  refine ⟨b, ?_, ?_⟩
  · unfold fit
    simp only [e1, bind, Except.bind]
    rw [(C09_rmse_paths_agree sqrt Tr _ rfl rfl rfl rfl _ _ true).1,
      (C09_rmse_paths_agree sqrt Te _ rfl rfl rfl rfl _ _ true).1]
    simp only [List.map_map]
    exact hb
  · rw [List.getElem?_map] at hc
    cases h : alphas[i]? with
    | none => rw [h] at hc; simp at hc
    | some _ => rw [h] at hc; simpa using hc.symm

/-- **C53 (what holds).** Full statement: fitting raises when every factorisation fails.  Proved: the
check itself, where it is reached (`compute_rmse_standard`/`compute_rmse_seq` called with the flag),
raises exactly when every error exceeds the limit.  Missing: `fit` never reaches it. -/
theorem C53_check_partial [Field K] [LinearOrder K] (xs : List K) (t : K) :
    checkSingular (xs.map NF.val) t = .error .runtimeError ↔ ∀ x ∈ xs, t < x := by
  unfold checkSingular
  constructor
  · intro h x hx
    split at h
    · rename_i h'
      rw [List.all_eq_true] at h'
      simpa using h' (.val x) (List.mem_map_of_mem hx)
    · simp at h
  · intro h
    rw [if_pos]
    rw [List.all_eq_true]
    intro y hy
    obtain ⟨x, hx, rfl⟩ := List.mem_map.mp hy
    simpa using h x hx

/-! ## Non-vacuity -/

/-- Two features, three rows. -/
def exRows : List (Vec 2 ℚ × ℚ) :=
  [(fun a => if a = 0 then 1 else 2, 3), (fun a => if a = 0 then 2 else 5, 1),
   (fun a => if a = 0 then 0 else 1, -1)]
example : computeMse (xtxOf exRows) (xtyOf exRows) (yyOf exRows) 3 (fun _ => 1) = 40/3 := by
  decide +kernel
/-- A solver that fails for the first alpha only: both columns and the restored matrix. -/
example : ((solverRidge (fun A b => if A 0 0 = 6 then none else some b) (xtxOf exRows) (xtyOf exRows)
    [1, -2, 3]).toOption.map fun r => (r.1.map fun c => (c 0, c 1), r.2 0 0, r.2 0 1)) =
    some ([(10 ^ 30, 10 ^ 30), (5, 10), (5, 10)], 5, 12) := by decide +kernel
example : (getBestModel [1, 2, 3] [fun _ => 0, fun _ => 1, fun _ => 2] [.val 0, .val 0, .val 0]
    [.val 3, .val 1, .val 1] : Except Err (Best 1 ℚ)).toOption.map (fun b => (b.alpha, b.coeffs 0)) =
    some (2, 1) := by decide +kernel
/-- A constant feature (scale 0) is zeroed: the hypothesis of C52 is met. -/
example : (roundScales (p := 2) (fun a => if a = 0 then (0 : ℚ) else 3) true (1/100)).2 0 = true ∧
    (roundScales (p := 2) (fun a => if a = 0 then (0 : ℚ) else 3) true (1/100)).2 1 = false ∧
    (roundScales (p := 2) (fun a => if a = 0 then (0 : ℚ) else 3) true (1/100)).1 0 = 1 := by
  decide +kernel

end Verif.Regression
