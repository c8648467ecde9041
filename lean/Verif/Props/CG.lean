import Verif.Model.Regression
import Verif.Spec.Regression
import Mathlib.Algebra.BigOperators.Ring.Finset
import Mathlib.Algebra.Order.Field.Rat
import Mathlib.Tactic.Linarith
import Mathlib.Tactic.Ring

/-! # C12: conjugate-gradient solver -/

namespace Verif.Regression
open Verif.Sequential Verif.LSQ
variable {p : ℕ} {K : Type}

/-- The state after `k` passes through the loop body, ignoring the stopping rule. -/
def visited [Field K] [LinearOrder K] (A : Mat p K) (b : Vec p K) (α : K) (c0 : Vec p K) :
    ℕ → Except Err (CG p K)
  | 0 => .ok (cgInit A b α c0)
  | k + 1 => match visited A b α c0 k with
    | .error e => .error e
    | .ok s => cgStep A α s

private theorem evalDot_eq [Field K] (A : Mat p K) (α : K) (v : Vec p K) (a : Fin p) :
    evalDot A α v a = ∑ j, ridge A α a j * v j := by
  unfold evalDot mulVec ridge
  simp only [add_mul, Finset.sum_add_distrib, ite_mul, zero_mul, Finset.sum_ite_eq,
    Finset.mem_univ, if_true]

private theorem evalDot_lin [Field K] (A : Mat p K) (α r : K) (u v : Vec p K) (a : Fin p) :
    evalDot A α (fun i => u i + r * v i) a = evalDot A α u a + r * evalDot A α v a := by
  have h : mulVec A (fun i => u i + r * v i) a = mulVec A u a + r * mulVec A v a := by
    unfold mulVec
    rw [Finset.mul_sum, ← Finset.sum_add_distrib]
    exact Finset.sum_congr rfl fun b _ => by ring
  unfold evalDot
  rw [h]; ring

/-- **C12, residual bookkeeping.** At every visited iterate the recursively updated residual vector is
the true residual of the current coefficients. -/
theorem C12_true_residual [Field K] [LinearOrder K] (A : Mat p K) (b : Vec p K) (α : K)
    (c0 : Vec p K) (k : ℕ) (s : CG p K) (h : visited A b α c0 k = .ok s) :
    ∀ a, s.residuals a = b a - ∑ j, ridge A α a j * s.coef j := by
  induction k generalizing s with
  | zero =>
    simp only [visited, Except.ok.injEq] at h
    subst h
    intro a
    simp only [cgInit, evalDot_eq]
  | succ k ih =>
    simp only [visited] at h
    cases hv : visited A b α c0 k with
    | error e => rw [hv] at h; simp at h
    | ok t =>
      rw [hv] at h
      simp only [cgStep] at h
      split at h
      · simp at h
      · rw [Except.ok.injEq] at h
        subst h
        intro a
        simp only
        rw [ih t hv a, ← evalDot_eq, ← evalDot_eq, evalDot_lin]
        ring

private theorem nsq_eq [Field K] [LinearOrder K] (A : Mat p K) (b : Vec p K) (α : K)
    (c0 : Vec p K) (k : ℕ) (s : CG p K) (h : visited A b α c0 k = .ok s) :
    dot s.residuals s.residuals = resSq A b α s.coef := by
  unfold dot resSq
  refine Finset.sum_congr rfl fun a _ => ?_
  rw [C12_true_residual A b α c0 k s h a, pow_two]

private theorem loop_visited [Field K] [LinearOrder K] (A : Mat p K) (b : Vec p K) (α gtol : K)
    (c0 : Vec p K) : ∀ (fuel i : ℕ) (s s' : CG p K) (brk : Bool), visited A b α c0 i = .ok s →
    cgLoop A α gtol fuel i s = .ok (s', brk) →
    ∃ k, i ≤ k ∧ k ≤ i + fuel ∧ visited A b α c0 k = .ok s' ∧
      (brk = false → k = i + fuel) ∧
      (brk = true → cgConverged gtol k s' = true)
  | 0, i, s, s', brk, hv, h => by
    simp only [cgLoop, Except.ok.injEq, Prod.mk.injEq] at h
    obtain ⟨rfl, rfl⟩ := h
    exact ⟨i, le_refl _, le_refl _, hv, fun _ => rfl, by simp⟩
  | fuel + 1, i, s, s', brk, hv, h => by
    simp only [cgLoop] at h
    split at h
    · rename_i hc
      simp only [Except.ok.injEq, Prod.mk.injEq] at h
      obtain ⟨rfl, rfl⟩ := h
      exact ⟨i, le_refl _, by omega, hv, by simp, fun _ => hc⟩
    · cases hs : cgStep A α s with
      | error e => rw [hs] at h; simp at h
      | ok t =>
        rw [hs] at h
        have hv' : visited A b α c0 (i + 1) = .ok t := by simp only [visited, hv, hs]
        obtain ⟨k, h1, h2, h3, h4, h5⟩ := loop_visited A b α gtol c0 fuel (i + 1) t s' brk hv' h
        exact ⟨k, by omega, by omega, h3, fun hb => by rw [h4 hb]; omega, h5⟩

/-- **C12, what is returned.** Whenever a vector is returned, it is the coefficient vector of the
*last* visited iterate: the loop ran out of iterations, or it stopped after more than 100 iterations
with the true residual of exactly this vector below the tolerance. -/
theorem C12_returns_last [Field K] [LinearOrder K] (A : Mat p K) (b : Vec p K) (α gtol : K)
    (maxIter : ℕ) (coef0 : Option (Vec p K)) (c : Vec p K)
    (h : solverCG A b α gtol maxIter coef0 = .ok (some c)) :
    ∃ k s, 1 ≤ k ∧ k ≤ maxIter ∧ visited A b α (coef0.getD fun _ => 0) k = .ok s ∧ c = s.coef ∧
      (k = maxIter ∨ (100 < k ∧ resSq A b α c / (p : K) < gtol * gtol)) := by
  unfold solverCG at h
  simp only [bind, Except.bind, pure, Except.pure] at h
  cases hl : cgLoop A α gtol maxIter 0 (cgInit A b α (coef0.getD fun _ => 0)) with
  | error e => rw [hl] at h; simp at h
  | ok r =>
    obtain ⟨s', brk⟩ := r
    rw [hl] at h
    simp only [Except.ok.injEq] at h
    split at h
    · rename_i hm
      simp only [Option.some.injEq] at h
      obtain ⟨k, -, h2, h3, h4, h5⟩ := loop_visited A b α gtol (coef0.getD fun _ => 0) maxIter 0 _ s'
        brk rfl hl
      have hk : 1 ≤ k := by
        by_contra hk
        have : k = 0 := by omega
        subst this
        simp only [visited, Except.ok.injEq] at h3
        subst h3
        simp [cgInit] at hm
      refine ⟨k, s', hk, by omega, h3, h.symm, ?_⟩
      cases brk with
      | false => exact .inl (by simpa using h4 rfl)
      | true =>
        right
        have hc := h5 rfl
        simp only [cgConverged, Bool.and_eq_true, decide_eq_true_eq] at hc
        rw [nsq_eq A b α _ k s' h3] at hc
        rw [← h]
        exact hc
    · simp at h

/-- **C12 (what holds).** Full statement: the returned vector has the smallest residual of all visited
iterates.  Proved: this, for every run in which the residual never grew from one iterate to the next.
Missing: other runs, where it is false (`C12_violation`). -/
theorem C12_smallest_residual_partial [Field K] [LinearOrder K] (A : Mat p K) (b : Vec p K)
    (α gtol : K) (maxIter : ℕ) (coef0 : Option (Vec p K)) (c : Vec p K)
    (h : solverCG A b α gtol maxIter coef0 = .ok (some c))
    (hmono : ∀ k s t, 1 ≤ k → visited A b α (coef0.getD fun _ => 0) k = .ok s →
      visited A b α (coef0.getD fun _ => 0) (k + 1) = .ok t →
      resSq A b α t.coef ≤ resSq A b α s.coef) :
    ∃ k s, visited A b α (coef0.getD fun _ => 0) k = .ok s ∧ c = s.coef ∧
      ∀ j t, 1 ≤ j → j ≤ k → visited A b α (coef0.getD fun _ => 0) j = .ok t →
        resSq A b α c ≤ resSq A b α t.coef := by
  obtain ⟨k, s, h1, -, hv, hc, -⟩ := C12_returns_last A b α gtol maxIter coef0 c h
  refine ⟨k, s, hv, hc, ?_⟩
  rw [hc]
  clear h h1 hc
  induction k generalizing s with
  | zero => intro j t h1 h2; omega
  | succ k ih =>
    intro j t hj hjk ht
    by_cases e : j = k + 1
    · subst e; rw [hv] at ht; cases ht; exact le_refl _
    · cases hk : visited A b α (coef0.getD fun _ => 0) k with
      | error er => simp only [visited, hk] at hv; simp at hv
      | ok u =>
        exact (hmono k u s (by omega) hk hv).trans (ih u hk j t hj (by omega) ht)

/-- Diagonal example: `A + 1·I = diag(1, 5, 10)`, `b = (3, 10, 1)`. -/
def exA : Mat 3 ℚ := fun i j => if i = j then (if i = 0 then 0 else if i = 1 then 4 else 9) else 0
/-- Right-hand side of the example. -/
def exB : Vec 3 ℚ := fun i => if i = 0 then 3 else if i = 1 then 10 else 1

/-- **C12, violation.** After two iterations on this positive definite system the solver returns the
second iterate although the first one, also visited, has a smaller residual. -/
theorem C12_violation :
    ∃ c s, solverCG exA exB 1 (1/100) 2 none = .ok (some c) ∧
      visited exA exB 1 (fun _ => 0) 1 = .ok s ∧
      resSq exA exB 1 s.coef < resSq exA exB 1 c := by
  have h1 : ∃ s, visited exA exB 1 (fun _ => 0) 1 = .ok s := by
    simp only [visited, cgStep]
    rw [if_neg (by decide +kernel)]
    exact ⟨_, rfl⟩
  obtain ⟨s, hs⟩ := h1
  have h2 : ((solverCG exA exB 1 (1/100) 2 none).toOption.bind id).isSome = true := by
    decide +kernel
  cases hr : solverCG exA exB 1 (1/100) 2 none with
  | error e => rw [hr] at h2; simp [Except.toOption] at h2
  | ok r =>
    rw [hr] at h2
    simp only [Except.toOption, Option.bind_some, id] at h2
    obtain ⟨c, rfl⟩ := Option.isSome_iff_exists.mp h2
    refine ⟨c, s, rfl, hs, ?_⟩
    have key : ((visited exA exB 1 (fun _ => 0) 1).toOption.bind fun s =>
        (solverCG exA exB 1 (1/100) 2 none).toOption.bind fun c => c.map fun c =>
          decide (resSq exA exB 1 s.coef < resSq exA exB 1 c)) = some true := by decide +kernel
    rw [hs, hr] at key
    simpa [Except.toOption] using key

/-- **C12, no result.** The solver can return `None`: here every visited residual is above `1e10`. -/
theorem C12_none_returned :
    solverCG (p := 2) (K := ℚ) (fun i j => if i = j then (i.val : ℚ) else 0) (fun _ => 10 ^ 20) 1
      (1/100) 1 none = .ok none := by
  have h : ((solverCG (p := 2) (K := ℚ) (fun i j => if i = j then (i.val : ℚ) else 0)
      (fun _ => 10 ^ 20) 1 (1/100) 1 none).toOption.map fun r => r.isSome) = some false := by
    decide +kernel
  cases hr : solverCG (p := 2) (K := ℚ) (fun i j => if i = j then (i.val : ℚ) else 0)
      (fun _ => 10 ^ 20) 1 (1/100) 1 none with
  | error e => rw [hr] at h; simp [Except.toOption] at h
  | ok r => rw [hr] at h; cases r <;> simp [Except.toOption] at h ⊢

/-- A run with decreasing residuals that returns a vector. -/
example : (solverCG (p := 2) (K := ℚ) (fun i j => if i = j then (i.val : ℚ) else 0) (fun _ => 1) 1
    (1/100) 2 none).toOption.map (fun r => r.map fun c => (c 0, c 1)) = some (some (1, 1/2)) := by
  decide +kernel

end Verif.Regression
