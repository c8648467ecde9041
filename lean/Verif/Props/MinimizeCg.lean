import Verif.Model.MinimizeCg
import Verif.Spec.MinimizeCg
import Mathlib.Tactic.FieldSimp
import Mathlib.Tactic.Linarith
import Mathlib.Tactic.Ring
import Mathlib.Tactic.NormNum
import Mathlib.Tactic.Positivity
import Mathlib.Data.Fin.VecNotation
import Mathlib.Algebra.BigOperators.Fin
import Mathlib.Algebra.Order.Ring.Rat

/-!
# C125: minimization by conjugate gradients
-/

namespace Verif.MinCg
open Verif Matrix
variable {K : Type} [Field K] [LinearOrder K] [IsStrictOrderedRing K] {n : ℕ}

/-- The line search keeps its promise for all states with the gradient of the point. -/
def GoodSearch (P : Problem K n) (c1 c2 : K) : Prop :=
  ∀ s o, s.g = P.grad s.x → P.search s = some o → Spec.GoodStep P.f P.grad c1 c2 s.x s.p o.alpha o.fval o.grad

theorem descending_snoc {X : Type} (f : X → K) (x y : X) (hxy : f y < f x) :
    ∀ l : List X, Spec.Descending f l → l.getLast? = some x → Spec.Descending f (l ++ [y])
  | [], _, h => by simp at h
  | [z], _, h => by
    simp only [List.getLast?_singleton, Option.some.injEq] at h
    subst h
    exact ⟨hxy, trivial⟩
  | z :: w :: l, hd, h => by
    refine ⟨hd.1, descending_snoc f x y hxy (w :: l) hd.2 ?_⟩
    rwa [List.getLast?_cons_cons] at h

/-- What holds for all states of the minimizer. -/
structure CgInv (P : Problem K n) (x0 : Fin n → K) (s : CgState K n) : Prop where
  value : s.fval = P.f s.x
  gradient : s.g = P.grad s.x
  head : s.vecs.head? = some x0
  last : s.vecs.getLast? = some s.x
  desc : Spec.Descending P.f s.vecs
  length : s.vecs.length = s.k + 1

theorem cgLoop_ok (P : Problem K n) (x0 : Fin n → K) {c1 c2 : K} (hc : 0 < c1) (hS : GoodSearch P c1 c2) (m : ℕ)
    (s : CgState K n) (h : CgInv P x0 s) :
    CgInv P x0 (cgLoop P m s).1 ∧ (cgLoop P m s).1.k ≤ s.k + m ∧
      ((cgLoop P m s).2 = .loop → (cgLoop P m s).1.k = s.k + m ∨ P.norm (cgLoop P m s).1.g ≤ P.gtol) ∧
      ((cgLoop P m s).2 = .lineSearch →
        P.gtol < P.norm (cgLoop P m s).1.g ∧ P.search (cgLoop P m s).1 = none) ∧
      ((cgLoop P m s).2 = .callback →
        0 < (cgLoop P m s).1.k ∧ P.halt (cgLoop P m s).1.x (cgLoop P m s).1.fval = true) := by
  induction m generalizing s with
  | zero => exact ⟨h, le_rfl, fun _ => Or.inl rfl, fun h => by simp [cgLoop] at h, fun h => by simp [cgLoop] at h⟩
  | succ m ih =>
    unfold cgLoop
    by_cases hg : P.norm s.g > P.gtol
    · rw [if_pos hg]
      cases hs : P.search s with
      | none =>
        exact ⟨h, by simp, fun h => by simp at h, fun _ => ⟨hg, hs⟩, fun h => by simp at h⟩
      | some o =>
        obtain ⟨hdown, hpos, hval, hgrad, hw⟩ := hS s o h.gradient hs
        have hlt : P.f (s.x + o.alpha • s.p) < P.f s.x := by
          have h1 := hw.decrease
          have h2 := mul_neg_of_pos_of_neg (mul_pos hc hpos) hdown
          linarith
        have hinv : CgInv P x0 ⟨(prStep s.x s.p s.g o.alpha o.grad).1, o.fval, s.fval, o.grad,
            (prStep s.x s.p s.g o.alpha o.grad).2, s.k + 1, s.vecs ++ [(prStep s.x s.p s.g o.alpha o.grad).1]⟩ := by
          refine ⟨hval, hgrad, ?_, ?_, ?_, ?_⟩
          · rw [List.head?_append, h.head]; rfl
          · simp
          · exact descending_snoc P.f s.x _ hlt _ h.desc h.last
          · simp [h.length]
        simp only
        split_ifs with hh
        · exact ⟨hinv, by simp, fun h => by simp at h, fun h => by simp at h, fun _ => ⟨by simp, hh⟩⟩
        · obtain ⟨i1, i2, i3, i4, i5⟩ := ih _ hinv
          refine ⟨i1, by simp only at i2; omega, fun hl => ?_, i4, i5⟩
          rcases i3 hl with i3 | i3
          · left; simp only at i3; omega
          · exact Or.inr i3
    · rw [if_neg hg]
      exact ⟨h, by simp, fun _ => Or.inr (not_lt.1 hg), fun h => by simp at h, fun h => by simp at h⟩

/-- **C125.**  Result of the minimization: value and gradient belong to the returned point; the points that were
visited start at the given point and end at the returned one, and the values get smaller from point to point; the
number of iterations is kept.  Success means that the norm of the gradient is within the tolerance, unless the
callback stopped the minimization; status 1 means that all iterations were used; status 2 means that the search
found no step although the gradient is above the tolerance. -/
theorem C125_minimizer (P : Problem K n) (length : (Fin n → K) → K) (x0 : Fin n → K) (maxiter : Option ℕ)
    {c1 c2 : K} (hc : 0 < c1) (hS : GoodSearch P c1 c2) :
    let r := minimizeCg P length x0 maxiter
    r.fval = P.f r.x ∧ r.jac = P.grad r.x ∧
      r.vecs.head? = some x0 ∧ r.vecs.getLast? = some r.x ∧ Spec.Descending P.f r.vecs ∧
      r.vecs.length = r.nit + 1 ∧ r.nit ≤ maxiter.getD (n * 200) ∧
      (r.success = true → P.norm r.jac ≤ P.gtol ∨ P.halt r.x r.fval = true) ∧
      (r.status = 1 → r.nit = maxiter.getD (n * 200)) ∧ (r.status = 2 → P.gtol < P.norm r.jac) ∧ r.status ≤ 2 := by
  intro r
  have h := cgLoop_ok P x0 hc hS (maxiter.getD (n * 200))
    ⟨x0, P.f x0, P.f x0 + length (P.grad x0) / 2, P.grad x0, -P.grad x0, 0, [x0]⟩
    ⟨rfl, rfl, rfl, rfl, trivial, rfl⟩
  obtain ⟨i, h1, h2, h3, h4⟩ := h
  simp only [Nat.zero_add] at h1 h2
  refine ⟨i.value, i.gradient, i.head, i.last, i.desc, i.length, h1, ?_, ?_, ?_, ?_⟩
  · intro hs
    simp only [Result.success, r, minimizeCg, beq_iff_eq] at hs ⊢
    split_ifs at hs with k1 k2
    · cases hstop : (cgLoop P (maxiter.getD (n * 200))
        ⟨x0, P.f x0, P.f x0 + length (P.grad x0) / 2, P.grad x0, -P.grad x0, 0, [x0]⟩).2 with
      | loop =>
        rcases h2 hstop with h2 | h2
        · exact absurd h2.ge k2
        · exact Or.inl h2
      | lineSearch => exact absurd hstop k1
      | callback => exact Or.inr (h4 hstop).2
  · intro hs
    simp only [r, minimizeCg] at hs ⊢
    split_ifs at hs with k1 k2
    all_goals first | exact le_antisymm h1 k2 | omega
  · intro hs
    simp only [r, minimizeCg] at hs ⊢
    split_ifs at hs with k1 k2
    all_goals first | exact (h3 k1).1 | omega
  · simp only [r, minimizeCg]
    split_ifs <;> omega

/-- Values that get smaller: the last is not above the first. -/
theorem descending_le {X : Type} (f : X → K) : ∀ (l : List X) (x y : X), Spec.Descending f l → l.head? = some x →
    l.getLast? = some y → f y ≤ f x
  | [], _, _, _, h, _ => by simp at h
  | [z], x, y, _, h1, h2 => by
    simp only [List.head?_cons, List.getLast?_singleton, Option.some.injEq] at h1 h2
    rw [← h1, ← h2]
  | z :: w :: l, x, y, hd, h1, h2 => by
    simp only [List.head?_cons, Option.some.injEq] at h1
    rw [List.getLast?_cons_cons] at h2
    have := descending_le f (w :: l) w y hd.2 rfl h2
    rw [← h1]
    exact this.trans hd.1.le

/-- **C125.**  The minimizer never ends at a higher value than it started from. -/
theorem C125_lower (P : Problem K n) (length : (Fin n → K) → K) (x0 : Fin n → K) (maxiter : Option ℕ)
    {c1 c2 : K} (hc : 0 < c1) (hS : GoodSearch P c1 c2) :
    P.f (minimizeCg P length x0 maxiter).x ≤ P.f x0 := by
  obtain ⟨-, -, h1, h2, h3, -⟩ := C125_minimizer P length x0 maxiter hc hS
  exact descending_le P.f _ _ _ h3 h1 h2

/-- **C125.**  A start with a small gradient is returned at once, as a success if any iteration is allowed. -/
theorem C125_converged_start (P : Problem K n) (length : (Fin n → K) → K) (x0 : Fin n → K) (maxiter : Option ℕ)
    (h : P.norm (P.grad x0) ≤ P.gtol) (hm : 0 < maxiter.getD (n * 200)) :
    let r := minimizeCg P length x0 maxiter
    r.x = x0 ∧ r.nit = 0 ∧ r.success = true := by
  obtain ⟨m, hm'⟩ : ∃ m, maxiter.getD (n * 200) = m + 1 := ⟨_, (Nat.succ_pred_eq_of_pos hm).symm⟩
  simp only [minimizeCg, Result.success, hm', cgLoop, if_neg (not_lt.2 h)]
  simp

/-- **C125.**  The next direction goes downhill at least as steeply as the negative gradient if the search did not
pass the minimum along its direction or if the update restarts. -/
theorem C125_direction (x p g : Fin n → K) (alpha : K) (g' : Fin n → K)
    (h : g' ⬝ᵥ p ≤ 0 ∨ (g' - g) ⬝ᵥ g' ≤ 0) :
    (prStep x p g alpha g').1 = x + alpha • p ∧
      g' ⬝ᵥ (prStep x p g alpha g').2 ≤ -(g' ⬝ᵥ g') := by
  refine ⟨rfl, ?_⟩
  have hgg : 0 ≤ g ⬝ᵥ g := by
    unfold dotProduct
    exact Finset.sum_nonneg fun i _ => mul_self_nonneg _
  simp only [prStep]
  rw [dotProduct_add, dotProduct_neg, dotProduct_smul, smul_eq_mul]
  have hb : 0 ≤ max 0 ((g' - g) ⬝ᵥ g' / (g ⬝ᵥ g)) := le_max_left _ _
  rcases h with h | h
  · have := mul_nonpos_of_nonneg_of_nonpos hb h
    linarith
  · have : max 0 ((g' - g) ⬝ᵥ g' / (g ⬝ᵥ g)) = 0 := max_eq_left (div_nonpos_of_nonpos_of_nonneg h hgg)
    rw [this, zero_mul, add_zero]

/-! ## A parabola in one dimension -/

/-- A search that takes the step one if it meets the conditions, as the first trial does, and the exact minimum
otherwise. -/
def exPick (c : ℚ) (s : CgState ℚ 1) : Option (LineOut ℚ 1) :=
  let g (x : ℚ) : ℚ := 1 + c * x
  let f (x : ℚ) : ℚ := x + c / 2 * x ^ 2
  let x := s.x 0
  let p := s.p 0
  let slope := g x * p
  if slope ≥ 0 then none
  else
    let a : ℚ := if f (x + p) ≤ f x + 1 / 10000 * slope ∧ |g (x + p) * p| ≤ 2 / 5 * |slope| then 1
      else -slope / (c * p ^ 2)
    some ⟨a, f (x + a * p), fun _ => g (x + a * p)⟩

/-- The parabola `x + c x²/2`. -/
def exParabola (c : ℚ) : Problem ℚ 1 where
  f x := x 0 + c / 2 * x 0 ^ 2
  grad x := fun _ => 1 + c * x 0
  norm g := |g 0|
  gtol := 1 / 100000
  search := exPick c
  halt _ _ := false

theorem exPick_good (c : ℚ) (hc : 0 < c) : GoodSearch (exParabola c) (1 / 10000) (2 / 5) := by
  intro s o hg hs
  simp only [exParabola, exPick] at hs
  split_ifs at hs with h1 h2
  · have ho := (Option.some.inj hs).symm
    push Not at h1
    subst ho
    refine ⟨?_, by norm_num, ?_, ?_, ?_, ?_⟩
    · simpa [exParabola, dotProduct] using h1
    · simp [exParabola]
    · simp [exParabola]
    · simp only [exParabola, dotProduct, Fin.sum_univ_one, Pi.add_apply, Pi.smul_apply, smul_eq_mul, one_mul, mul_one]
      exact h2.1
    · simp only [exParabola, dotProduct, Fin.sum_univ_one, Pi.add_apply, Pi.smul_apply, smul_eq_mul, one_mul]
      exact h2.2
  · have ho := (Option.some.inj hs).symm
    push Not at h1
    have hp : s.p 0 ≠ 0 := fun h => by rw [h] at h1; simp at h1
    have hp2 : 0 < s.p 0 ^ 2 := by positivity
    subst ho
    have hpos : 0 < -((1 + c * s.x 0) * s.p 0) / (c * s.p 0 ^ 2) := div_pos (by linarith) (by positivity)
    generalize ha : -((1 + c * s.x 0) * s.p 0) / (c * s.p 0 ^ 2) = a at hpos ⊢
    have hsl : (1 + c * s.x 0) * s.p 0 = -(a * (c * s.p 0 ^ 2)) := by
      rw [← ha]
      field_simp
    refine ⟨?_, hpos, ?_, ?_, ?_, ?_⟩
    · simpa [exParabola, dotProduct] using h1
    · simp [exParabola]
    · simp [exParabola]
    · simp only [exParabola, dotProduct, Fin.sum_univ_one, Pi.add_apply, Pi.smul_apply, smul_eq_mul]
      rw [hsl]
      have h3 : s.x 0 + a * s.p 0 + c / 2 * (s.x 0 + a * s.p 0) ^ 2 =
          s.x 0 + c / 2 * s.x 0 ^ 2 + a * ((1 + c * s.x 0) * s.p 0) + c / 2 * a ^ 2 * s.p 0 ^ 2 := by ring
      rw [h3, hsl]
      have : 0 ≤ c * (a ^ 2 * s.p 0 ^ 2) := by positivity
      nlinarith
    · simp only [exParabola, dotProduct, Fin.sum_univ_one, Pi.add_apply, Pi.smul_apply, smul_eq_mul]
      have h3 : (1 + c * (s.x 0 + a * s.p 0)) * s.p 0 = (1 + c * s.x 0) * s.p 0 + a * (c * s.p 0 ^ 2) := by
        ring
      rw [h3, hsl]
      simp
      positivity

/-- The minimum of a steeper parabola is found in one exact step. -/
example : (minimizeCg (exParabola 2) (fun g => |g 0|) (fun _ => 0) none).success = true ∧
    (minimizeCg (exParabola 2) (fun g => |g 0|) (fun _ => 0) none).nit = 1 := by decide +kernel

/-- **C125 (violation).**  The test for a direction that goes downhill is not given to the line search.  For a
parabola, a search that keeps its promise and fails only for directions that go uphill makes the minimizer stop
with a failure after one step, away from the minimum and with a gradient above the tolerance. -/
theorem C125_direction_violation : ∃ (P : Problem ℚ 1) (length : (Fin 1 → ℚ) → ℚ),
    GoodSearch P (1 / 10000) (2 / 5) ∧
    (∀ s, s.g = P.grad s.x → P.search s = none → 0 ≤ P.grad s.x ⬝ᵥ s.p) ∧
    let r := minimizeCg P length (fun _ => 0) none
    r.nit = 1 ∧ r.status = 2 ∧ P.gtol < P.norm r.jac ∧ ∃ y, P.f y < P.f r.x := by
  refine ⟨exParabola (7 / 5), fun g => |g 0|, exPick_good _ (by norm_num), ?_, ?_⟩
  · intro s _ hs
    simp only [exParabola, exPick] at hs
    split_ifs at hs with h1
    simpa [exParabola, dotProduct] using h1
  · refine ⟨by decide +kernel, by decide +kernel, by decide +kernel, fun _ => -5 / 7, by decide +kernel⟩

/-- **C125 (violation).**  A minimization that reaches the tolerance in the last iteration that is allowed is
reported as a failure. -/
theorem C125_status_violation : ∃ (P : Problem ℚ 1) (length : (Fin 1 → ℚ) → ℚ),
    GoodSearch P (1 / 10000) (2 / 5) ∧
    let r := minimizeCg P length (fun _ => 0) (some 1)
    P.norm r.jac ≤ P.gtol ∧ r.success = false := by
  refine ⟨exParabola 2, fun g => |g 0|, exPick_good _ (by norm_num), ?_⟩
  decide +kernel

end Verif.MinCg
