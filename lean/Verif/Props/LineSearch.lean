import Verif.Model.MinimizeCg
import Verif.Spec.MinimizeCg
import Mathlib.Tactic.FieldSimp
import Mathlib.Tactic.Linarith
import Mathlib.Tactic.Ring
import Mathlib.Tactic.NormNum
import Mathlib.Tactic.LinearCombination
import Mathlib.Tactic.Positivity
import Mathlib.Algebra.Order.Ring.Rat

/-!
# C125: line searches
-/

namespace Verif.MinCg
open Verif
variable {K : Type} [Field K] [LinearOrder K] [IsStrictOrderedRing K]

/-! ## Interpolations -/

/-- **C125.**  The quadratic interpolation returns the stationary point of the parabola with the given values
and slope; it is the minimum if the parabola opens upwards. -/
theorem C125_quadratic (a fa fpa b fb x : K) (h : quadMin a fa fpa b fb = some x) :
    ∃ B : K, B * (b - a) ^ 2 + fpa * (b - a) + fa = fb ∧ 2 * B * (x - a) + fpa = 0 ∧
      (0 < B → ∀ t, B * (x - a) ^ 2 + fpa * (x - a) + fa ≤ B * (t - a) ^ 2 + fpa * (t - a) + fa) := by
  unfold quadMin at h
  simp only at h
  split_ifs at h with h1 h2
  set B := (fb - fa - fpa * (b - a)) / ((b - a) * (b - a)) with hB
  have hx : x = a - fpa / (2 * B) := (Option.some.inj h).symm
  have hB0 : B ≠ 0 := fun h => h2 (by rw [h, mul_zero])
  have hs : 2 * B * (x - a) + fpa = 0 := by
    rw [hx]
    field_simp
    ring
  refine ⟨B, ?_, hs, fun hpos t => ?_⟩
  · have : B * ((b - a) * (b - a)) = fb - fa - fpa * (b - a) := by rw [hB, div_mul_cancel₀ _ h1]
    linear_combination this
  · have hf : fpa = -(2 * B * (x - a)) := by linear_combination hs
    have := mul_nonneg hpos.le (mul_self_nonneg (t - x))
    rw [hf]
    nlinarith

/-- **C125.**  The cubic interpolation returns a minimum of the cubic with the given values and slope. -/
theorem C125_cubic (sqrt : K → K) (hsqrt : ∀ r, 0 ≤ r → 0 ≤ sqrt r ∧ sqrt r * sqrt r = r)
    (a fa fpa b fb c fc x : K) (h : cubicMin sqrt a fa fpa b fb c fc = some x) :
    ∃ A B : K, A * (b - a) ^ 3 + B * (b - a) ^ 2 + fpa * (b - a) + fa = fb ∧
      A * (c - a) ^ 3 + B * (c - a) ^ 2 + fpa * (c - a) + fa = fc ∧
      3 * A * (x - a) ^ 2 + 2 * B * (x - a) + fpa = 0 ∧ 0 ≤ 6 * A * (x - a) + 2 * B := by
  unfold cubicMin at h
  simp only at h
  split_ifs at h with h1 h2 h3
  set u := fb - fa - fpa * (b - a) with hu
  set v := fc - fa - fpa * (c - a) with hv
  set D := ((b - a) * (c - a)) ^ 2 * ((b - a) - (c - a)) with hD
  set A := ((c - a) ^ 2 * u + -((b - a) ^ 2) * v) / D with hA
  set B := (-((c - a) ^ 3) * u + (b - a) ^ 3 * v) / D with hB
  set r := B * B - 3 * A * fpa with hr
  have hx : x = a + (-B + sqrt r) / (3 * A) := (Option.some.inj h).symm
  have hA0 : A ≠ 0 := fun h => h3 (by rw [h, mul_zero])
  have hAD : A * D = (c - a) ^ 2 * u + -((b - a) ^ 2) * v := by rw [hA, div_mul_cancel₀ _ h1]
  have hBD : B * D = -((c - a) ^ 3) * u + (b - a) ^ 3 * v := by rw [hB, div_mul_cancel₀ _ h1]
  obtain ⟨q0, q1⟩ := hsqrt r (not_lt.1 h2)
  have hs : 3 * A * (x - a) = -B + sqrt r := by
    rw [hx]
    field_simp
    ring
  refine ⟨A, B, ?_, ?_, ?_, ?_⟩
  · apply mul_right_cancel₀ h1
    have : (A * D) * (b - a) ^ 3 + (B * D) * (b - a) ^ 2 = u * D := by
      rw [hAD, hBD, hD]; ring
    rw [hu] at this
    linear_combination this
  · apply mul_right_cancel₀ h1
    have : (A * D) * (c - a) ^ 3 + (B * D) * (c - a) ^ 2 = v * D := by
      rw [hAD, hBD, hD]; ring
    rw [hv] at this
    linear_combination this
  · apply mul_left_cancel₀ h3
    have : 3 * A * (3 * A * (x - a) ^ 2 + 2 * B * (x - a) + fpa) =
        (3 * A * (x - a)) ^ 2 + 2 * B * (3 * A * (x - a)) + 3 * A * fpa := by ring
    rw [this, hs, mul_zero]
    rw [hr] at q1
    linear_combination q1
  · have : 6 * A * (x - a) + 2 * B = 2 * sqrt r := by linear_combination 2 * hs
    rw [this]
    linarith

/-- The parabola `t² - t` between 0 and 2. -/
example : quadMin (0 : ℚ) 0 (-1) 2 2 = some (1 / 2) := by decide +kernel

/-! ## The search for the strong Wolfe conditions -/

/-- A step that was accepted. -/
structure Accepted (S : Search K) (a ph d : K) : Prop where
  value : ph = S.phi a
  slope : d = S.derphi a
  wolfe : Spec.StrongWolfe S.phi S.derphi S.phi0 S.derphi0 S.c1 S.c2 a
  lower : S.phi a < S.phi0
  extra : S.extra a (S.phi a) = true

theorem slope_abs {S : Search K} (hd : S.derphi0 < 0) {d : K} (h : |d| ≤ -S.c2 * S.derphi0) :
    |d| ≤ S.c2 * |S.derphi0| := by
  rw [abs_of_neg hd]
  linarith

theorem zoomLoop_ok (S : Search K) (hd : S.derphi0 < 0) (n : ℕ) (first : Bool) (z : ZoomState K)
    (hz : z.phiLo ≤ S.phi0) {a ph d : K} (h : zoomLoop S n first z = some (a, ph, d)) : Accepted S a ph d := by
  induction n generalizing first z with
  | zero => simp [zoomLoop] at h
  | succ n ih =>
    unfold zoomLoop at h
    simp only at h
    generalize zoomTrial S first z = aj at h
    split_ifs at h with h1 h2 h3
    · refine ih _ _ ?_ h
      exact hz
    · push Not at h1
      simp only [Option.some.injEq, Prod.mk.injEq] at h
      obtain ⟨rfl, rfl, rfl⟩ := h
      exact ⟨rfl, rfl, ⟨h1.1, slope_abs hd h2.1⟩, lt_of_lt_of_le h1.2 hz, h2.2⟩
    · push Not at h1
      exact ih _ _ (h1.2.le.trans hz) h
    · push Not at h1
      exact ih _ _ (h1.2.le.trans hz) h

theorem ofZoom_ok (S : Search K) (hd : S.derphi0 < 0) {aLo aHi phiLo phiHi dLo : K} (hz : phiLo ≤ S.phi0)
    {a d : K} {ph : Option K} (h : ofZoom (zoom S aLo aHi phiLo phiHi dLo) = ⟨some a, ph, some d⟩) :
    ∃ v, ph = some v ∧ Accepted S a v d := by
  unfold ofZoom zoom at h
  cases hr : zoomLoop S 11 true ⟨aLo, aHi, phiLo, phiHi, dLo, 0, S.phi0⟩ with
  | none => rw [hr] at h; simp at h
  | some r =>
    rw [hr] at h
    obtain ⟨r1, r2, r3⟩ := r
    simp only [Option.map_some, Found.mk.injEq, Option.some.injEq] at h
    obtain ⟨rfl, rfl, rfl⟩ := h
    exact ⟨r2, rfl, zoomLoop_ok S hd 11 true _ hz hr⟩

theorem wolfe2Loop_ok (S : Search K) (hd : S.derphi0 < 0) (hc : 0 < S.c1) (amax : Option K)
    (hm : ∀ m, amax = some m → 0 < m) (n : ℕ) (first : Bool) (a0 a1 phiA0 phiA1 dA0 : K) (h0 : phiA0 ≤ S.phi0)
    (h1 : 0 ≤ a1) (hv : phiA1 = S.phi a1) {a d : K} {ph : Option K}
    (h : wolfe2Loop S amax n first a0 a1 phiA0 phiA1 dA0 = ⟨some a, ph, some d⟩) :
    ∃ v, ph = some v ∧ Accepted S a v d := by
  induction n generalizing first a0 a1 phiA0 phiA1 dA0 with
  | zero => simp [wolfe2Loop] at h
  | succ n ih =>
    unfold wolfe2Loop at h
    simp only at h
    split_ifs at h with k1 k2 k3 k4
    · simp at h
    · exact ofZoom_ok S hd h0 h
    · push Not at k1 k2
      have hpos : 0 < a1 := lt_of_le_of_ne h1 (Ne.symm k1.1)
      simp only [Found.mk.injEq, Option.some.injEq] at h
      obtain ⟨rfl, rfl, rfl⟩ := h
      refine ⟨_, rfl, hv, rfl, ⟨hv ▸ k2.1, slope_abs hd k3.1⟩, ?_, hv ▸ k3.2⟩
      have := mul_neg_of_pos_of_neg (mul_pos hc hpos) hd
      rw [← hv]
      linarith [k2.1]
    · push Not at k1 k2
      have := mul_nonpos_of_nonneg_of_nonpos (mul_nonneg hc.le h1) hd.le
      exact ofZoom_ok S hd (by linarith [k2.1]) h
    · push Not at k1 k2
      have := mul_nonpos_of_nonneg_of_nonpos (mul_nonneg hc.le h1) hd.le
      refine ih _ _ _ _ _ _ (by linarith [k2.1]) ?_ rfl h
      cases amax with
      | none => simp only; linarith
      | some m => simp only; exact le_min (by linarith) (hm m rfl).le

/-- The first trial step lies between zero and one. -/
theorem C125_first_step (phi0 : K) (old : Option K) (derphi0 : K) :
    0 ≤ firstStep phi0 old derphi0 ∧ firstStep phi0 old derphi0 ≤ 1 := by
  unfold firstStep
  cases old with
  | none => simp
  | some o =>
    simp only
    split_ifs with h1 h2
    · simp
    · exact ⟨not_lt.1 h2, min_le_left _ _⟩
    · simp
    · simp

/-- **C125.**  The first trial step: on the parabola with the slope at the start whose minimum `t` lies below the start
by as much as the last iteration lowered the function, it is one percent beyond the minimum, but at most one. -/
theorem C125_first_step_scale (phi0 derphi0 A t : K) (hd : derphi0 < 0) (ht : 0 ≤ t)
    (hmin : derphi0 + 2 * A * t = 0) (old : K) (ho : old - phi0 = phi0 - (phi0 + derphi0 * t + A * t ^ 2)) :
    firstStep phi0 (some old) derphi0 = min 1 (101 / 100 * t) := by
  have e : 101 / 100 * 2 * (phi0 - old) / derphi0 = 101 / 100 * t := by
    have h2 : phi0 - old = derphi0 * t / 2 := by linear_combination -ho + t / 2 * hmin
    rw [h2]
    field_simp [hd.ne]
  unfold firstStep
  simp only [if_pos hd.ne, ne_eq, hd.ne, not_false_eq_true, if_true, e]
  rw [if_neg (not_lt.2 (le_min zero_le_one (by positivity)))]

/-- The parabola `t² / 2 - t / 2` and a last decrease of one eighth. -/
example : firstStep (0 : ℚ) (some (1 / 8)) (-1 / 2) = 101 / 200 := by
  rw [C125_first_step_scale (0 : ℚ) (-1 / 2) (1 / 2) (1 / 2) (by norm_num) (by norm_num) (by norm_num) _ (by norm_num)]
  norm_num

/-- **C125.**  A search along a direction that goes downhill, if it reports a slope at its step, returns a step
with the value and the slope there, that meets the strong Wolfe conditions and the extra condition and has a
lower value than the start. -/
theorem C125_wolfe (S : Search K) (hd : S.derphi0 < 0) (old amax : Option K)
    (hm : ∀ m, amax = some m → 0 < m) (maxiter : ℕ) (a d : K) (ph : Option K)
    (h : wolfe2 S old amax maxiter = some ⟨some a, ph, some d⟩) :
    ph = some (S.phi a) ∧ d = S.derphi a ∧
      Spec.StrongWolfe S.phi S.derphi S.phi0 S.derphi0 S.c1 S.c2 a ∧ S.phi a < S.phi0 ∧
      S.extra a (S.phi a) = true := by
  unfold wolfe2 at h
  split_ifs at h with hc
  have h := Option.some.inj h
  have h1 := (C125_first_step S.phi0 old S.derphi0).1
  obtain ⟨v, hv, hA⟩ := wolfe2Loop_ok S hd hc.1 amax hm maxiter true 0 _ S.phi0 _ S.derphi0 le_rfl (by
    cases amax with
    | none => exact h1
    | some m => exact le_min h1 (hm m rfl).le) rfl h
  exact ⟨by rw [hv, hA.value], hA.slope, hA.wolfe, hA.lower, hA.extra⟩

theorem zoomLoop_up (S : Search K) (hc : 0 < S.c2) (hd : 0 < S.derphi0) (n : ℕ) (first : Bool) (z : ZoomState K) :
    zoomLoop S n first z = none := by
  induction n generalizing first z with
  | zero => rfl
  | succ n ih =>
    unfold zoomLoop
    simp only
    split_ifs with h1 h2 h3
    · exact ih _ _
    · exfalso
      have := mul_pos hc hd
      have h4 := abs_nonneg (S.derphi (zoomTrial S first z))
      linarith [h2.1]
    · exact ih _ _
    · exact ih _ _

/-- **C125.**  A search along a direction that goes uphill never reports a slope. -/
theorem C125_wolfe_uphill (S : Search K) (hd : 0 < S.derphi0) (old amax : Option K) (maxiter : ℕ) (r : Found K)
    (h : wolfe2 S old amax maxiter = some r) : r.derphi = none := by
  unfold wolfe2 at h
  split_ifs at h with hc
  have h := Option.some.inj h
  rw [← h]
  have hc2 : 0 < S.c2 := hc.1.trans hc.2.1
  have key : ∀ n first a0 a1 p0 p1 d0, (wolfe2Loop S amax n first a0 a1 p0 p1 d0).derphi = none := by
    intro n
    induction n with
    | zero => intros; rfl
    | succ n ih =>
      intro first a0 a1 p0 p1 d0
      unfold wolfe2Loop
      simp only
      split_ifs with k1 k2 k3 k4
      · rfl
      · unfold zoom; rw [zoomLoop_up S hc2 hd]; rfl
      · exfalso
        have := mul_pos hc2 hd
        have h4 := abs_nonneg (S.derphi a1)
        linarith [k3.1]
      · unfold zoom; rw [zoomLoop_up S hc2 hd]; rfl
      · exact ih _ _ _ _ _ _
  exact key _ _ _ _ _ _ _

/-- `t² - t` from zero: the first step is too long, the interpolation gives the minimum. -/
def exSearch : Search ℚ := ⟨fun t => t ^ 2 - t, fun t => 2 * t - 1, 0, -1, 1 / 10000, 9 / 10, fun _ _ => true, id⟩

example : exSearch.derphi0 < 0 ∧ wolfe2 exSearch none none 10 = some ⟨some (1 / 2), some (-1 / 4), some 0⟩ := by
  decide +kernel

/-- A function that falls up to 512 and is positive at 1024. -/
def exLong : Search ℚ := ⟨fun t => if t ≤ 512 then -t else 1, fun _ => -1, 0, -1, 1 / 10000, 9 / 10,
  fun _ _ => true, id⟩

/-- **C125 (violation).**  The documentation says that the step is `None` if the search does not converge.  After
the last pass the next trial step is returned instead, although its value may be higher than the value at the
start. -/
theorem C125_wolfe_violation : ∃ (S : Search ℚ) (a v : ℚ), S.derphi0 < 0 ∧
    wolfe2 S none none 10 = some ⟨some a, some v, none⟩ ∧ v = S.phi a ∧ S.phi0 < v :=
  ⟨exLong, 1024, 1, by decide +kernel⟩

/-! ## Backtracking -/

/-- **C125.**  A step of the backtracking search comes with its value and decreases the function enough. -/
theorem C125_armijo (phi sqrt : K → K) (phi0 derphi0 c1 alpha0 amin : K) (n : ℕ) (a v : K)
    (h : armijo phi sqrt phi0 derphi0 c1 alpha0 amin n = some (some a, v)) :
    v = phi a ∧ phi a ≤ phi0 + c1 * a * derphi0 := by
  have loop : ∀ n a0 a1 p0 p1, armijoLoop phi sqrt phi0 derphi0 c1 amin n a0 a1 p0 p1 = some (some a, v) →
      v = phi a ∧ phi a ≤ phi0 + c1 * a * derphi0 := by
    intro n
    induction n with
    | zero => intro a0 a1 p0 p1 h; simp [armijoLoop] at h
    | succ n ih =>
      intro a0 a1 p0 p1 h
      unfold armijoLoop at h
      simp only at h
      by_cases k1 : a1 > amin
      · rw [if_pos k1] at h
        split_ifs at h with k2 k3
        · simp only [Option.some.injEq, Prod.mk.injEq] at h
          obtain ⟨rfl, rfl⟩ := h
          exact ⟨rfl, k2⟩
        · exact ih _ _ _ _ h
        · exact ih _ _ _ _ h
      · rw [if_neg k1] at h
        simp at h
  unfold armijo at h
  simp only at h
  split_ifs at h with k1 k2
  · simp only [Option.some.injEq, Prod.mk.injEq] at h
    obtain ⟨rfl, rfl⟩ := h
    exact ⟨rfl, k1⟩
  · simp only [Option.some.injEq, Prod.mk.injEq] at h
    obtain ⟨rfl, rfl⟩ := h
    exact ⟨rfl, k2⟩
  · exact loop _ _ _ _ _ h

example : armijo (fun t : ℚ => t ^ 2 - t) id 0 (-1) (1 / 10000) 1 0 5 = some (some (1 / 2), -1 / 4) := by
  decide +kernel

/-! ## Searches that are not monotone -/

section Nonmonotone
variable {V W : Type} [AddCommGroup V] [Module K V]

theorem nonmonotone_ok (f : V → K × W) (x d : V) (lim fk gamma tmin tmax : K) (h0 : 0 < tmin) (h1 : tmin ≤ tmax)
    (h2 : tmax ≤ 1) (n : ℕ) (ap am : K) (hp : 0 < ap ∧ ap ≤ 1) (hm : 0 < am ∧ am ≤ 1) (a : K) (y : V) (v : K)
    (w : W) (h : nonmonotone f x d lim fk gamma tmin tmax n ap am = some (a, y, v, w)) :
    y = x + a • d ∧ f y = (v, w) ∧ v ≤ lim - gamma * a ^ 2 * fk ∧ a ≠ 0 ∧ |a| ≤ 1 := by
  have clip : ∀ t b : K, 0 < b → b ≤ 1 → 0 < min (max t (tmin * b)) (tmax * b) ∧
      min (max t (tmin * b)) (tmax * b) ≤ 1 := by
    intro t b hb hb1
    have htm : 0 < tmax := h0.trans_le h1
    refine ⟨lt_min (lt_max_of_lt_right (mul_pos h0 hb)) (mul_pos htm hb), (min_le_right _ _).trans ?_⟩
    exact mul_le_one₀ h2 hb.le hb1
  induction n generalizing ap am with
  | zero => simp [nonmonotone] at h
  | succ n ih =>
    unfold nonmonotone at h
    simp only at h
    split_ifs at h with k1 k2
    · simp only [Option.some.injEq, Prod.mk.injEq] at h
      obtain ⟨rfl, rfl, rfl, rfl⟩ := h
      exact ⟨rfl, rfl, k1, hp.1.ne', by rw [abs_of_pos hp.1]; exact hp.2⟩
    · simp only [Option.some.injEq, Prod.mk.injEq] at h
      obtain ⟨rfl, rfl, rfl, rfl⟩ := h
      refine ⟨by rw [neg_smul, sub_eq_add_neg], rfl, by rw [neg_sq]; exact k2, neg_ne_zero.2 hm.1.ne', ?_⟩
      rw [abs_neg, abs_of_pos hm.1]
      exact hm.2
    · exact ih _ _ (clip _ _ hp.1 hp.2) (clip _ _ hm.1 hm.2) h

/-- **C125.**  The search of La Cruz and others returns a nonzero step of at most the full length with the point,
its value and its residual; the value is at most the largest of the previous values plus the allowed increase
minus the required decrease. -/
theorem C125_cruz (f : V → K × W) (x d : V) (prev : List K) (hprev : prev ≠ []) (eta gamma tmin tmax : K)
    (h0 : 0 < tmin) (h1 : tmin ≤ tmax) (h2 : tmax ≤ 1) (n : ℕ) (a : K) (y : V) (v : K) (w : W)
    (h : cruz f x d prev eta gamma tmin tmax n = some (a, y, v, w)) :
    y = x + a • d ∧ f y = (v, w) ∧ a ≠ 0 ∧ |a| ≤ 1 ∧
      ∃ m ∈ prev, (∀ u ∈ prev, u ≤ m) ∧ v ≤ m + eta - gamma * a ^ 2 * prev.getLast hprev := by
  obtain ⟨e1, e2, e3, e4, e5⟩ := nonmonotone_ok f x d _ _ gamma tmin tmax h0 h1 h2 n 1 1
    ⟨zero_lt_one, le_rfl⟩ ⟨zero_lt_one, le_rfl⟩ a y v w h
  have key : ∀ (l : List K) (b : K), (l.foldl max b = b ∨ l.foldl max b ∈ l) ∧ b ≤ l.foldl max b ∧
      ∀ u ∈ l, u ≤ l.foldl max b := by
    intro l
    induction l with
    | nil => intro b; simp
    | cons c l ih =>
      intro b
      obtain ⟨i1, i2, i3⟩ := ih (max b c)
      rw [List.foldl_cons]
      refine ⟨?_, (le_max_left _ _).trans i2, ?_⟩
      · rcases i1 with i1 | i1
        · rcases max_choice b c with m | m
          · left; rw [i1, m]
          · right; rw [i1, m]; simp
        · right; exact List.mem_cons_of_mem _ i1
      · intro u hu
        rcases List.mem_cons.1 hu with rfl | hu
        · exact (le_max_right _ _).trans i2
        · exact i3 u hu
  obtain ⟨c, l, rfl⟩ := List.exists_cons_of_ne_nil hprev
  obtain ⟨i1, i2, i3⟩ := key (c :: l) c
  refine ⟨e1, e2, e4, e5, _, ?_, i3, ?_⟩
  · rcases i1 with i1 | i1
    · rw [i1]; simp
    · exact i1
  · rw [List.getLastD_eq_getLast?, List.getLast?_eq_getLast_of_ne_nil hprev] at e3
    exact e3

/-- **C125.**  The search of Cheng and Li; the new control value is an average that is not below the value of the
new point. -/
theorem C125_cheng (f : V → K × W) (x d : V) (fk C Q eta gamma tmin tmax nu : K)
    (h0 : 0 < tmin) (h1 : tmin ≤ tmax) (h2 : tmax ≤ 1) (hQ : 0 < Q) (hnu : 0 ≤ nu) (hf : 0 ≤ fk) (hg : 0 ≤ gamma)
    (n : ℕ) (a : K) (y : V) (v : K) (w : W) (C' Q' : K)
    (h : cheng f x d fk C Q eta gamma tmin tmax nu n = some ((a, y, v, w), C', Q')) :
    y = x + a • d ∧ f y = (v, w) ∧ a ≠ 0 ∧ |a| ≤ 1 ∧ v ≤ C + eta - gamma * a ^ 2 * fk ∧
      v ≤ C' ∧ C' ≤ C + eta ∧ 0 < Q' := by
  unfold cheng at h
  rw [Option.map_eq_some_iff] at h
  obtain ⟨r, hr, he⟩ := h
  simp only [Prod.mk.injEq] at he
  obtain ⟨rfl, rfl, rfl⟩ := he
  obtain ⟨e1, e2, e3, e4, e5⟩ := nonmonotone_ok f x d _ _ gamma tmin tmax h0 h1 h2 n 1 1
    ⟨zero_lt_one, le_rfl⟩ ⟨zero_lt_one, le_rfl⟩ a y v w hr
  have hnq := mul_nonneg hnu hQ.le
  have hpos : 0 < nu * Q + 1 := by linarith
  have hv : v ≤ C + eta := by
    have := mul_nonneg (mul_nonneg hg (sq_nonneg a)) hf
    linarith
  refine ⟨e1, e2, e4, e5, e3, ?_, ?_, hpos⟩
  · rw [le_div_iff₀ hpos]
    nlinarith [mul_le_mul_of_nonneg_left hv hnq]
  · rw [div_le_iff₀ hpos]
    nlinarith

end Nonmonotone

example : cruz (fun t : ℚ => (t ^ 2, t)) 2 (-1) [5, 4] 0 (1 / 10000) (1 / 10) (1 / 2) 5 = some (1, 1, 1, 1) := by
  decide +kernel

example : cheng (fun t : ℚ => (t ^ 2, t)) 2 (-1) 4 4 1 0 (1 / 10000) (1 / 10) (1 / 2) (17 / 20) 5 =
    some ((1, 1, 1, 1), 88 / 37, 37 / 20) := by
  decide +kernel

end Verif.MinCg
