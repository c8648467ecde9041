import Verif.Spec.Eos
import Mathlib.Analysis.Calculus.MeanValue
import Mathlib.Analysis.Convex.Deriv
import Mathlib.Analysis.SpecialFunctions.Exp
import Mathlib.Analysis.Complex.Exponential
import Mathlib.Analysis.SpecialFunctions.Pow.Deriv

/-!
# Energy-volume curves (C76)
-/

namespace Verif.Eos
open Verif.Spec

theorem mem_arange {a b s x : ℝ} (hs : 0 < s) : x ∈ arange a b s ↔ ∃ k : ℕ, x = a + k * s ∧ x < b := by
  unfold arange
  simp only [List.mem_map, List.mem_range]
  constructor
  · rintro ⟨k, hk, rfl⟩
    refine ⟨k, rfl, ?_⟩
    have := Nat.lt_ceil.1 hk
    rw [lt_div_iff₀ hs] at this
    linarith
  · rintro ⟨k, rfl, hk⟩
    refine ⟨k, Nat.lt_ceil.2 ?_, rfl⟩
    rw [lt_div_iff₀ hs]
    linarith

theorem sorted_arange {a b s : ℝ} (hs : 0 < s) : (arange a b s).Pairwise (· < ·) := by
  unfold arange
  rw [List.pairwise_map]
  refine List.pairwise_lt_range.imp ?_
  intro i j hij
  have : (i : ℝ) < j := by exact_mod_cast hij
  nlinarith

theorem dense_arange {a b s : ℝ} (hs : 0 < s) {t : ℝ} (h1 : a ≤ t) (h2 : t < b) :
    ∃ x ∈ arange a b s, x ≤ t ∧ t - x < s := by
  have h0 : 0 ≤ (t - a) / s := div_nonneg (by linarith) hs.le
  have hle := Nat.floor_le h0
  have hlt := Nat.lt_floor_add_one ((t - a) / s)
  rw [le_div_iff₀ hs] at hle
  rw [div_lt_iff₀ hs] at hlt
  refine ⟨a + (⌊(t - a) / s⌋₊ : ℝ) * s, (mem_arange hs).2 ⟨_, rfl, by linarith⟩, by linarith, by linarith⟩

theorem ge_arange {a b s x : ℝ} (hs : 0 < s) (h : x ∈ arange a b s) : a ≤ x ∧ x < b := by
  obtain ⟨k, rfl, hb⟩ := (mem_arange hs).1 h
  refine ⟨?_, hb⟩
  have : 0 ≤ (k : ℝ) * s := by positivity
  linarith

theorem sorted_append {xs ys : List ℝ} {c : ℝ} (hx : xs.Pairwise (· < ·)) (hy : ys.Pairwise (· < ·))
    (h1 : ∀ x ∈ xs, x < c) (h2 : ∀ y ∈ ys, c ≤ y) : (xs ++ ys).Pairwise (· < ·) :=
  List.pairwise_append.2 ⟨hx, hy, fun x hx' y hy' => lt_of_lt_of_le (h1 x hx') (h2 y hy')⟩

/-- **C76**: the volume ratios of the default, fine grid ascend, start at the lower bound, stay below the upper bound,
and leave no hole of the size of the interval; between 0.9 and 1.1, no hole of a third of it. -/
theorem C76_fine_grid {lo hi step : ℝ} (hs : 0 < step) (h : lo < hi) (h9 : 9 / 10 ≤ hi) (h11 : lo ≤ 11 / 10) :
    (setEps lo hi step true).Pairwise (· < ·) ∧ (∀ x ∈ setEps lo hi step true, lo ≤ x ∧ x < hi) ∧
      lo ∈ setEps lo hi step true ∧
      Dense (setEps lo hi step true) lo hi step (fun _ => True) ∧
      Dense (setEps lo hi step true) lo hi (step / 3) (fun t => 9 / 10 ≤ t ∧ t ≤ 11 / 10) := by
  have h3 : 0 < step / 3 := by linarith
  have key : (setEps lo hi step true).Pairwise (· < ·) ∧ (∀ x ∈ setEps lo hi step true, lo ≤ x ∧ x < hi) ∧
      Dense (setEps lo hi step true) lo hi step (fun _ => True) ∧
      Dense (setEps lo hi step true) lo hi (step / 3) (fun t => 9 / 10 ≤ t ∧ t ≤ 11 / 10) := by
    unfold setEps
    rw [if_neg (by simp)]
    by_cases c1 : lo < 9 / 10 ∧ hi > 11 / 10
    · rw [if_pos c1]
      refine ⟨?_, ?_, ?_, ?_⟩
      · refine sorted_append (c := 11 / 10) (sorted_append (c := 9 / 10) (sorted_arange hs) (sorted_arange h3) ?_ ?_)
          (sorted_arange hs) ?_ ?_
        · exact fun x hx => (ge_arange hs hx).2
        · exact fun x hx => (ge_arange h3 hx).1
        · intro x hx
          rcases List.mem_append.1 hx with hx | hx
          · have := (ge_arange hs hx).2
            linarith
          · exact (ge_arange h3 hx).2
        · exact fun x hx => (ge_arange hs hx).1
      · intro x hx
        rcases List.mem_append.1 hx with hx | hx
        · rcases List.mem_append.1 hx with hx | hx
          · have := ge_arange hs hx
            exact ⟨this.1, by linarith [this.2, c1.2]⟩
          · have := ge_arange h3 hx
            exact ⟨by linarith [this.1, c1.1], by linarith [this.2, c1.2]⟩
        · have := ge_arange hs hx
          exact ⟨by linarith [this.1, c1.1], this.2⟩
      · intro t ht1 ht2 _
        by_cases a1 : t < 9 / 10
        · obtain ⟨x, hx, h⟩ := dense_arange hs ht1 a1
          exact ⟨x, by simp [hx], h⟩
        · by_cases a2 : t < 11 / 10
          · obtain ⟨x, hx, h⟩ := dense_arange h3 (not_lt.1 a1) a2
            exact ⟨x, by simp [hx], h.1, by linarith [h.2]⟩
          · obtain ⟨x, hx, h⟩ := dense_arange hs (not_lt.1 a2) ht2
            exact ⟨x, by simp [hx], h⟩
      · intro t ht1 ht2 hP
        by_cases a2 : t < 11 / 10
        · obtain ⟨x, hx, h⟩ := dense_arange h3 hP.1 a2
          exact ⟨x, by simp [hx], h⟩
        · have : t = 11 / 10 := le_antisymm hP.2 (not_lt.1 a2)
          subst this
          refine ⟨11 / 10, ?_, le_refl _, by linarith⟩
          exact List.mem_append_right _ ((mem_arange hs).2 ⟨0, by simp, c1.2⟩)
    · rw [if_neg c1]
      by_cases c2 : lo < 9 / 10 ∧ hi < 11 / 10
      · rw [if_pos c2]
        refine ⟨?_, ?_, ?_, ?_⟩
        · exact sorted_append (c := 9 / 10) (sorted_arange hs) (sorted_arange h3)
            (fun x hx => (ge_arange hs hx).2) (fun x hx => (ge_arange h3 hx).1)
        · intro x hx
          rcases List.mem_append.1 hx with hx | hx
          · have := ge_arange hs hx
            exact ⟨this.1, by linarith [this.2]⟩
          · have := ge_arange h3 hx
            exact ⟨by linarith [this.1, c2.1], this.2⟩
        · intro t ht1 ht2 _
          by_cases a1 : t < 9 / 10
          · obtain ⟨x, hx, h⟩ := dense_arange hs ht1 a1
            exact ⟨x, by simp [hx], h⟩
          · obtain ⟨x, hx, h⟩ := dense_arange h3 (not_lt.1 a1) ht2
            exact ⟨x, by simp [hx], h.1, by linarith [h.2]⟩
        · intro t ht1 ht2 hP
          obtain ⟨x, hx, h⟩ := dense_arange h3 hP.1 ht2
          exact ⟨x, by simp [hx], h⟩
      · rw [if_neg c2]
        by_cases c3 : lo > 9 / 10 ∧ hi > 11 / 10
        · rw [if_pos c3]
          refine ⟨?_, ?_, ?_, ?_⟩
          · exact sorted_append (c := 11 / 10) (sorted_arange h3) (sorted_arange hs)
              (fun x hx => (ge_arange h3 hx).2) (fun x hx => (ge_arange hs hx).1)
          · intro x hx
            rcases List.mem_append.1 hx with hx | hx
            · have := ge_arange h3 hx
              exact ⟨this.1, by linarith [this.2, c3.2]⟩
            · have := ge_arange hs hx
              exact ⟨by linarith [this.1], this.2⟩
          · intro t ht1 ht2 _
            by_cases a2 : t < 11 / 10
            · obtain ⟨x, hx, h⟩ := dense_arange h3 ht1 a2
              exact ⟨x, by simp [hx], h.1, by linarith [h.2]⟩
            · obtain ⟨x, hx, h⟩ := dense_arange hs (not_lt.1 a2) ht2
              exact ⟨x, by simp [hx], h⟩
          · intro t ht1 ht2 hP
            by_cases a2 : t < 11 / 10
            · obtain ⟨x, hx, h⟩ := dense_arange h3 ht1 a2
              exact ⟨x, by simp [hx], h⟩
            · have : t = 11 / 10 := le_antisymm hP.2 (not_lt.1 a2)
              subst this
              exact ⟨11 / 10, List.mem_append_right _ ((mem_arange hs).2 ⟨0, by simp, c3.2⟩), le_refl _, by linarith⟩
        · rw [if_neg c3]
          refine ⟨sorted_arange h3, fun x hx => ge_arange h3 hx, ?_, ?_⟩
          · intro t ht1 ht2 _
            obtain ⟨x, hx, h⟩ := dense_arange h3 ht1 ht2
            exact ⟨x, hx, h.1, by linarith [h.2]⟩
          · intro t ht1 ht2 _
            exact dense_arange h3 ht1 ht2
  refine ⟨key.1, key.2.1, ?_, key.2.2⟩
  obtain ⟨x, hx, hle, _⟩ := key.2.2.1 lo (le_refl _) h trivial
  have := (key.2.1 x hx).1
  rwa [le_antisymm hle this] at hx

/-- The default arguments fulfil the conditions. -/
example : (0 : ℝ) < 3 / 100 ∧ (7 / 10 : ℝ) < 2 ∧ (9 / 10 : ℝ) ≤ 2 ∧ (7 / 10 : ℝ) ≤ 11 / 10 := by norm_num

/-- **C76**: without the fine grid the volume ratios are the points `lo + k step` below `hi + 0.01`. -/
theorem C76_coarse_grid {lo hi step : ℝ} (hs : 0 < step) :
    (setEps lo hi step false).Pairwise (· < ·) ∧
      ∀ x, x ∈ setEps lo hi step false ↔ ∃ k : ℕ, x = lo + k * step ∧ x < hi + 1 / 100 := by
  unfold setEps
  rw [if_pos rfl]
  exact ⟨sorted_arange hs, fun x => mem_arange hs⟩

/-- For compressed structures only (upper bound below 0.9) the ratios exceed the upper bound. -/
theorem C76_fine_grid_high_violation : ∃ x ∈ setEps (7 / 10) (8 / 10) (3 / 100) true, (8 / 10 : ℝ) < x := by
  refine ⟨88 / 100, ?_, by norm_num⟩
  unfold setEps
  rw [if_neg (by simp), if_neg (by norm_num), if_pos (by norm_num)]
  refine List.mem_append_left _ ((mem_arange (by norm_num)).2 ⟨6, by norm_num, by norm_num⟩)

/-- For expanded structures only (lower bound above 1.1) the ratios start below the lower bound. -/
theorem C76_fine_grid_low_violation : ∃ x ∈ setEps (12 / 10) (15 / 10) (3 / 100) true, x < (12 / 10 : ℝ) := by
  refine ⟨11 / 10, ?_, by norm_num⟩
  unfold setEps
  rw [if_neg (by simp), if_neg (by norm_num), if_neg (by norm_num), if_pos (by norm_num)]
  refine List.mem_append_right _ ((mem_arange (by norm_num)).2 ⟨0, by norm_num, by norm_num⟩)

/-- Without the fine grid the ratios may exceed the upper bound, too. -/
theorem C76_coarse_grid_violation : ∃ x ∈ setEps (9 / 10) (11 / 10) (1 / 200) false, (11 / 10 : ℝ) < x := by
  refine ⟨1105 / 1000, ?_, by norm_num⟩
  unfold setEps
  rw [if_pos rfl]
  exact (mem_arange (by norm_num)).2 ⟨41, by norm_num, by norm_num⟩

/-! ## Changes of the volume -/

theorem det_scale (c : ℝ) (a : M3 ℝ) : (scale c a).det = c ^ 3 * a.det := by
  simp only [scale, M3.det]
  ring

/-- **C76**: changing the volume multiplies every component of the lattice vectors by the same positive number, leaves
the fractional positions and the atoms, multiplies the recorded volume by the ratio, and the volume of the new cell is
the recorded one up to a relative error of `2e-13 |log ratio|`. -/
theorem C76_volume_change (c : Cell) {eps : ℝ} (he : 0 < eps) (hl : |Real.log eps| ≤ 10 ^ 13) :
    (∃ r : ℝ, 0 < r ∧ ∀ (v w : ℝ), (v, w) ∈ [
        ((volumeChange c eps).st.axis.r0.x, c.st.axis.r0.x), ((volumeChange c eps).st.axis.r0.y, c.st.axis.r0.y),
        ((volumeChange c eps).st.axis.r0.z, c.st.axis.r0.z), ((volumeChange c eps).st.axis.r1.x, c.st.axis.r1.x),
        ((volumeChange c eps).st.axis.r1.y, c.st.axis.r1.y), ((volumeChange c eps).st.axis.r1.z, c.st.axis.r1.z),
        ((volumeChange c eps).st.axis.r2.x, c.st.axis.r2.x), ((volumeChange c eps).st.axis.r2.y, c.st.axis.r2.y),
        ((volumeChange c eps).st.axis.r2.z, c.st.axis.r2.z)] → v = r * w) ∧
      (volumeChange c eps).st.positions = c.st.positions ∧ (volumeChange c eps).st.types = c.st.types ∧
      (volumeChange c eps).st.elements = c.st.elements ∧ (volumeChange c eps).st.nAtoms = c.st.nAtoms ∧
      (volumeChange c eps).st.volume = eps * c.st.volume ∧
      |(volumeChange c eps).st.axis.det - eps * c.st.axis.det| ≤
        2 / 10 ^ 13 * |Real.log eps| * (eps * |c.st.axis.det|) := by
  refine ⟨⟨eps ^ (3333333333333 / 10 ^ 13 : ℝ), Real.rpow_pos_of_pos he _, ?_⟩, rfl, rfl, rfl, rfl, mul_comm _ _, ?_⟩
  · intro v w h
    simp only [List.mem_cons, Prod.mk.injEq, List.not_mem_nil, or_false] at h
    rcases h with ⟨rfl, rfl⟩ | ⟨rfl, rfl⟩ | ⟨rfl, rfl⟩ | ⟨rfl, rfl⟩ | ⟨rfl, rfl⟩ | ⟨rfl, rfl⟩ | ⟨rfl, rfl⟩ | ⟨rfl, rfl⟩ |
      ⟨rfl, rfl⟩ <;> rfl
  · have hax : (volumeChange c eps).st.axis = scale (eps ^ (3333333333333 / 10 ^ 13 : ℝ)) c.st.axis := rfl
    rw [hax, det_scale]
    have hp : (eps ^ (3333333333333 / 10 ^ 13 : ℝ)) ^ 3 = eps * Real.exp (-(Real.log eps / 10 ^ 13)) := by
      rw [← Real.rpow_natCast, ← Real.rpow_mul he.le, Real.rpow_def_of_pos he]
      nth_rewrite 2 [← Real.exp_log he]
      rw [← Real.exp_add]
      congr 1
      push_cast
      ring
    rw [hp]
    have hx : |-(Real.log eps / 10 ^ 13)| ≤ 1 := by
      rw [abs_neg, abs_div, abs_of_pos (by positivity : (0 : ℝ) < 10 ^ 13), div_le_one (by positivity)]
      exact hl
    have hb := Real.abs_exp_sub_one_le hx
    have e : eps * Real.exp (-(Real.log eps / 10 ^ 13)) * c.st.axis.det - eps * c.st.axis.det =
        (Real.exp (-(Real.log eps / 10 ^ 13)) - 1) * (eps * c.st.axis.det) := by ring
    rw [e, abs_mul, abs_mul, abs_of_pos he]
    refine mul_le_mul_of_nonneg_right (hb.trans (le_of_eq ?_)) (by positivity)
    rw [abs_neg, abs_div, abs_of_pos (by positivity : (0 : ℝ) < 10 ^ 13)]
    ring

example : (0 : ℝ) < 2 ∧ |Real.log 2| ≤ 10 ^ 13 := by
  refine ⟨by norm_num, ?_⟩
  rw [abs_of_pos (Real.log_pos (by norm_num))]
  have := Real.log_le_sub_one_of_pos (show (0 : ℝ) < 2 by norm_num)
  linarith

/-- The optional cartesian positions are those of the old cell. -/
theorem C76_cartesian_violation : ∃ c : Cell,
    c.cartesian = some [⟨c.st.axis.r0.x, c.st.axis.r1.x, c.st.axis.r2.x⟩] ∧ c.st.positions = [⟨1, 0, 0⟩] ∧
      ∀ eps : ℝ, 1 < eps →
        (volumeChange c eps).cartesian ≠ some [⟨(volumeChange c eps).st.axis.r0.x,
          (volumeChange c eps).st.axis.r1.x, (volumeChange c eps).st.axis.r2.x⟩] := by
  refine ⟨⟨⟨⟨⟨1, 0, 0⟩, ⟨0, 1, 0⟩, ⟨0, 0, 1⟩⟩, [⟨1, 0, 0⟩], [1], ["Al"], [0], 1, none⟩, some [⟨1, 0, 0⟩]⟩, rfl, rfl, ?_⟩
  intro eps he h
  have h' : (1 : ℝ) = eps ^ (3333333333333 / 10 ^ 13 : ℝ) * 1 := by
    have := List.cons.inj (Option.some.inj h)
    exact congrArg V3.x this.1
  have := Real.one_lt_rpow he (show (0 : ℝ) < 3333333333333 / 10 ^ 13 by norm_num)
  linarith

/-! ## Runs -/

variable (energy : Cell → ℝ) (fit : List (ℝ × ℝ) → Option Fit) (c : Cell)

theorem run_data (s : State) (a : Args) :
    (run energy fit c s a).data =
      (setEps a.lo a.hi a.step a.fine).map fun e => (c.st.volume * e, energy (volumeChange c e)) := by
  have h : ((setEps a.lo a.hi a.step a.fine).map (volumeChange c)).map (fun c' => (c'.st.volume, energy c')) =
      (setEps a.lo a.hi a.step a.fine).map fun e => (c.st.volume * e, energy (volumeChange c e)) := by
    rw [List.map_map]
    rfl
  unfold run
  dsimp only
  rw [h]
  split_ifs
  · split <;> rfl
  · rfl

/-- **C76**: after any history of runs, the data are those of the last run: one row per ratio with the volume and the
energy of the unit cell of that ratio, in the order of the ratios; earlier runs leave no trace in the data. -/
theorem C76_data (as : List Args) (a : Args) :
    ((as ++ [a]).foldl (run energy fit c) .init).data =
      (setEps a.lo a.hi a.step a.fine).map fun e => (c.st.volume * e, energy (volumeChange c e)) := by
  rw [List.foldl_append]
  exact run_data energy fit c _ a

/-- **C76**: the rows of the data are ordered by volume, for a cell with a positive volume. -/
theorem C76_data_sorted (hv : 0 < c.st.volume) (as : List Args) (a : Args) (hs : 0 < a.step)
    (hg : a.fine = true → a.lo < a.hi ∧ 9 / 10 ≤ a.hi ∧ a.lo ≤ 11 / 10) :
    (((as ++ [a]).foldl (run energy fit c) .init).data.map Prod.fst).Pairwise (· < ·) := by
  rw [C76_data, List.map_map, List.pairwise_map]
  have hp : (setEps a.lo a.hi a.step a.fine).Pairwise (· < ·) := by
    cases hf : a.fine
    · exact (C76_coarse_grid hs).1
    · obtain ⟨h1, h2, h3⟩ := hg hf
      exact (C76_fine_grid hs h1 h2 h3).1
  refine hp.imp ?_
  intro x y hxy
  exact mul_lt_mul_of_pos_left hxy hv

/-- What a run asks for: the result of the fit, if a fit was requested. -/
noncomputable def fitOf (a : Args) : Option Fit :=
  if a.eosFit then
    fit ((setEps a.lo a.hi a.step a.fine).map fun e => (c.st.volume * e, energy (volumeChange c e)))
  else none

theorem run_eq (s : State) (a : Args) :
    (run energy fit c s a).eq =
      match fitOf energy fit c a with
      | some f => some (f.b0, f.e0, f.v0)
      | none => s.eq := by
  have h : ((setEps a.lo a.hi a.step a.fine).map (volumeChange c)).map (fun c' => (c'.st.volume, energy c')) =
      (setEps a.lo a.hi a.step a.fine).map fun e => (c.st.volume * e, energy (volumeChange c e)) := by
    rw [List.map_map]
    rfl
  unfold run fitOf
  dsimp only
  rw [h]
  by_cases hf : a.eosFit = true
  · rw [if_pos hf, if_pos hf]
    cases fit ((setEps a.lo a.hi a.step a.fine).map fun e => (c.st.volume * e, energy (volumeChange c e))) <;> rfl
  · rw [if_neg hf, if_neg hf]

/-- **C76**: after any history of runs, the equilibrium volume, energy and bulk modulus are those of the last run for
which a fit was requested and succeeded. -/
theorem C76_equilibrium (as : List Args) :
    (as.foldl (run energy fit c) .init).eq = lastFit (as.map fun a =>
      if a.eosFit then
        fit ((setEps a.lo a.hi a.step a.fine).map fun e => (c.st.volume * e, energy (volumeChange c e)))
      else none) := by
  induction as using List.reverseRecOn with
  | nil => rfl
  | append_singleton as a ih =>
    rw [List.foldl_append, List.foldl_cons, List.foldl_nil, run_eq, List.map_append, List.map_singleton]
    have hd : (if a.eosFit then
        fit ((setEps a.lo a.hi a.step a.fine).map fun e => (c.st.volume * e, energy (volumeChange c e)))
      else none) = fitOf energy fit c a := rfl
    rw [hd]
    unfold lastFit at ih ⊢
    rw [List.filterMap_append]
    cases hf : fitOf energy fit c a with
    | none => simpa using ih
    | some f => simp

/-- The equilibrium may belong to the data of an earlier run: a fit that fails leaves the one of the run before. -/
theorem C76_stale_violation : ∃ (energy : Cell → ℝ) (fit : List (ℝ × ℝ) → Option Fit) (c : Cell) (a b : Args),
    b.eosFit = true ∧ ([a, b].foldl (run energy fit c) .init).eq = some (1, 2, 3) ∧
      fit ([a, b].foldl (run energy fit c) .init).data = none ∧
      ([b].foldl (run energy fit c) .init).eq = none := by
  classical
  let c : Cell := ⟨⟨⟨⟨1, 0, 0⟩, ⟨0, 1, 0⟩, ⟨0, 0, 1⟩⟩, [], [], [], [], 1, none⟩, none⟩
  let fit : List (ℝ × ℝ) → Option Fit := fun d => if d = [] then none else some ⟨1, 2, 3, fun _ => 0⟩
  let a : Args := ⟨1, 2, 1, false, true⟩
  let b : Args := ⟨2, 1, 1, false, true⟩
  have hb : setEps b.lo b.hi b.step b.fine = [] := by
    refine List.eq_nil_iff_forall_not_mem.2 fun x hx => ?_
    obtain ⟨k, hk, hlt⟩ := ((C76_coarse_grid (lo := 2) (hi := 1) (step := 1) one_pos).2 x).1 hx
    have : (0 : ℝ) ≤ k := Nat.cast_nonneg k
    linarith
  have ha : setEps a.lo a.hi a.step a.fine ≠ [] := by
    have : (1 : ℝ) ∈ setEps 1 2 1 false :=
      ((C76_coarse_grid (lo := 1) (hi := 2) (step := 1) one_pos).2 1).2 ⟨0, by norm_num, by norm_num⟩
    exact List.ne_nil_of_mem this
  refine ⟨fun _ => 0, fit, c, a, b, rfl, ?_, ?_, ?_⟩
  · rw [C76_equilibrium]
    have h1 : fit ((setEps a.lo a.hi a.step a.fine).map fun e => (c.st.volume * e, (0 : ℝ))) =
        some ⟨1, 2, 3, fun _ => 0⟩ := if_neg (by simpa using ha)
    have h2 : fit ((setEps b.lo b.hi b.step b.fine).map fun e => (c.st.volume * e, (0 : ℝ))) = none := by
      rw [hb]
      exact if_pos rfl
    simp only [List.map_cons, List.map_nil]
    rw [h1, h2]
    rfl
  · have := C76_data (fun _ => 0) fit c [a] b
    rw [show [a, b] = [a] ++ [b] from rfl, this, hb]
    exact if_pos rfl
  · rw [C76_equilibrium]
    have h2 : fit ((setEps b.lo b.hi b.step b.fine).map fun e => (c.st.volume * e, (0 : ℝ))) = none := by
      rw [hb]
      exact if_pos rfl
    simp only [List.map_cons, List.map_nil]
    rw [h2]
    rfl

/-! ## The table of the fit -/

theorem bounds_fold (vs : List ℝ) (p : ℝ × ℝ) (hp : p.1 ≤ p.2) :
    let b := vs.foldl (fun b x => (min b.1 x, max b.2 x)) p
    b.1 ≤ p.1 ∧ p.2 ≤ b.2 ∧ ∀ v ∈ vs, b.1 ≤ v ∧ v ≤ b.2 := by
  induction vs generalizing p with
  | nil => simp
  | cons x xs ih =>
    have := ih (min p.1 x, max p.2 x) (by simp [hp])
    dsimp only [List.foldl_cons] at this ⊢
    refine ⟨this.1.trans (min_le_left _ _), (le_max_left _ _).trans this.2.1, ?_⟩
    intro v hv
    rcases List.mem_cons.1 hv with rfl | hv
    · exact ⟨this.1.trans (min_le_right _ _), (le_max_right _ _).trans this.2.1⟩
    · exact this.2.2 v hv

theorem le_bounds {vs : List ℝ} {v : ℝ} (h : v ∈ vs) : (bounds vs).1 ≤ v ∧ v ≤ (bounds vs).2 := by
  cases vs with
  | nil => simp at h
  | cons x xs =>
    have := bounds_fold xs (x, x) (le_refl _)
    dsimp only at this
    rcases List.mem_cons.1 h with rfl | h
    · exact ⟨this.1, this.2.1⟩
    · exact this.2.2 v h

/-- **C76**: if the last run fitted the data, the table of the fit contains values of the fitted function only, ascends,
and has a point less than 0.01 below every volume between the smallest and the largest volume of the data. -/
theorem C76_fit_table (as : List Args) (a : Args) (f : Fit) (hr : a.eosFit = true)
    (hf : fit ((as ++ [a]).foldl (run energy fit c) .init).data = some f) :
    ∃ table, ((as ++ [a]).foldl (run energy fit c) .init).fitData = some table ∧
      (∀ p ∈ table, p.2 = f.f p.1) ∧ (table.map Prod.fst).Pairwise (· < ·) ∧
      ∀ p ∈ ((as ++ [a]).foldl (run energy fit c) .init).data, ∀ q ∈ ((as ++ [a]).foldl (run energy fit c) .init).data,
        ∀ v, p.1 ≤ v → v ≤ q.1 → p.1 < q.1 → ∃ r ∈ table, r.1 ≤ v ∧ v - r.1 < 1 / 100 := by
  have hD := C76_data energy fit c as a
  rw [hD] at hf ⊢
  have h : ((setEps a.lo a.hi a.step a.fine).map (volumeChange c)).map (fun c' => (c'.st.volume, energy c')) =
      (setEps a.lo a.hi a.step a.fine).map fun e => (c.st.volume * e, energy (volumeChange c e)) := by
    rw [List.map_map]
    rfl
  generalize hDD : ((setEps a.lo a.hi a.step a.fine).map fun e => (c.st.volume * e, energy (volumeChange c e))) = D at *
  have hT : ((as ++ [a]).foldl (run energy fit c) .init).fitData =
      some ((fitVolumes (D.map Prod.fst)).map fun v => (v, f.f v)) := by
    rw [List.foldl_append, List.foldl_cons, List.foldl_nil]
    unfold run
    dsimp only
    rw [h, if_pos hr, hf]
  refine ⟨_, hT, ?_, ?_, ?_⟩
  · intro p hp
    obtain ⟨v, _, rfl⟩ := List.mem_map.1 hp
    rfl
  · rw [List.map_map]
    have : (Prod.fst ∘ fun v => (v, f.f v)) = (id : ℝ → ℝ) := rfl
    rw [this, List.map_id]
    exact sorted_arange (by norm_num)
  · intro p hp q hq v h1 h2 h3
    have hp' := le_bounds (List.mem_map_of_mem (f := Prod.fst) hp)
    have hq' := le_bounds (List.mem_map_of_mem (f := Prod.fst) hq)
    obtain ⟨x, hx, hx'⟩ := dense_arange (a := (bounds (D.map Prod.fst)).1 -
        ((bounds (D.map Prod.fst)).2 - (bounds (D.map Prod.fst)).1) * (1 / 10))
      (b := (bounds (D.map Prod.fst)).2 + ((bounds (D.map Prod.fst)).2 - (bounds (D.map Prod.fst)).1) * (1 / 10))
      (s := 1 / 100) (t := v) (by norm_num) (by linarith [hp'.1, hq'.2]) (by linarith [hp'.1, hq'.2])
    exact ⟨(x, f.f x), List.mem_map_of_mem hx, hx'⟩

/-! ## Pressures and Gibbs free energies -/

/-- **C76**: one pair per volume; the pressure is minus the slope of the free energy at a volume at most `eps` away, and
the Gibbs free energy is the free energy plus that pressure times the volume. -/
theorem C76_gibbs (f f' : ℝ → ℝ) {toGPa eps : ℝ} (he : 0 < eps) (volumes : List ℝ)
    (hd : ∀ v ∈ volumes, ∀ x ∈ Set.Icc (v - eps) (v + eps), HasDerivAt f (f' x) x) :
    List.Forall₂ (fun v (r : ℝ × ℝ) => ∃ x ∈ Set.Ioo (v - eps) (v + eps),
      r.1 = -f' x * toGPa ∧ r.2 = f v + -f' x * v) volumes (gibbs f toGPa eps volumes) := by
  unfold gibbs
  rw [List.forall₂_map_right_iff]
  refine List.forall₂_same.2 ?_
  intro v hv
  obtain ⟨x, hx, hxe⟩ := exists_hasDerivAt_eq_slope f f' (show v - eps < v + eps by linarith)
    (fun x hx => (hd v hv x hx).continuousAt.continuousWithinAt)
    (fun x hx => hd v hv x (Set.Ioo_subset_Icc_self hx))
  refine ⟨x, hx, ?_⟩
  have : (f (v + eps) - f (v - eps)) / (2 * eps) = f' x := by
    rw [hxe]
    congr 1
    ring
  dsimp only
  rw [this]
  exact ⟨rfl, rfl⟩

/-- **C76**: if the slope changes at most by `L` per unit volume, the pressure deviates from minus the derivative at the
volume by at most `L eps`. -/
theorem C76_gibbs_error (f f' : ℝ → ℝ) {toGPa eps L : ℝ} (he : 0 < eps) (hL : 0 ≤ L) (hG : 0 ≤ toGPa) (volumes : List ℝ)
    (hd : ∀ v ∈ volumes, ∀ x ∈ Set.Icc (v - eps) (v + eps), HasDerivAt f (f' x) x ∧ |f' x - f' v| ≤ L * |x - v|) :
    List.Forall₂ (fun v (r : ℝ × ℝ) => |r.1 - -f' v * toGPa| ≤ L * eps * toGPa ∧
      |r.2 - (f v - v * f' v)| ≤ L * eps * |v|) volumes (gibbs f toGPa eps volumes) := by
  have h := C76_gibbs f f' (toGPa := toGPa) he volumes (fun v hv x hx => (hd v hv x hx).1)
  rw [List.forall₂_iff_get] at h ⊢
  refine ⟨h.1, fun i h1 h2 => ?_⟩
  obtain ⟨x, hx, e1, e2⟩ := h.2 i h1 h2
  have hL' := (hd _ (List.get_mem volumes ⟨i, h1⟩) x (Set.Ioo_subset_Icc_self hx)).2
  rw [e1, e2]
  generalize volumes.get ⟨i, h1⟩ = v at *
  have hxv : |x - v| ≤ eps := by
    rw [abs_le]
    exact ⟨by linarith [hx.1], by linarith [hx.2]⟩
  have hb : |f' x - f' v| ≤ L * eps := hL'.trans (mul_le_mul_of_nonneg_left hxv hL)
  constructor
  · rw [show -f' x * toGPa - -f' v * toGPa = -((f' x - f' v) * toGPa) by ring, abs_neg, abs_mul, abs_of_nonneg hG]
    exact mul_le_mul_of_nonneg_right hb hG
  · rw [show f v + -f' x * v - (f v - v * f' v) = -((f' x - f' v) * v) by ring, abs_neg, abs_mul]
    exact mul_le_mul_of_nonneg_right hb (abs_nonneg _)

example : ∀ v ∈ [(1 : ℝ), 2], ∀ x ∈ Set.Icc (v - 1 / 10000) (v + 1 / 10000),
    HasDerivAt (fun y : ℝ => (y - 1) ^ 2) (2 * (x - 1)) x ∧ |2 * (x - 1) - 2 * (v - 1)| ≤ 2 * |x - v| := by
  intro v _ x _
  constructor
  · have := ((hasDerivAt_id x).sub_const 1).pow 2
    refine this.congr_deriv ?_
    simp
  · rw [show 2 * (x - 1) - 2 * (v - 1) = 2 * (x - v) by ring, abs_mul, abs_two]

/-- **C76**: the pressure is exact for a quadratic free energy. -/
theorem C76_gibbs_quadratic (a b d toGPa : ℝ) {eps : ℝ} (he : eps ≠ 0) (volumes : List ℝ) :
    gibbs (fun v => a + b * v + d * v ^ 2) toGPa eps volumes =
      volumes.map fun v => (-(b + 2 * d * v) * toGPa, a - d * v ^ 2) := by
  unfold gibbs
  refine List.map_congr_left fun v _ => ?_
  have h : (a + b * (v + eps) + d * (v + eps) ^ 2 - (a + b * (v - eps) + d * (v - eps) ^ 2)) / (2 * eps) =
      b + 2 * d * v := by
    field_simp
    ring
  dsimp only
  rw [h]
  ext
  · rfl
  · dsimp only
    ring

/-- **C76**: for a convex free energy the pressure does not increase with the volume. -/
theorem C76_gibbs_monotone (f : ℝ → ℝ) (hf : ConvexOn ℝ Set.univ f) {toGPa eps : ℝ} (he : 0 < eps) (hG : 0 ≤ toGPa)
    (volumes : List ℝ) (hv : volumes.Pairwise (· ≤ ·)) :
    ((gibbs f toGPa eps volumes).map Prod.fst).Pairwise (· ≥ ·) := by
  unfold gibbs
  rw [List.map_map, List.pairwise_map]
  refine hv.imp ?_
  intro v w hvw
  show -((f (w + eps) - f (w - eps)) / (2 * eps)) * toGPa ≤ -((f (v + eps) - f (v - eps)) / (2 * eps)) * toGPa
  refine mul_le_mul_of_nonneg_right (neg_le_neg ?_) hG
  refine div_le_div_of_nonneg_right ?_ (by positivity)
  rcases hvw.eq_or_lt with rfl | hlt
  · exact le_refl _
  -- the sum at the outer points is at least the sum at the inner points
  have hT : 0 < w - v + 2 * eps := by linarith
  have key : ∀ x, v - eps ≤ x → x ≤ w + eps →
      f x ≤ (w + eps - x) / (w - v + 2 * eps) * f (v - eps) + (x - (v - eps)) / (w - v + 2 * eps) * f (w + eps) := by
    intro x h1 h2
    have n1 : 0 ≤ (w + eps - x) / (w - v + 2 * eps) := div_nonneg (by linarith) hT.le
    have n2 : 0 ≤ (x - (v - eps)) / (w - v + 2 * eps) := div_nonneg (by linarith) hT.le
    have n3 : (w + eps - x) / (w - v + 2 * eps) + (x - (v - eps)) / (w - v + 2 * eps) = 1 := by
      rw [← add_div, div_eq_one_iff_eq hT.ne']
      ring
    have := hf.2 (Set.mem_univ (v - eps)) (Set.mem_univ (w + eps)) n1 n2 n3
    rw [smul_eq_mul, smul_eq_mul, smul_eq_mul, smul_eq_mul] at this
    have hx : (w + eps - x) / (w - v + 2 * eps) * (v - eps) + (x - (v - eps)) / (w - v + 2 * eps) * (w + eps) = x := by
      field_simp
      ring
    rw [hx] at this
    exact this
  have k1 := key (v + eps) (by linarith) (by linarith)
  have k2 := key (w - eps) (by linarith) (by linarith)
  have hs : (w + eps - (v + eps)) / (w - v + 2 * eps) + (w + eps - (w - eps)) / (w - v + 2 * eps) = 1 := by
    rw [← add_div, div_eq_one_iff_eq hT.ne']
    ring
  have hs' : (v + eps - (v - eps)) / (w - v + 2 * eps) + (w - eps - (v - eps)) / (w - v + 2 * eps) = 1 := by
    rw [← add_div, div_eq_one_iff_eq hT.ne']
    ring
  have e1 : (w + eps - (v + eps)) / (w - v + 2 * eps) * f (v - eps) +
      (w + eps - (w - eps)) / (w - v + 2 * eps) * f (v - eps) = f (v - eps) := by
    rw [← add_mul, hs, one_mul]
  have e2 : (v + eps - (v - eps)) / (w - v + 2 * eps) * f (w + eps) +
      (w - eps - (v - eps)) / (w - v + 2 * eps) * f (w + eps) = f (w + eps) := by
    rw [← add_mul, hs', one_mul]
  linarith

example : ConvexOn ℝ Set.univ fun v : ℝ => v ^ 2 := by
  refine ⟨convex_univ, fun x _ y _ a b ha hb hab => ?_⟩
  obtain rfl : b = 1 - a := by linarith
  simp only [smul_eq_mul]
  nlinarith [mul_nonneg (mul_nonneg ha hb) (sq_nonneg (x - y))]

end Verif.Eos
