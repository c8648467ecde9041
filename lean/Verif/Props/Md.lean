import Verif.Spec.Md
import Mathlib.Analysis.Calculus.Deriv.Add
import Mathlib.Analysis.Calculus.Deriv.Mul
import Mathlib.Analysis.Calculus.Deriv.Pow
import Mathlib.Analysis.SpecialFunctions.Exp
import Mathlib.Analysis.Complex.ExponentialBounds
import Mathlib.Analysis.Convex.SpecificFunctions.Basic
import Mathlib.Analysis.MeanInequalities
import Mathlib.Analysis.MeanInequalitiesPow
import Mathlib.Tactic.Linarith
import Mathlib.Tactic.FieldSimp
import Mathlib.Tactic.Ring
import Mathlib.Tactic.NormNum
import Mathlib.Data.Fin.VecNotation
import Mathlib.Tactic.FinCases

/-!
# C68 to C71: molecular dynamics with a reference state
-/

namespace Verif.Md
open Verif.Spec Polynomial

/-! ## C68: mixtures of two states -/

/-- **C68.**  The energy of the mixture goes linearly from the reference (`alpha = 0`) to the final state
(`alpha = 1`); the stored energy difference is the derivative of the energy with respect to `alpha`, and the other
one is what is missing to the final state. -/
theorem C68_mixture {m : ℕ} (p1 p0 : EF m) :
    (calculate 0 p1 p0).energy = p0.energy ∧ (calculate 1 p1 p0).energy = p1.energy ∧
      (∀ a, (calculate 0 p1 p0).forces a = p0.forces a ∧ (calculate 1 p1 p0).forces a = p1.forces a) ∧
      ∀ alpha : ℝ, HasDerivAt (fun t => (calculate t p1 p0).energy) (calculate alpha p1 p0).delta10 alpha ∧
        (calculate alpha p1 p0).delta10 = p1.energy - p0.energy ∧
        (calculate alpha p1 p0).energy + (calculate alpha p1 p0).delta1a = p1.energy ∧
        (calculate alpha p1 p0).delta1a = (1 - alpha) * (calculate alpha p1 p0).delta10 := by
  refine ⟨by simp [calculate, mixEF], by simp [calculate, mixEF], fun a => ⟨by simp [calculate, mixEF],
    by simp [calculate, mixEF]⟩, fun alpha => ⟨?_, rfl, ?_, ?_⟩⟩
  · have h1 := (hasDerivAt_id alpha).const_mul p1.energy
    have h2 := ((hasDerivAt_id alpha).const_sub 1).const_mul p0.energy
    have h := (h1.add h2).congr_deriv (g' := p1.energy - p0.energy) (by ring)
    exact h
  · simp only [calculate, mixEF]
    ring
  · simp only [calculate, mixEF]
    ring

theorem mixEF_forces {m : ℕ} (alpha : ℝ) (P1 P0 : (Fin m → ℝ) → EF m) (x : Fin m → ℝ)
    (h1 : ForcesOf (fun y => (P1 y).energy) (P1 x).forces x) (h0 : ForcesOf (fun y => (P0 y).energy) (P0 x).forces x) :
    ForcesOf (fun y => (mixEF alpha (P1 y) (P0 y)).energy) (mixEF alpha (P1 x) (P0 x)).forces x := by
  intro u
  have h := ((h1 u).mul_const alpha).add ((h0 u).mul_const (1 - alpha))
  refine h.congr_deriv ?_
  simp only [mixEF]
  rw [neg_mul, neg_mul, ← neg_add, Finset.sum_mul, Finset.sum_mul, ← Finset.sum_add_distrib]
  congr 1
  exact Finset.sum_congr rfl fun a _ => by ring

/-- **C68.**  The forces of the mixture are minus the derivatives of its energy, if those of the two states are. -/
theorem C68_forces {m : ℕ} (alpha : ℝ) (P1 P0 : (Fin m → ℝ) → EF m) (x : Fin m → ℝ)
    (h1 : ForcesOf (fun y => (P1 y).energy) (P1 x).forces x) (h0 : ForcesOf (fun y => (P0 y).energy) (P0 x).forces x) :
    ForcesOf (fun y => (calculate alpha (P1 y) (P0 y)).energy) (calculate alpha (P1 x) (P0 x)).forces x :=
  mixEF_forces alpha P1 P0 x h1 h0

/-- The same for force constants as the reference. -/
theorem C68_fc2_forces {m : ℕ} (alpha : ℝ) (pot harmonic : (Fin m → ℝ) → EF m) (x0 x : Fin m → ℝ)
    (h1 : ForcesOf (fun y => (pot y).energy) (pot x).forces x)
    (h0 : ForcesOf (fun y => (harmonic y).energy) (harmonic x).forces x) :
    ForcesOf (fun y => (calculateFc2 alpha pot harmonic x0 y).energy) (calculateFc2 alpha pot harmonic x0 x).forces x :=
  C68_forces alpha pot (fun y => evalFc2Model (pot x0).energy (harmonic y)) x h1
    (fun u => (h0 u).add_const (pot x0).energy)

/-- The same for two mixtures of a potential with force constants. -/
theorem C68_general_forces {m : ℕ} (alpha alphaF alphaR : ℝ) (final ref harmonic : (Fin m → ℝ) → EF m)
    (x0 x : Fin m → ℝ) (h1 : ForcesOf (fun y => (final y).energy) (final x).forces x)
    (h2 : ForcesOf (fun y => (ref y).energy) (ref x).forces x)
    (h0 : ForcesOf (fun y => (harmonic y).energy) (harmonic x).forces x) :
    ForcesOf (fun y => (calculateGeneral alpha alphaF alphaR final ref harmonic x0 y).energy)
      (calculateGeneral alpha alphaF alphaR final ref harmonic x0 x).forces x :=
  C68_forces alpha (fun y => mixEF alphaF (final y) (evalFc2Model (final x0).energy (harmonic y)))
    (fun y => mixEF alphaR (ref y) (evalFc2Model (ref x0).energy (harmonic y))) x
    (mixEF_forces alphaF final _ x h1 (fun u => (h0 u).add_const (final x0).energy))
    (mixEF_forces alphaR ref _ x h2 (fun u => (h0 u).add_const (ref x0).energy))

/-- At the structure without displacements the harmonic reference has the energy of the potential, for every
`alpha`. -/
theorem C68_static {X : Type} {m : ℕ} (alpha : ℝ) (pot harmonic : X → EF m) (x0 : X) (h : (harmonic x0).energy = 0) :
    (calculateFc2 alpha pot harmonic x0 x0).energy = (pot x0).energy ∧
      (calculateFc2 alpha pot harmonic x0 x0).delta10 = 0 ∧ (calculateFc2 alpha pot harmonic x0 x0).delta1a = 0 := by
  simp only [calculateFc2, calculate, mixEF, evalFc2Model, h]
  refine ⟨by ring, by ring, by ring⟩

/-- With the same mixing parameter for both potentials, going from one to the other does not involve the force
constants except through the static energies. -/
theorem C68_general_difference {X : Type} {m : ℕ} (alpha a : ℝ) (final ref harmonic : X → EF m) (x0 x : X) :
    (calculateGeneral alpha a a final ref harmonic x0 x).delta10 =
      a * ((final x).energy - (ref x).energy) + (1 - a) * ((final x0).energy - (ref x0).energy) := by
  simp only [calculateGeneral, calculate, mixEF, evalFc2Model]
  ring

/-- **C68.**  Results that are read after `alpha` was set belong to that `alpha` and the given atoms, if nothing was
computed before or the atoms moved since the last calculation.  Partial: false without that hypothesis, see the
violation below. -/
theorem C68_fresh_partial {X R : Type} (calcAt : ℝ → X → R) (a : ℝ) (x : X) (c : Cache X R)
    (h : ∀ y r, c.last = some (y, r) → y ≠ x) :
    (getResults calcAt x (setAlpha a c)).1 = calcAt a x ∧
      (getResults calcAt x (setAlpha a c)).2.last = some (x, calcAt a x) := by
  unfold getResults setAlpha
  cases hl : c.last with
  | none => exact ⟨rfl, rfl⟩
  | some p =>
    obtain ⟨y, r⟩ := p
    simp only [if_neg (h y r hl)]
    exact ⟨trivial, trivial⟩

/-- Setting `alpha` does not clear the stored results: as long as the atoms do not move, energies, forces and energy
differences are those of the old `alpha`. -/
theorem C68_stale_violation :
    ∃ (P1 P0 : EF 1) (c : Cache Unit (Results 1)),
      let calcAt : ℝ → Unit → Results 1 := fun alpha _ => calculate alpha P1 P0
      let r := getResults calcAt () (setAlpha 0 c)
      (getResults calcAt () (setAlpha 1 r.2)).1.energy ≠ (calcAt 1 ()).energy := by
  refine ⟨⟨1, fun _ => 0⟩, ⟨0, fun _ => 0⟩, ⟨0, none⟩, ?_⟩
  intro calcAt r
  have hr : r = (calcAt 0 (), ⟨0, some ((), calcAt 0 ())⟩) := rfl
  rw [hr]
  have h2 : (getResults calcAt () (setAlpha 1 (⟨0, some ((), calcAt 0 ())⟩ : Cache Unit (Results 1)))).1 = calcAt 0 () := by
    unfold getResults setAlpha
    simp
  rw [h2]
  simp only [calcAt, calculate, mixEF]
  norm_num

/-- Values of `alpha` outside the interval from zero to one are accepted. -/
theorem C68_range_violation {X R : Type} (calcAt : ℝ → X → R) (x : X) (c : Cache X R) (h : c.last = none) :
    (getResults calcAt x (setAlpha 7 c)).1 = calcAt 7 x ∧ (setAlpha (-1) c).alpha = -1 := by
  unfold getResults setAlpha
  rw [h]
  exact ⟨rfl, rfl⟩

/-- A harmonic atom on a line, and a potential with a cubic term. -/
noncomputable def exHarm (k g : ℝ) (x : Fin 1 → ℝ) : EF 1 := ⟨k / 2 * (x 0) ^ 2 + g * (x 0) ^ 3, fun _ => -(k * x 0 + 3 * g * x 0 ^ 2)⟩

theorem exHarm_forces (k g : ℝ) (x : Fin 1 → ℝ) : ForcesOf (fun y => (exHarm k g y).energy) (exHarm k g x).forces x := by
  intro u
  have h0 : HasDerivAt (fun s : ℝ => x 0 + s * u 0) (u 0) 0 :=
    (((hasDerivAt_id (0 : ℝ)).mul_const (u 0)).const_add (x 0)).congr_deriv (by simp)
  have h2 := ((h0.pow 2).const_mul (k / 2)).add ((h0.pow 3).const_mul g)
  refine h2.congr_deriv ?_
  simp [exHarm]
  ring

/-- The hypotheses of `C68_forces`, `C68_fc2_forces`, `C68_general_forces` and `C68_static` are met. -/
example (x : Fin 1 → ℝ) : ForcesOf (fun y => (exHarm 2 1 y).energy) (exHarm 2 1 x).forces x ∧
    ForcesOf (fun y => (exHarm 3 0 y).energy) (exHarm 3 0 x).forces x ∧ (exHarm 3 0 0).energy = 0 :=
  ⟨exHarm_forces 2 1 x, exHarm_forces 3 0 x, by simp [exHarm]⟩

/-! ## C69: averages -/

theorem sum_sq_dev (l : List ℝ) (c : ℝ) :
    (l.map fun e => (e - c) ^ 2).sum = (l.map fun e => e ^ 2).sum - 2 * c * l.sum + l.length * c ^ 2 := by
  induction l with
  | nil => simp
  | cons a l ih =>
    simp only [List.map_cons, List.sum_cons, ih, List.length_cons]
    push_cast
    ring

/-- **C69.**  The heat capacity in eV/K per cell is the mean square deviation of the energies from their mean over
`k T²`; it is not negative, and zero only if the energy does not fluctuate. -/
theorem C69_heat_capacity (kb temp : ℝ) (l : List ℝ) (hl : l ≠ []) (hk : 0 < kb) (ht : 1 / 10 ^ 8 < temp) :
    heatCapacityEV kb temp l = (l.map fun e => (e - l.sum / l.length) ^ 2).sum / l.length / (kb * temp ^ 2) ∧
      0 ≤ heatCapacityEV kb temp l ∧ (heatCapacityEV kb temp l = 0 ↔ ∀ e ∈ l, e = l.sum / l.length) := by
  have hn : (0 : ℝ) < l.length := by
    have := List.length_pos_of_ne_nil hl
    exact_mod_cast this
  have ht0 : 0 < temp := lt_trans (by norm_num) ht
  have heq : heatCapacityEV kb temp l =
      (l.map fun e => (e - l.sum / l.length) ^ 2).sum / l.length / (kb * temp ^ 2) := by
    unfold heatCapacityEV
    rw [if_neg (by rw [abs_of_pos ht0]; exact not_le.2 ht), sum_sq_dev]
    unfold average
    rw [List.length_map]
    field_simp
    ring
  have hpos : 0 < kb * temp ^ 2 := by positivity
  have hsum : 0 ≤ (l.map fun e => (e - l.sum / l.length) ^ 2).sum :=
    List.sum_nonneg fun x hx => by
      obtain ⟨e, -, rfl⟩ := List.mem_map.1 hx
      exact sq_nonneg _
  refine ⟨heq, heq ▸ div_nonneg (div_nonneg hsum hn.le) hpos.le, ?_⟩
  rw [heq, div_eq_zero_iff, or_iff_left hpos.ne', div_eq_zero_iff, or_iff_left hn.ne']
  constructor
  · intro h e he
    have hle : (e - l.sum / l.length) ^ 2 ≤ (l.map fun e => (e - l.sum / l.length) ^ 2).sum :=
      List.single_le_sum (fun x hx => by
        obtain ⟨e, -, rfl⟩ := List.mem_map.1 hx
        exact sq_nonneg _) _ (List.mem_map.2 ⟨e, he, rfl⟩)
    rw [h] at hle
    have := pow_eq_zero_iff (two_ne_zero) |>.1 (le_antisymm hle (sq_nonneg _))
    linarith
  · intro h
    refine List.sum_eq_zero fun x hx => ?_
    obtain ⟨e, he, rfl⟩ := List.mem_map.1 hx
    rw [h e he, sub_self]
    norm_num

/-- The averages use the samples after the equilibration only. -/
theorem C69_equilibration (kb temp : ℝ) (pre s s' : Samples) (nEq : ℕ)
    (h : pre.energies.length = nEq ∧ pre.totals.length = nEq ∧ pre.displacements.length = nEq ∧
      pre.deltas10.length = nEq ∧ pre.deltas1a.length = nEq)
    (h1 : s.energies = pre.energies ++ s'.energies) (h2 : s.totals = pre.totals ++ s'.totals)
    (h3 : s.displacements = pre.displacements ++ s'.displacements) (h4 : s.deltas10 = pre.deltas10 ++ s'.deltas10)
    (h5 : s.deltas1a = pre.deltas1a ++ s'.deltas1a) :
    calcAverages kb temp nEq s = ⟨average s'.energies, average s'.totals, average s'.displacements,
      average s'.deltas10, average s'.deltas1a, freeEnergyPerturb kb temp s'.deltas1a⟩ := by
  obtain ⟨e1, e2, e3, e4, e5⟩ := h
  unfold calcAverages
  rw [h1, h2, h3, h4, h5, List.drop_left' e1, List.drop_left' e2, List.drop_left' e3, List.drop_left' e4,
    List.drop_left' e5]

/-- **C69.**  The heat capacity in J/K/mol, times the number of atoms of the cell, is the heat capacity of one mole of
cells; at zero temperature it is zero. -/
theorem C69_heat_capacity_molar (kb evToJ avogadro temp : ℝ) {nAtoms : ℕ} (hN : nAtoms ≠ 0) (l : List ℝ) (hl : l ≠ [])
    (hk : 0 < kb) :
    (1 / 10 ^ 8 < temp → nAtoms * heatCapacity kb evToJ avogadro temp nAtoms l =
      (l.map fun e => (e - l.sum / l.length) ^ 2).sum / l.length / (kb * temp ^ 2) * evToJ * avogadro) ∧
    (temp = 0 → heatCapacity kb evToJ avogadro temp nAtoms l = 0) := by
  constructor
  · intro ht
    unfold heatCapacity
    rw [(C69_heat_capacity kb temp l hl hk ht).1]
    have : (nAtoms : ℝ) ≠ 0 := by exact_mod_cast hN
    field_simp
  · rintro rfl
    unfold heatCapacity heatCapacityEV
    rw [if_pos (by norm_num), zero_mul]

/-- The hypotheses of `C69_heat_capacity` and `C69_equilibration` are met. -/
example : ([1, 2, 4] : List ℝ) ≠ [] ∧ (0 : ℝ) < 8617 / 10 ^ 8 ∧ (1 : ℝ) / 10 ^ 8 < 300 ∧
    heatCapacityEV (8617 / 10 ^ 8) 300 [1, 2, 4] ≠ 0 := by
  refine ⟨by simp, by norm_num, by norm_num, fun h => ?_⟩
  have := ((C69_heat_capacity (8617 / 10 ^ 8) 300 [1, 2, 4] (by simp) (by norm_num) (by norm_num)).2.2.1 h) 1 (by simp)
  norm_num at this

theorem average_pos {l : List ℝ} (hl : l ≠ []) (h : ∀ x ∈ l, 0 < x) : 0 < average l := by
  unfold average
  have hn : (0 : ℝ) < l.length := by exact_mod_cast List.length_pos_of_ne_nil hl
  exact div_pos (List.sum_pos _ h hl) hn

theorem average_le {α : Type} (l : List α) (f g : α → ℝ) (h : ∀ x ∈ l, f x ≤ g x) :
    average (l.map f) ≤ average (l.map g) := by
  unfold average
  rw [List.length_map, List.length_map]
  exact div_le_div_of_nonneg_right (List.sum_le_sum h) (Nat.cast_nonneg _)

theorem average_const {α : Type} {l : List α} (hl : l ≠ []) (c : ℝ) : average (l.map fun _ => c) = c := by
  unfold average
  have hn : (0 : ℝ) < l.length := by exact_mod_cast List.length_pos_of_ne_nil hl
  rw [List.length_map, List.map_const', List.sum_replicate, nsmul_eq_mul]
  field_simp

theorem average_affine {α : Type} {l : List α} (hl : l ≠ []) (f : α → ℝ) (a c : ℝ) :
    average (l.map fun x => a * f x + c) = a * average (l.map f) + c := by
  unfold average
  have hn : (0 : ℝ) < l.length := by exact_mod_cast List.length_pos_of_ne_nil hl
  rw [List.length_map, List.length_map, List.sum_map_add, List.sum_map_mul_left, List.map_const', List.sum_replicate,
    nsmul_eq_mul]
  field_simp

theorem exp_neg_perturb (beta : ℝ) (hb : 0 < beta) (l : List ℝ) (hl : l ≠ []) :
    Real.exp (-beta * perturbAt beta l) = average (l.map fun d => Real.exp (-beta * d)) := by
  have hp : 0 < average (l.map fun d => Real.exp (-beta * d)) :=
    average_pos (by simpa using hl) fun x hx => by
      obtain ⟨d, -, rfl⟩ := List.mem_map.1 hx
      exact Real.exp_pos _
  unfold perturbAt
  rw [show -beta * (-Real.log (average (l.map fun d => Real.exp (-beta * d))) / beta) =
    Real.log (average (l.map fun d => Real.exp (-beta * d))) by field_simp, Real.exp_log hp]

/-- The value is the one at which the shifted weights average to one. -/
theorem average_shift (beta c : ℝ) (l : List ℝ) (hl : l ≠ []) :
    average (l.map fun d => Real.exp (-beta * (d - c))) =
      Real.exp (beta * c) * average (l.map fun d => Real.exp (-beta * d)) := by
  have h := average_affine hl (fun d => Real.exp (-beta * d)) (Real.exp (beta * c)) 0
  rw [add_zero] at h
  rw [← h]
  congr 1
  refine List.map_congr_left fun d _ => ?_
  rw [add_zero, ← Real.exp_add]
  congr 1
  ring

theorem perturbAt_le_iff (beta c : ℝ) (hb : 0 < beta) (l : List ℝ) (hl : l ≠ []) :
    perturbAt beta l ≤ c ↔ 1 ≤ average (l.map fun d => Real.exp (-beta * (d - c))) := by
  rw [average_shift beta c l hl, ← exp_neg_perturb beta hb l hl, ← Real.exp_add, ← Real.exp_zero, Real.exp_le_exp]
  constructor
  · intro h
    nlinarith
  · intro h
    by_contra hc
    push Not at hc
    nlinarith

theorem le_perturbAt_iff (beta c : ℝ) (hb : 0 < beta) (l : List ℝ) (hl : l ≠ []) :
    c ≤ perturbAt beta l ↔ average (l.map fun d => Real.exp (-beta * (d - c))) ≤ 1 := by
  rw [average_shift beta c l hl, ← exp_neg_perturb beta hb l hl, ← Real.exp_add, ← Real.exp_zero, Real.exp_le_exp]
  constructor
  · intro h
    nlinarith
  · intro h
    by_contra hc
    push Not at hc
    nlinarith

theorem perturbAt_anti (b1 b2 : ℝ) (h1 : 0 < b1) (h12 : b1 ≤ b2) (l : List ℝ) (hl : l ≠ []) :
    perturbAt b2 l ≤ perturbAt b1 l := by
  rw [perturbAt_le_iff b2 _ (lt_of_lt_of_le h1 h12) l hl]
  set F := perturbAt b1 l with hF
  have hone : average (l.map fun d => Real.exp (-b1 * (d - F))) = 1 := by
    rw [average_shift b1 F l hl, ← exp_neg_perturb b1 h1 l hl, ← Real.exp_add, ← hF, neg_mul, add_neg_cancel,
      Real.exp_zero]
  have hB : ∀ d ∈ l, b2 / b1 * Real.exp (-b1 * (d - F)) + (1 - b2 / b1) ≤ Real.exp (-b2 * (d - F)) := by
    intro d _
    have hs : -1 ≤ Real.exp (-b1 * (d - F)) - 1 := by linarith [Real.exp_pos (-b1 * (d - F))]
    have := one_add_mul_self_le_rpow_one_add hs ((one_le_div h1).2 h12)
    rw [add_sub_cancel, ← Real.exp_mul] at this
    rw [show -b2 * (d - F) = -b1 * (d - F) * (b2 / b1) by field_simp]
    linarith
  calc (1 : ℝ) = b2 / b1 * average (l.map fun d => Real.exp (-b1 * (d - F))) + (1 - b2 / b1) := by rw [hone]; ring
    _ = average (l.map fun d => b2 / b1 * Real.exp (-b1 * (d - F)) + (1 - b2 / b1)) := (average_affine hl _ _ _).symm
    _ ≤ _ := average_le l _ _ hB

theorem perturbation_eq (kt : ℝ) (l : List ℝ) : perturbation kt l = perturbAt (1 / kt) l := by
  unfold perturbation perturbAt average
  rw [List.length_map, div_div_eq_mul_div, div_one, neg_mul, neg_mul, mul_comm]
  congr 5
  refine List.map_congr_left fun d _ => ?_
  congr 1
  ring

/-- **C69.**  The free energy by perturbation is between the lowest and the mean energy difference, equal to them if
the energy difference does not fluctuate, and not below the one at the temperature of the run, as long as `kT` is at
most one (in eV: 11604 K).  Partial: it is not the one at the temperature of the run, see the violation below. -/
theorem C69_perturb_partial (kb temp : ℝ) (l : List ℝ) (hl : l ≠ []) (hk : 0 < kb) (ht : 0 < temp) :
    freeEnergyPerturb kb temp l ≤ l.sum / l.length ∧
      (∀ m, (∀ d ∈ l, m ≤ d) → m ≤ freeEnergyPerturb kb temp l) ∧
      (∀ c, (∀ d ∈ l, d = c) → freeEnergyPerturb kb temp l = c ∧ perturbation (kb * temp) l = c) ∧
      (kb * temp ≤ 1 → perturbation (kb * temp) l ≤ freeEnergyPerturb kb temp l) := by
  have hb : 0 < kb * temp := mul_pos hk ht
  have hub : ∀ beta : ℝ, 0 < beta → perturbAt beta l ≤ l.sum / l.length := by
    intro beta hbeta
    rw [perturbAt_le_iff beta _ hbeta l hl]
    have hle := average_le l (fun d => -beta * d + (1 + beta * (l.sum / l.length)))
      (fun d => Real.exp (-beta * (d - l.sum / l.length))) fun d _ => by
        have := Real.add_one_le_exp (-beta * (d - l.sum / l.length))
        linarith
    rw [average_affine hl (fun d => d) (-beta)] at hle
    refine le_trans (le_of_eq ?_) hle
    unfold average
    rw [List.map_id']
    ring
  have hlb : ∀ beta : ℝ, 0 < beta → ∀ m, (∀ d ∈ l, m ≤ d) → m ≤ perturbAt beta l := by
    intro beta hbeta m hm
    rw [le_perturbAt_iff beta _ hbeta l hl]
    refine (average_le l _ (fun _ => 1) fun d hd => ?_).trans (average_const hl 1).le
    rw [← Real.exp_zero, Real.exp_le_exp]
    nlinarith [hm d hd]
  have hc : ∀ beta : ℝ, 0 < beta → ∀ c, (∀ d ∈ l, d = c) → perturbAt beta l = c := by
    intro beta hbeta c h
    have hs : l.sum / l.length = c := by
      have h1 := average_const hl c
      have h2 : (l.map fun _ => c) = l := by
        conv_rhs => rw [← List.map_id' l]
        exact List.map_congr_left fun d hd => (h d hd).symm
      rw [h2] at h1
      exact h1
    exact le_antisymm (hs ▸ hub beta hbeta) (hlb beta hbeta c fun d hd => (h d hd).ge)
  refine ⟨hub _ hb, hlb _ hb, fun c h => ⟨hc _ hb c h, ?_⟩, fun h1 => ?_⟩
  · rw [perturbation_eq]
    exact hc _ (by positivity) c h
  · rw [perturbation_eq]
    refine perturbAt_anti _ _ hb ?_ l hl
    rw [le_div_iff₀ hb]
    nlinarith

/-- The weights are `exp(-kT ΔE)` instead of `exp(-ΔE / kT)`: for two equally frequent energy differences of zero and
one the result is near the mean for every temperature at which `kT` is at most 0.4 (in eV: 4600 K), and never the
free energy difference, which is at most `kT ln 2`. -/
theorem C69_perturb_violation (kb temp : ℝ) (hk : 0 < kb) (ht : 0 < temp) (h : kb * temp ≤ 2 / 5) :
    perturbation (kb * temp) [0, 1] ≤ kb * temp * Real.log 2 ∧
      1 / (2 * (1 + kb * temp)) ≤ freeEnergyPerturb kb temp [0, 1] ∧
      freeEnergyPerturb kb temp [0, 1] ≠ perturbation (kb * temp) [0, 1] := by
  have hb : 0 < kb * temp := mul_pos hk ht
  set kt := kb * temp with hkt
  have hF : freeEnergyPerturb kb temp [0, 1] = perturbAt kt [0, 1] := rfl
  have h1 : perturbation kt [0, 1] ≤ kt * Real.log 2 := by
    unfold perturbation
    have : Real.log (1 / 2) ≤ Real.log (([(0 : ℝ), 1].map fun d => Real.exp (-d / kt)).sum / ([(0 : ℝ), 1].length : ℝ)) := by
      apply Real.log_le_log (by norm_num)
      simp only [List.map_cons, List.map_nil, List.sum_cons, List.sum_nil, List.length_cons, List.length_nil]
      have := Real.exp_pos (-1 / kt)
      norm_num
      linarith
    rw [one_div, Real.log_inv] at this
    nlinarith
  have h2 : 1 / (2 * (1 + kt)) ≤ perturbAt kt [0, 1] := by
    unfold perturbAt average
    simp only [List.map_cons, List.map_nil, List.sum_cons, List.sum_nil, List.length_cons, List.length_nil]
    rw [le_div_iff₀ hb]
    have he : Real.exp (-kt * 1) ≤ 1 / (1 + kt) := by
      rw [mul_one, Real.exp_neg, ← one_div]
      apply one_div_le_one_div_of_le (by linarith)
      linarith [Real.add_one_le_exp kt]
    have hlog := Real.log_le_sub_one_of_pos (x := (Real.exp (-kt * 0) + (Real.exp (-kt * 1) + 0)) / ((0 + 1 + 1 : ℕ) : ℝ))
      (by positivity)
    have : (Real.exp (-kt * 0) + (Real.exp (-kt * 1) + 0)) / ((0 + 1 + 1 : ℕ) : ℝ) ≤ (1 + 1 / (1 + kt)) / 2 := by
      rw [mul_zero, Real.exp_zero]
      norm_num
      norm_num at he
      linarith
    have h3 : 1 / (2 * (1 + kt)) * kt = 1 - (1 + 1 / (1 + kt)) / 2 := by
      field_simp
      ring
    linarith
  refine ⟨h1, h2, fun heq => ?_⟩
  rw [hF] at heq
  have h3 : kt * Real.log 2 < 7 / 25 := by nlinarith [Real.log_two_lt_d9, Real.log_two_gt_d9]
  have h4 : (5 : ℝ) / 14 ≤ 1 / (2 * (1 + kt)) := by
    rw [le_div_iff₀ (by linarith)]
    linarith
  rw [heq] at h2
  linarith

/-- Room temperature meets the hypotheses. -/
example : (0 : ℝ) < 8617389 / 10 ^ 11 ∧ (0 : ℝ) < 300 ∧ (8617389 : ℝ) / 10 ^ 11 * 300 ≤ 2 / 5 := by norm_num

/-! ## C70: thermodynamic integration -/

theorem zipWith_md (md : ℕ → ℝ → ℕ → Averages) (f : ℝ → ℝ) (ns : ℕ) (g : ℝ → ℝ) (hf : ∀ k a, (md k a ns).delta10 = f a)
    (w x : List ℝ) (k : ℕ) :
    (List.zipWith (· * ·) w ((((x.map g).zipIdx k).map fun p => (p.1, md p.2 p.1 ns)).map fun l => l.2.delta10)) =
      List.zipWith (fun wi xi => wi * f (g xi)) w x := by
  induction x generalizing w k with
  | nil => simp
  | cons a x ih =>
    cases w with
    | nil => simp
    | cons b w =>
      have h := ih w (k + 1)
      simp only [List.map_cons, List.zipIdx_cons, List.zipWith_cons_cons, hf, h]

theorem sum_zipWith_mul_left (c : ℝ) (f : ℝ → ℝ → ℝ) (w x : List ℝ) :
    c * (List.zipWith f w x).sum = (List.zipWith (fun a b => c * f a b) w x).sum := by
  induction w generalizing x with
  | nil => simp
  | cons a w ih =>
    cases x with
    | nil => simp
    | cons b x => simp only [List.zipWith_cons_cons, List.sum_cons, mul_add, ih]

/-- One node: the midpoint rule. -/
theorem exGauss : GaussLegendre 1 [0] [2] := by
  refine ⟨rfl, rfl, fun q hq => ?_⟩
  have hq' : q.natDegree < 3 := by omega
  have hd : q.derivative.eval 0 = q.coeff 1 := by
    rw [← coeff_zero_eq_eval_zero, coeff_derivative]
    norm_num
  rw [eval_eq_sum_range' hq', eval_eq_sum_range' hq', Finset.sum_range_succ, Finset.sum_range_succ,
    Finset.sum_range_one, Finset.sum_range_succ, Finset.sum_range_succ, Finset.sum_range_one]
  simp only [List.zipWith_cons_cons, List.zipWith_nil_left, List.sum_cons, List.sum_nil, hd]
  ring

/-- **C70.**  With the nodes and weights of Gauss-Legendre quadrature the free energy is exact whenever the mean
energy difference depends on `alpha` like the derivative of a polynomial of degree at most `2 n`. -/
theorem C70_exact (md : ℕ → ℝ → ℕ → Averages) (x w : List ℝ) (n : ℕ) (maxAlpha temp : ℝ) (nSteps : ℕ) (G : ℝ[X])
    (hq : GaussLegendre n x w) (hG : G.natDegree ≤ 2 * n)
    (hmd : ∀ k alpha, (md k alpha nSteps).delta10 = G.derivative.eval alpha) :
    (runTI md x w maxAlpha temp nSteps).freeEnergy = G.eval maxAlpha - G.eval 0 := by
  have hr := zipWith_md md (fun a => G.derivative.eval a) nSteps
    (fun t => (1 / 2 * (maxAlpha - 0)) * t + 1 / 2 * (0 + maxAlpha)) hmd w x 0
  show calcIntegral w _ 0 maxAlpha = _
  unfold calcIntegral
  rw [pRoots, hr]
  obtain ⟨-, -, hex⟩ := hq
  have hdeg : (G.comp (C (1 / 2 * maxAlpha) * X + C (1 / 2 * maxAlpha))).natDegree ≤ 2 * n := by
    refine natDegree_comp_le.trans ?_
    have : (C (1 / 2 * maxAlpha) * X + C (1 / 2 * maxAlpha) : ℝ[X]).natDegree ≤ 1 := natDegree_linear_le
    calc G.natDegree * _ ≤ G.natDegree * 1 := Nat.mul_le_mul_left _ this
      _ ≤ 2 * n := by rw [mul_one]; exact hG
  have h := hex _ hdeg
  simp only [eval_comp, derivative_comp, eval_add, eval_mul, eval_C, eval_X, derivative_add, derivative_mul,
    derivative_C, derivative_X] at h
  rw [show (1 : ℝ) / 2 * maxAlpha * 1 + 1 / 2 * maxAlpha = maxAlpha by ring,
    show (1 : ℝ) / 2 * maxAlpha * -1 + 1 / 2 * maxAlpha = 0 by ring] at h
  rw [← h, sub_zero, zero_add, sum_zipWith_mul_left]
  congr 2
  funext wi xi
  rw [eval_zero, eval_one]
  ring

/-- **C70.**  The states of the log go from the reference to the final state, in increasing order of `alpha`, if the
nodes are increasing and inside the interval. -/
theorem C70_states (md : ℕ → ℝ → ℕ → Averages) (x w : List ℝ) (maxAlpha temp : ℝ) (nSteps : ℕ) (hm : 0 < maxAlpha)
    (hx : x.Pairwise (· < ·)) (h1 : ∀ t ∈ x, -1 < t ∧ t < 1) :
    ((runTI md x w maxAlpha temp nSteps).log.map Prod.fst).Pairwise (· < ·) ∧
      (runTI md x w maxAlpha temp nSteps).log.length = x.length + 2 ∧
      (runTI md x w maxAlpha temp nSteps).log.head? = some (0, md x.length 0 (nSteps * 3)) ∧
      (runTI md x w maxAlpha temp nSteps).log.getLast? = some (maxAlpha, md (x.length + 1) maxAlpha (nSteps * 3)) := by
  have hlog : ∀ (l : List ℝ) (k : ℕ), ((l.zipIdx k).map fun p => (p.1, md p.2 p.1 nSteps)).map Prod.fst = l := by
    intro l
    induction l with
    | nil => intro k; rfl
    | cons a l ih =>
      intro k
      simp only [List.zipIdx_cons, List.map_cons, ih]
  refine ⟨?_, ?_, rfl, ?_⟩
  · show ((0 : ℝ) :: List.map Prod.fst (List.map _ _ ++ [_])).Pairwise (· < ·)
    rw [List.map_append, hlog]
    simp only [pRoots, List.map_cons, List.map_nil, List.pairwise_cons, List.mem_append, List.mem_map,
      List.mem_singleton, List.pairwise_append, List.pairwise_map]
    refine ⟨?_, ?_, by simp, ?_⟩
    · rintro a (⟨t, ht, rfl⟩ | rfl)
      · nlinarith [(h1 t ht).1]
      · exact hm
    · refine hx.imp fun {a b} hab => ?_
      nlinarith
    · rintro a ⟨t, ht, rfl⟩ b rfl
      nlinarith [(h1 t ht).2]
  · show (List.map _ _ ++ [_]).length + 1 = _
    simp [pRoots]
  · show (_ :: (List.map _ _ ++ [_])).getLast? = _
    rw [List.getLast?_cons, List.getLast?_append]
    simp

/-- **C70.**  Energy, entropy and free energy differences are consistent: `F = E - T S` with the energy difference of
the two end states; the perturbation results are those of the final state. -/
theorem C70_entropy (md : ℕ → ℝ → ℕ → Averages) (x w : List ℝ) (maxAlpha temp : ℝ) (nSteps : ℕ)
    (ht : 1 / 10 ^ 8 < |temp|) :
    let r := runTI md x w maxAlpha temp nSteps
    r.freeEnergy = r.energy - temp * r.entropy ∧
      r.energy = (md (x.length + 1) maxAlpha (nSteps * 3)).energy - (md x.length 0 (nSteps * 3)).energy ∧
      r.perturb = (md (x.length + 1) maxAlpha (nSteps * 3)).perturb ∧
      r.perturbOrder1 = (md (x.length + 1) maxAlpha (nSteps * 3)).delta1a := by
  have ht0 : temp ≠ 0 := by
    rintro rfl
    rw [abs_zero] at ht
    norm_num at ht
  intro r
  refine ⟨?_, ?_, rfl, rfl⟩
  · simp only [r, runTI, energyEntropy, if_neg (not_le.2 ht)]
    field_simp
    ring
  · simp only [r, runTI, energyEntropy, if_neg (not_le.2 ht)]

/-- At zero temperature energy and entropy are reported as zero. -/
theorem C70_zero_violation : ∃ (md : ℕ → ℝ → ℕ → Averages) (x w : List ℝ) (nSteps : ℕ), GaussLegendre 1 x w ∧
    (runTI md x w 1 0 nSteps).energy ≠
      (md (x.length + 1) 1 (nSteps * 3)).energy - (md x.length 0 (nSteps * 3)).energy := by
  refine ⟨fun _ a _ => ⟨a, 0, 0, 1, 0, 0⟩, [0], [2], 1, exGauss, ?_⟩
  simp [runTI, energyEntropy]

/-- The hypotheses of `C70_exact`, `C70_states` and `C70_entropy` are met by one node and an energy difference that
is linear in `alpha`. -/
example : ∃ (md : ℕ → ℝ → ℕ → Averages) (G : ℝ[X]), GaussLegendre 1 [0] [2] ∧ G.natDegree ≤ 2 * 1 ∧
    (∀ k alpha, (md k alpha 100).delta10 = G.derivative.eval alpha) ∧ (runTI md [0] [2] 1 300 100).freeEnergy = 4 := by
  have hG : (C 3 * X + X ^ 2 : ℝ[X]).natDegree ≤ 2 * 1 := by
    refine (natDegree_add_le _ _).trans (max_le ((natDegree_C_mul_le 3 X).trans (by rw [natDegree_X]; norm_num)) ?_)
    rw [natDegree_X_pow]
  have hmd : ∀ (k : ℕ) (alpha : ℝ), (⟨0, 0, 0, 3 + 2 * alpha, 0, 0⟩ : Averages).delta10 =
      (C 3 * X + X ^ 2 : ℝ[X]).derivative.eval alpha := by
    intro k alpha
    simp
    left
    norm_num
  refine ⟨fun _ a _ => ⟨0, 0, 0, 3 + 2 * a, 0, 0⟩, C 3 * X + X ^ 2, exGauss, hG, hmd, ?_⟩
  rw [C70_exact _ [0] [2] 1 1 300 100 (C 3 * X + X ^ 2) exGauss hG hmd]
  simp
  norm_num

/-! ## C71: the reference state -/

theorem findLoop_spec (l : List RefState) (best : Option (RefState × ℚ)) (hl : ∀ u ∈ l, 0 ≤ u.temp ∧ u.temp < 10 ^ 10)
    (hb : ∀ p, best = some p → 0 ≤ p.2 ∧ p.2 < 10 ^ 10) :
    (findLoop l best = none → best = none ∧ ∀ u ∈ l, ¬ (u.converge = true ∧ u.imaginary = false)) ∧
      ∀ s t, findLoop l best = some (s, t) →
        ((best = some (s, t)) ∨ (s ∈ l ∧ s.converge = true ∧ s.imaginary = false ∧ 0 ≤ t ∧ t ≤ s.temp ∧
          s.temp ≤ t + 1 / 10 ^ 8)) ∧
        (∀ u ∈ l, u.converge = true → u.imaginary = false → t ≤ u.temp) ∧ (∀ p, best = some p → t ≤ p.2) := by
  induction l generalizing best with
  | nil =>
    refine ⟨fun h => ⟨h, by simp⟩, fun s t h => ⟨Or.inl h, by simp, fun p hp => ?_⟩⟩
    have : some p = some (s, t) := hp.symm.trans h
    cases this
    exact le_refl _
  | cons v l ih =>
    have hv := hl v (by simp)
    have hl' : ∀ u ∈ l, 0 ≤ u.temp ∧ u.temp < 10 ^ 10 := fun u hu => hl u (by simp [hu])
    unfold findLoop
    by_cases hc : v.converge = true
    · rw [hc]
      by_cases hi : v.imaginary = true
      · rw [hi]
        obtain ⟨h1, h2⟩ := ih best hl' hb
        refine ⟨fun h => ⟨(h1 h).1, ?_⟩, fun s t h => ?_⟩
        · intro u hu
          rcases List.mem_cons.1 hu with rfl | hu
          · simp [hi]
          · exact (h1 h).2 u hu
        · obtain ⟨a, b, c⟩ := h2 s t h
          refine ⟨a.imp id fun a => ⟨List.mem_cons_of_mem _ a.1, a.2⟩, ?_, c⟩
          intro u hu hc' hi'
          rcases List.mem_cons.1 hu with rfl | hu
          · rw [hi] at hi'
            exact absurd hi' (by simp)
          · exact b u hu hc' hi'
      · have hi' : v.imaginary = false := by simpa using hi
        rw [hi']
        simp only [Bool.not_true, Bool.false_eq_true, if_false]
        by_cases hz : |v.temp| ≤ 1 / 10 ^ 8
        · rw [if_pos hz]
          refine ⟨fun h => by simp at h, fun s t h => ?_⟩
          simp only [Option.some.injEq, Prod.mk.injEq] at h
          obtain ⟨rfl, rfl⟩ := h
          rw [abs_of_nonneg hv.1] at hz
          exact ⟨Or.inr ⟨by simp, hc, hi', le_refl _, hv.1, by linarith⟩, fun u hu _ _ => (hl u hu).1,
            fun p hp => (hb p hp).1⟩
        · rw [if_neg hz]
          by_cases hlt : v.temp < (best.map Prod.snd).getD (10 ^ 10)
          · rw [if_pos hlt]
            obtain ⟨h1, h2⟩ := ih (some (v, v.temp)) hl' fun p hp => by
              cases hp
              exact hv
            refine ⟨fun h => absurd (h1 h).1 (by simp), fun s t h => ?_⟩
            obtain ⟨a, b, c⟩ := h2 s t h
            have hct : t ≤ v.temp := c _ rfl
            refine ⟨Or.inr ?_, ?_, ?_⟩
            · rcases a with a | a
              · simp only [Option.some.injEq, Prod.mk.injEq] at a
                obtain ⟨rfl, rfl⟩ := a
                exact ⟨by simp, hc, hi', hv.1, le_refl _, by linarith [show (0 : ℚ) < 1 / 10 ^ 8 by norm_num]⟩
              · exact ⟨List.mem_cons_of_mem _ a.1, a.2⟩
            · intro u hu hc' hi''
              rcases List.mem_cons.1 hu with rfl | hu
              · exact hct
              · exact b u hu hc' hi''
            · intro p hp
              rw [hp] at hlt
              exact hct.trans (le_of_lt hlt)
          · rw [if_neg hlt]
            obtain ⟨h1, h2⟩ := ih best hl' hb
            have hbest : ∃ p, best = some p := by
              cases hbb : best with
              | none =>
                rw [hbb] at hlt
                exact absurd hv.2 hlt
              | some p => exact ⟨p, rfl⟩
            obtain ⟨p, hp⟩ := hbest
            refine ⟨fun h => absurd (h1 h).1 (by simp [hp]), fun s t h => ?_⟩
            obtain ⟨a, b, c⟩ := h2 s t h
            refine ⟨a.imp id fun a => ⟨List.mem_cons_of_mem _ a.1, a.2⟩, ?_, c⟩
            intro u hu hc' hi''
            rcases List.mem_cons.1 hu with rfl | hu
            · rw [hp] at hlt
              exact (c p hp).trans (not_lt.1 hlt)
            · exact b u hu hc' hi''
    · have hc' : v.converge = false := by simpa using hc
      rw [hc']
      obtain ⟨h1, h2⟩ := ih best hl' hb
      refine ⟨fun h => ⟨(h1 h).1, ?_⟩, fun s t h => ?_⟩
      · intro u hu
        rcases List.mem_cons.1 hu with rfl | hu
        · simp [hc']
        · exact (h1 h).2 u hu
      · obtain ⟨a, b, c⟩ := h2 s t h
        refine ⟨a.imp id fun a => ⟨List.mem_cons_of_mem _ a.1, a.2⟩, ?_, c⟩
        intro u hu hc'' hi'
        rcases List.mem_cons.1 hu with rfl | hu
        · exact absurd hc'' hc
        · exact b u hu hc'' hi'

/-- **C71.**  The reference state is one of the given ones; it converged, has no imaginary frequencies, has the lowest
temperature of all such states (up to 1e-8 K) and is not above the target temperature (up to 2e-8 K). -/
theorem C71_found (states : List RefState) (target : ℚ) (s : RefState)
    (ht : ∀ u ∈ states, 0 ≤ u.temp ∧ u.temp < 10 ^ 10) (h : findReference states target = .ok s) :
    s ∈ states ∧ s.converge = true ∧ s.imaginary = false ∧
      (∀ u ∈ states, u.converge = true → u.imaginary = false → s.temp ≤ u.temp + 1 / 10 ^ 8) ∧
      s.temp ≤ target + 2 / 10 ^ 8 := by
  unfold findReference at h
  obtain ⟨-, h2⟩ := findLoop_spec states none ht (by simp)
  cases hl : findLoop states none with
  | none =>
    rw [hl] at h
    cases h
  | some p =>
    obtain ⟨s', t⟩ := p
    rw [hl] at h
    simp only at h
    by_cases hc : target + 1 / 10 ^ 8 < t
    · rw [if_pos hc] at h
      cases h
    · rw [if_neg hc] at h
      cases h
      obtain ⟨a, b, -⟩ := h2 s t hl
      rcases a with a | ⟨a1, a2, a3, a4, a5, a6⟩
      · cases a
      · refine ⟨a1, a2, a3, fun u hu hc hi => ?_, ?_⟩
        · linarith [b u hu hc hi]
        · linarith [not_lt.1 hc]

/-- **C71.**  If there is no answer, no usable state is at or below the target temperature. -/
theorem C71_none (states : List RefState) (target : ℚ) (e : Err)
    (ht : ∀ u ∈ states, 0 ≤ u.temp ∧ u.temp < 10 ^ 10) (h : findReference states target = .error e) :
    e = .runtimeError ∧ ∀ u ∈ states, u.converge = true → u.imaginary = false → target < u.temp := by
  unfold findReference at h
  obtain ⟨h1, h2⟩ := findLoop_spec states none ht (by simp)
  cases hl : findLoop states none with
  | none =>
    rw [hl] at h
    cases h
    exact ⟨rfl, fun u hu hc hi => absurd ⟨hc, hi⟩ ((h1 hl).2 u hu)⟩
  | some p =>
    obtain ⟨s', t⟩ := p
    rw [hl] at h
    simp only at h
    by_cases hc : target + 1 / 10 ^ 8 < t
    · rw [if_pos hc] at h
      cases h
      obtain ⟨-, b, -⟩ := h2 s' t hl
      refine ⟨rfl, fun u hu hcc hi => ?_⟩
      linarith [b u hu hcc hi, show (0 : ℚ) < 1 / 10 ^ 8 by norm_num]
    · rw [if_neg hc] at h
      cases h

/-- Both outcomes occur. -/
example : findReference [⟨"300", true, false, 300⟩, ⟨"100", true, true, 100⟩, ⟨"200", true, false, 200⟩] 250 =
      .ok ⟨"200", true, false, 200⟩ ∧
    findReference [⟨"300", true, false, 300⟩, ⟨"100", true, true, 100⟩, ⟨"200", true, false, 200⟩] 150 =
      .error .runtimeError := by
  constructor <;> norm_num [findReference, findLoop]

end Verif.Md
