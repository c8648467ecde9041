import Verif.Spec.HarmonicReal
import Verif.Spec.Harmonic
import Mathlib.Tactic.Ring
import Mathlib.Tactic.NormNum
import Mathlib.Tactic.FieldSimp
import Mathlib.Tactic.Linarith
import Mathlib.Tactic.Positivity
import Mathlib.Analysis.Calculus.Deriv.MeanValue
import Mathlib.Analysis.Matrix.Spectrum

/-!
# C88: samples of the harmonic density matrix
-/

namespace Verif.Harmonic
open Verif.Spec Verif.FC2
open Finset (sum_congr sum_comm mul_sum sum_mul)

variable {n : ℕ}

/-! ## Normal modes -/

theorem flat_eq (Φ : FC n ℝ) : toMatrix Φ = flatFC Φ := rfl

theorem mass_eq (m : Fin n → ℝ) : mass3 m = massOf m := rfl

theorem flat_symm {Φ : FC n ℝ} (h : PermSymm Φ) (r c : Fin (n * 3)) : flatFC Φ r c = flatFC Φ c r := h _ _ _ _

theorem signed_square (w : ℝ) : frequency w * |frequency w| = 244.40020137144617 * w := by
  have hc : constSq = 244.40020137144617 := by unfold constSq; norm_num
  have hpos : (0 : ℝ) < 244.40020137144617 := by norm_num
  unfold frequency
  rw [hc]
  split
  · rename_i h
    have h' : 0 ≤ -(w * 244.40020137144617) := by linarith
    rw [abs_neg, abs_of_nonneg (Real.sqrt_nonneg _), neg_mul, Real.mul_self_sqrt h']
    ring
  · rename_i h
    rw [abs_of_nonneg (Real.sqrt_nonneg _), Real.mul_self_sqrt (not_lt.mp h)]
    ring

/-- The modes of an eigenvalue problem. -/
noncomputable def modes (ext : Ext n) (m : Fin n → ℝ) (Φ : FC n ℝ) (k r : Fin (n * 3)) : ℝ :=
  1 / Real.sqrt (massOf m r) * (ext.eigh (dynamical m Φ)).2 r k

theorem modes_normal (ext : Ext n) (hx : EighSpec ext) (m : Fin n → ℝ) (hm : ∀ i, 0 < m i) (Φ : FC n ℝ) (hs : PermSymm Φ) :
    NormalModes Φ m (modes ext m Φ) (ext.eigh (dynamical m Φ)).1 (frequencies ext m Φ) := by
  have hsym : ∀ r c, dynamical m Φ r c = dynamical m Φ c r := by
    intro r c
    unfold dynamical
    rw [flat_eq, flat_symm hs]
    ring
  obtain ⟨h1, h2⟩ := hx _ hsym
  have hq : ∀ r, Real.sqrt (massOf m r) ≠ 0 := fun r => (Real.sqrt_pos.mpr (hm _)).ne'
  have hqq : ∀ r, Real.sqrt (massOf m r) * Real.sqrt (massOf m r) = massOf m r := fun r => Real.mul_self_sqrt (hm _).le
  refine ⟨?_, ?_, fun k => signed_square _⟩
  · intro k r
    have : ∀ c, flatFC Φ r c * modes ext m Φ k c =
        Real.sqrt (massOf m r) * (dynamical m Φ r c * (ext.eigh (dynamical m Φ)).2 c k) := by
      intro c
      unfold modes
      conv_rhs => rw [dynamical, flat_eq, mass_eq]
      have := hq r
      have := hq c
      field_simp
    rw [sum_congr rfl fun c _ => this c, ← mul_sum, h1]
    have h3 := hqq r
    have h4 := hq r
    unfold modes
    generalize Real.sqrt (massOf m r) = q at h3 h4 ⊢
    rw [← h3]
    field_simp
  · intro i j
    rw [← h2 i j]
    refine sum_congr rfl fun r _ => ?_
    unfold modes
    have h3 := hqq r
    have h4 := hq r
    generalize Real.sqrt (massOf m r) = q at h3 h4 ⊢
    rw [← h3]
    field_simp

/-- C88: the frequencies are those of the normal modes of the force constants and the masses; the sign is that of the
eigenvalue. -/
theorem C88_modes (ext : Ext n) (hx : EighSpec ext) (m : Fin n → ℝ) (hm : ∀ i, 0 < m i)
    (Φ : Fin n → Fin n → Fin 3 → Fin 3 → ℝ) (hs : PermSymm Φ) :
    ∃ v w, NormalModes Φ m v w (frequencies ext m Φ) ∧ ∀ k, (frequencies ext m Φ k < 0 ↔ w k < 0) := by
  refine ⟨_, _, modes_normal ext hx m hm Φ hs, fun k => ?_⟩
  have hc : (0 : ℝ) < constSq := by unfold constSq; norm_num
  unfold frequencies frequency
  generalize (ext.eigh (dynamical m Φ)).1 k = w
  constructor
  · intro h
    by_contra hw
    rw [if_neg (by have := mul_nonneg (not_lt.mp hw) hc.le; linarith)] at h
    exact absurd h (not_lt.mpr (Real.sqrt_nonneg _))
  · intro h
    have : w * constSq < 0 := mul_neg_of_neg_of_pos h hc
    rw [if_pos this]
    have : 0 < Real.sqrt (-(w * constSq)) := Real.sqrt_pos.mpr (by linarith)
    linarith

/-! ## Variances -/

theorem variance_ok (T f : ℝ) : ThermalVariance T f (amplitude T (hide f)) := by
  constructor
  · intro h
    unfold hide amplitude
    rw [if_pos h, if_pos (by rw [abs_zero]; norm_num)]
  · intro h
    have hf : (0 : ℝ) < f := lt_of_lt_of_le (by norm_num) h
    have h1 : ¬ f < 0.1 := not_lt.mpr h
    have h2 : ¬ |f| ≤ 1e-8 := by
      rw [abs_of_pos hf]
      intro h'
      have : (0.1 : ℝ) ≤ 1e-8 := le_trans h h'
      norm_num at this
    have key : amplitude T (hide f) * f = constAmp * occupation T f := by
      unfold hide
      rw [if_neg h1]
      unfold amplitude
      rw [if_neg h2]
      field_simp
    constructor
    · intro hT
      rw [key]
      unfold occupation constAmp
      rw [if_pos hT]
      norm_num
    · intro hT
      rw [key]
      unfold occupation constAmp
      rw [if_neg (not_le.mpr hT), Real.tanh_eq_sinh_div_cosh, inv_div]
      have : 0.5 * (1 / (kb * T)) * planck * f = 6.62607015e-22 * f / (2 * (1.380649e-23 * T)) := by
        have hT' : T ≠ 0 := by
          rintro rfl
          rw [abs_zero] at hT
          norm_num at hT
        unfold kb planck
        field_simp
        ring
      rw [this]
      norm_num

theorem sinh_le (x : ℝ) (hx : 0 ≤ x) : Real.sinh x ≤ x * Real.cosh x := by
  have hm : MonotoneOn (fun x => x * Real.cosh x - Real.sinh x) (Set.Ici 0) := by
    apply monotoneOn_of_deriv_nonneg (convex_Ici 0)
    · exact (continuous_id.mul Real.continuous_cosh |>.sub Real.continuous_sinh).continuousOn
    · exact ((differentiable_id.mul Real.differentiable_cosh).sub Real.differentiable_sinh).differentiableOn
    · intro y hy
      rw [interior_Ici] at hy
      have hy' : (0 : ℝ) < y := hy
      have h1 : HasDerivAt (fun x => x * Real.cosh x - Real.sinh x) (1 * Real.cosh y + y * Real.sinh y - Real.cosh y) y :=
        ((hasDerivAt_id y).mul (Real.hasDerivAt_cosh y)).sub (Real.hasDerivAt_sinh y)
      rw [h1.deriv]
      have := mul_nonneg hy'.le (Real.sinh_nonneg_iff.mpr hy'.le)
      linarith
  have := hm (Set.mem_Ici.mpr le_rfl) (Set.mem_Ici.mpr hx) hx
  simp at this
  linarith

theorem coth_bounds (x : ℝ) (hx : 0 < x) :
    1 ≤ x * (Real.cosh x / Real.sinh x) ∧ x * (Real.cosh x / Real.sinh x) ≤ 1 + x := by
  have hs : 0 < Real.sinh x := Real.sinh_pos_iff.mpr hx
  rw [← mul_div_assoc, le_div_iff₀ hs, div_le_iff₀ hs]
  refine ⟨by rw [one_mul]; exact sinh_le x hx.le, ?_⟩
  rw [Real.cosh_eq, Real.sinh_eq]
  have h1 : 2 * x + 1 ≤ Real.exp (2 * x) := Real.add_one_le_exp _
  have h2 : Real.exp (2 * x) * Real.exp (-x) = Real.exp x := by rw [← Real.exp_add]; ring_nf
  have h3 : (2 * x + 1) * Real.exp (-x) ≤ Real.exp x := by
    rw [← h2]
    exact mul_le_mul_of_nonneg_right h1 (Real.exp_pos _).le
  nlinarith

/-- C88: the mean potential energy of a mode of frequency `f` of at least 0.1 THz at a temperature above zero (in J) is
between the classical value `kT/2` and `kT/2 + hf/4`; at zero temperature it is `hf/4`. -/
theorem C88_equipartition (T f w σ : ℝ) (hf : 0.1 ≤ f) (hT : 0 ≤ T) (hw : f * |f| = 244.40020137144617 * w)
    (hσ : ThermalVariance T f σ) (J : ℝ)
    (hJ : J = 6.62607015e-22 * 244.40020137144617 / 1.010758017933576 * (1 / 2 * w * σ)) :
    (T ≤ 1e-8 → J = 6.62607015e-22 * f / 4) ∧
    (1e-8 < T → 1.380649e-23 * T / 2 ≤ J ∧ J ≤ 1.380649e-23 * T / 2 + 6.62607015e-22 * f / 4) := by
  have hf0 : (0 : ℝ) < f := lt_of_lt_of_le (by norm_num) hf
  rw [abs_of_pos hf0] at hw
  obtain ⟨h0, h1⟩ := hσ.2 hf
  rw [abs_of_nonneg hT] at h0 h1
  have key : J = 6.62607015e-22 / 1.010758017933576 * (1 / 2) * f * (σ * f) := by
    rw [hJ]
    have : 6.62607015e-22 * 244.40020137144617 / 1.010758017933576 * (1 / 2 * w * σ) =
      6.62607015e-22 / 1.010758017933576 * (1 / 2) * σ * (244.40020137144617 * w) := by ring
    rw [this, ← hw]
    ring
  constructor
  · intro h
    rw [key, h0 h]
    ring
  · intro h
    have hT0 : (0 : ℝ) < T := lt_trans (by norm_num) h
    rw [h1 h] at key
    generalize hx : 6.62607015e-22 * f / (2 * (1.380649e-23 * T)) = x at key
    have hx0 : 0 < x := by rw [← hx]; positivity
    obtain ⟨b1, b2⟩ := coth_bounds x hx0
    have hk : 6.62607015e-22 * f = x * (2 * (1.380649e-23 * T)) := by
      rw [← hx]
      field_simp
    have key2 : J = 1.380649e-23 * T / 2 * (x * (Real.cosh x / Real.sinh x)) := by
      rw [key]
      have : 6.62607015e-22 / 1.010758017933576 * (1 / 2) * f * (1.010758017933576 * (1 / 2 * (Real.cosh x / Real.sinh x))) =
        1 / 4 * (6.62607015e-22 * f) * (Real.cosh x / Real.sinh x) := by ring
      rw [this, hk]
      ring
    have hkT : (0 : ℝ) < 1.380649e-23 * T / 2 := by positivity
    rw [key2, hk]
    constructor
    · nlinarith
    · nlinarith

/-- C88: the constants of the code are the physical ones (h, k, e and N in SI units, frequencies in THz, lengths in
angstrom, masses in atomic units). -/
theorem C88_constants :
    |constAmp - 6.62607015e-34 * 6.02214076e23 * 1e11 / (4 * Real.pi ^ 2)| ≤ 1e-14 ∧
    |constSq - 1.602176634e-19 * 6.02214076e23 * 0.1 / (4 * Real.pi ^ 2)| ≤ 1e-12 ∧
    |planck * constSq / constAmp - 1.602176634e-19| ≤ 1e-33 ∧
    |evToKJ - 1.602176634e-19 * 6.02214076e23 / 1000| ≤ 1e-13 := by
  have h1 := Real.pi_gt_d20
  have h2 := Real.pi_lt_d20
  have hl : (3.14159265358979323846 : ℝ) ^ 2 < Real.pi ^ 2 := by
    apply pow_lt_pow_left₀ h1 (by norm_num) (by norm_num)
  have hu : Real.pi ^ 2 < (3.14159265358979323847 : ℝ) ^ 2 := by
    apply pow_lt_pow_left₀ h2 Real.pi_pos.le (by norm_num)
  have hp : (0 : ℝ) < 4 * Real.pi ^ 2 := by positivity
  refine ⟨?_, ?_, ?_, ?_⟩
  · unfold constAmp
    rw [abs_le, neg_le_sub_iff_le_add, sub_le_iff_le_add, div_le_iff₀ hp, ← sub_le_iff_le_add', le_div_iff₀ hp]
    constructor
    · norm_num at hl hu ⊢; linarith
    · norm_num at hl hu ⊢; linarith
  · unfold constSq
    rw [abs_le, neg_le_sub_iff_le_add, sub_le_iff_le_add, div_le_iff₀ hp, ← sub_le_iff_le_add', le_div_iff₀ hp]
    constructor
    · norm_num at hl hu ⊢; linarith
    · norm_num at hl hu ⊢; linarith
  · unfold planck constSq constAmp
    norm_num [abs_le]
  · unfold evToKJ
    norm_num [abs_le]

/-! ## Expectations -/

theorem displaced_sq (v : Fin (n * 3) → Fin (n * 3) → ℝ) (E : ((Fin (n * 3) → ℝ) → ℝ) →ₗ[ℝ] ℝ) (σ : Fin (n * 3) → ℝ)
    (hE : HasVariance E σ) (r c : Fin (n * 3)) :
    E (fun x => displaced v x r * displaced v x c) = ∑ k, v k r * v k c * σ k := by
  have : (fun x => displaced v x r * displaced v x c) =
      ∑ i, ∑ j, (v i r * v j c) • (fun x : Fin (n * 3) → ℝ => x i * x j) := by
    funext x
    simp only [displaced, Finset.sum_apply, Pi.smul_apply, smul_eq_mul]
    rw [Finset.sum_mul_sum]
    refine sum_congr rfl fun i _ => sum_congr rfl fun j _ => ?_
    ring
  rw [this, map_sum]
  refine sum_congr rfl fun i _ => ?_
  rw [map_sum]
  simp only [map_smul, smul_eq_mul, hE i]
  rw [Finset.sum_eq_single i]
  · simp
  · intro j _ hj
    rw [if_neg (Ne.symm hj), mul_zero]
  · intro h
    exact absurd (Finset.mem_univ _) h

/-- C88: if normal coordinates are drawn with variances `σ`, displacements have the covariance of the harmonic density
matrix, and the mean harmonic energy is the sum of those of the modes. -/
theorem C88_virial (Φ : Fin n → Fin n → Fin 3 → Fin 3 → ℝ) (m : Fin n → ℝ) (v : Fin (n * 3) → Fin (n * 3) → ℝ)
    (w f σ : Fin (n * 3) → ℝ) (hv : NormalModes Φ m v w f) (E : ((Fin (n * 3) → ℝ) → ℝ) →ₗ[ℝ] ℝ) (hE : HasVariance E σ) :
    (∀ r c, E (fun x => displaced v x r * displaced v x c) = ∑ k, v k r * v k c * σ k) ∧
    E (fun x => quadEnergy Φ (displaced v x)) = ∑ k, 1 / 2 * w k * σ k := by
  refine ⟨displaced_sq v E σ hE, ?_⟩
  have h1 : (fun x => quadEnergy Φ (displaced v x)) =
      ∑ r, ∑ c, (1 / 2 * flatFC Φ r c) • (fun x : Fin (n * 3) → ℝ => displaced v x r * displaced v x c) := by
    funext x
    simp only [quadEnergy, Finset.sum_apply, Pi.smul_apply, smul_eq_mul, mul_sum]
    refine sum_congr rfl fun r _ => sum_congr rfl fun c _ => ?_
    ring
  rw [h1, map_sum]
  simp only [map_sum, map_smul, smul_eq_mul, displaced_sq v E σ hE]
  have h2 : ∀ k, ∑ r, ∑ c, flatFC Φ r c * v k r * v k c = w k := by
    intro k
    have : ∀ r, ∑ c, flatFC Φ r c * v k r * v k c = w k * (massOf m r * v k r * v k r) := by
      intro r
      have h := hv.1 k r
      calc ∑ c, flatFC Φ r c * v k r * v k c = v k r * ∑ c, flatFC Φ r c * v k c := by
            rw [mul_sum]; exact sum_congr rfl fun c _ => by ring
        _ = _ := by rw [h]; ring
    rw [sum_congr rfl fun r _ => this r, ← mul_sum, hv.2.1 k k, if_pos rfl, mul_one]
  calc ∑ r, ∑ c, 1 / 2 * flatFC Φ r c * ∑ k, v k r * v k c * σ k
      = ∑ r, ∑ c, ∑ k, 1 / 2 * σ k * (flatFC Φ r c * v k r * v k c) := by
        refine sum_congr rfl fun r _ => sum_congr rfl fun c _ => ?_
        rw [mul_sum]
        exact sum_congr rfl fun k _ => by ring
    _ = ∑ k, ∑ r, ∑ c, 1 / 2 * σ k * (flatFC Φ r c * v k r * v k c) := by
        rw [sum_congr rfl fun r _ => sum_comm, sum_comm]
    _ = ∑ k, 1 / 2 * w k * σ k := by
        refine sum_congr rfl fun k _ => ?_
        rw [sum_congr rfl fun r _ => (mul_sum _ _ _).symm, ← mul_sum, h2]
        ring

/-! ## The calculation -/

theorem quad_energy (Φ : FC n ℝ) (u : Vec n) : (evalFc2 (toMatrix Φ) u).energy = quadEnergy Φ u := by
  simp only [evalFc2, forcesFlat, quadEnergy, flat_eq, mul_sum]
  refine sum_congr rfl fun r _ => sum_congr rfl fun c _ => ?_
  ring

theorem quad_force (Φ : FC n ℝ) (u : Vec n) : forcesFlat (toMatrix Φ) u = quadForce Φ u := by
  funext r
  simp only [forcesFlat, quadForce, flat_eq, mul_neg, Finset.sum_neg_distrib]

theorem quad_stress (Φ : FC n ℝ) (u : Vec n) : (evalFc2 (toMatrix Φ) u).stress = quadStress Φ u := by
  funext k
  simp only [evalFc2, quad_force]
  unfold quadStress
  match k with
  | 0 => rfl
  | 1 => rfl
  | 2 => rfl
  | 3 => rfl
  | 4 => rfl
  | 5 => rfl

theorem kept_iff (es : List ℝ) (i : ℕ) : i ∈ kept es ↔ NoOutlier es i := by
  unfold kept NoOutlier
  simp only []
  split
  · rename_i hg
    simp only [List.not_mem_nil, false_iff]
    rintro ⟨e, he, h1, -⟩
    have : e ∈ es.filter fun e => decide (e > -10) :=
      List.mem_filter.mpr ⟨List.mem_of_getElem? he, by simpa using h1⟩
    rw [hg] at this
    exact absurd this (by simp)
  · rw [List.mem_filter, List.mem_range, decide_eq_true_eq]
    unfold mean
    constructor
    · rintro ⟨hi, h1, h2⟩
      rw [List.getD_eq_getElem?_getD, List.getElem?_eq_getElem hi] at h1 h2
      exact ⟨es[i], List.getElem?_eq_getElem hi, h1, _, _, rfl, rfl, h2⟩
    · rintro ⟨e, he, h1, s, c, hs, hc, h2⟩
      rw [hs, hc] at h2
      rw [List.getD_eq_getElem?_getD, he]
      exact ⟨(List.getElem?_eq_some_iff.mp he).1, h1, h2⟩

theorem kept_nodup (es : List ℝ) : (kept es).Nodup := by
  unfold kept
  simp only []
  split
  · exact List.nodup_nil
  · exact List.Nodup.filter _ List.nodup_range

theorem take_map {α β : Type} (f : α → β) (l : List α) (ids : List ℕ) : take (l.map f) ids = (take l ids).map f := by
  unfold take
  rw [List.map_filterMap]
  congr 1
  funext i
  rw [List.getElem?_map]

theorem take_get {α : Type} (l : List α) (ids : List ℕ) (h : ∀ i ∈ ids, i < l.length) (t : ℕ) :
    (take l ids)[t]? = ids[t]?.bind fun (i : ℕ) => l[i]? := by
  induction ids generalizing t with
  | nil => simp [take]
  | cons i ids ih =>
    have hi := h i List.mem_cons_self
    have : take l (i :: ids) = l[i] :: take l ids := by
      simp only [take, List.filterMap_cons, List.getElem?_eq_getElem hi]
    rw [this]
    cases t with
    | zero => simp [List.getElem?_eq_getElem hi]
    | succ t =>
      simp only [List.getElem?_cons_succ]
      exact ih (fun j hj => h j (List.mem_cons_of_mem _ hj)) t

theorem take_length {α : Type} (l : List α) (ids : List ℕ) (h : ∀ i ∈ ids, i < l.length) :
    (take l ids).length = ids.length := by
  induction ids with
  | nil => rfl
  | cons i ids ih =>
    have hi := h i List.mem_cons_self
    have : take l (i :: ids) = l[i] :: take l ids := by
      simp only [take, List.filterMap_cons, List.getElem?_eq_getElem hi]
    rw [this, List.length_cons, List.length_cons, ih fun j hj => h j (List.mem_cons_of_mem _ hj)]

theorem mean_spec {l : List ℝ} (h : l ≠ []) : IsMean l (mean l) := by
  refine ⟨h, ?_⟩
  have : (l.length : ℝ) ≠ 0 := by
    simpa using h
  unfold mean
  field_simp

/-- The energies of the samples relative to the static one. -/
noncomputable def relEnergies (ext : Ext n) (v : Fin (n * 3) → Fin (n * 3) → ℝ) (σ : Fin (n * 3) → ℝ) (N : ℕ) : List ℝ :=
  (ext.draw σ N).map fun x => (ext.potential (displaced v x)).energy - (ext.potential fun _ => 0).energy

/-- What a successful calculation gives, for the numbers of the samples that are kept. -/
noncomputable def resultOf (ext : Ext n) (Φ : FC n ℝ) (v : Fin (n * 3) → Fin (n * 3) → ℝ) (σ : Fin (n * 3) → ℝ) (N : ℕ)
    (ids : List ℕ) : Result n :=
  let d := take ((ext.draw σ N).map (displaced v)) ids
  { disps := d
    energiesFull := d.map fun u => (ext.potential u).energy - (ext.potential fun _ => 0).energy
    forces := d.map fun u => (ext.potential u).forces
    stresses := d.map fun u => (ext.potential u).stress
    energiesHarm := d.map (quadEnergy Φ)
    averageForces := fun r => mean (d.map fun u => (ext.potential u).forces r) - mean (d.map fun u => quadForce Φ u r) -
      (ext.potential fun _ => 0).forces r
    averageStress := fun i => mean (d.map fun u => (ext.potential u).stress i) - mean (d.map fun u => quadStress Φ u i) -
      (ext.potential fun _ => 0).stress i }

/-- The variances of the samples. -/
noncomputable def sigma (ext : Ext n) (m : Fin n → ℝ) (Φ : FC n ℝ) (T : ℝ) (k : Fin (n * 3)) : ℝ :=
  amplitude T (hide (frequencies ext m Φ k))

theorem displacement_eq (ext : Ext n) (m : Fin n → ℝ) (Φ : FC n ℝ) :
    displacement m (ext.eigh (dynamical m Φ)).2 = displaced (modes ext m Φ) := by
  funext x r
  simp only [displacement, displaced, modes, mul_sum, mass_eq]
  exact sum_congr rfl fun k _ => by ring

theorem run_eq (ext : Ext n) (m : Fin n → ℝ) (Φ : FC n ℝ) (T : ℝ) (N : ℕ) (flag : Bool) :
    run ext m (some Φ) T N flag =
      if ext.listOfSet (kept (relEnergies ext (modes ext m Φ) (sigma ext m Φ T) N)) = [] then .error .indexError
      else .ok (resultOf ext Φ (modes ext m Φ) (sigma ext m Φ T) N
        (ext.listOfSet (kept (relEnergies ext (modes ext m Φ) (sigma ext m Φ T) N)))) := by
  have hs : (fun k => amplitude T (hide (frequency ((ext.eigh (dynamical m Φ)).1 k)))) = sigma ext m Φ T := rfl
  simp only [run, hs, displacement_eq]
  have he : (((ext.draw (sigma ext m Φ T) N).map (displaced (modes ext m Φ))).map ext.potential).map
      (fun v => v.energy - (ext.potential fun _ => 0).energy) = relEnergies ext (modes ext m Φ) (sigma ext m Φ T) N := by
    simp only [List.map_map, relEnergies]
    rfl
  simp only [he]
  congr 1
  generalize hids : ext.listOfSet (kept (relEnergies ext (modes ext m Φ) (sigma ext m Φ T) N)) = ids
  have h1 : relEnergies ext (modes ext m Φ) (sigma ext m Φ T) N =
      ((ext.draw (sigma ext m Φ T) N).map (displaced (modes ext m Φ))).map
        (fun u => (ext.potential u).energy - (ext.potential fun _ => 0).energy) := by
    simp only [relEnergies, List.map_map]
    rfl
  rw [h1]
  unfold resultOf
  simp only [take_map, List.map_map, Function.comp_def]
  have e1 : (fun x => (evalFc2 (toMatrix Φ) x).energy) = quadEnergy Φ := funext fun u => quad_energy Φ u
  have e2 : ∀ u, harmForces Φ u = quadForce Φ u := fun u => quad_force Φ u
  simp only [quad_energy, e2, quad_stress]

/-- C88: a calculation has exactly the samples that are no outliers, each once: displacements along the normal modes for
drawn coordinates with the thermal variances, their energies relative to the static one, forces and stresses of the
potential, harmonic energies; average forces and stresses are means of the differences from the harmonic ones minus the
static values.  It fails if nothing is left. -/
theorem C88_run (ext : Ext n) (hx : EighSpec ext) (hset : ∀ l, (ext.listOfSet l).Perm l) (m : Fin n → ℝ)
    (hm : ∀ i, 0 < m i) (Φ : Fin n → Fin n → Fin 3 → Fin 3 → ℝ) (hs : PermSymm Φ) (T : ℝ) (N : ℕ) (flag : Bool) :
    ∃ v w f σ, NormalModes Φ m v w f ∧ (∀ k, ThermalVariance T (f k) (σ k)) ∧
    ∃ es : List ℝ, es = (ext.draw σ N).map (fun x =>
      (ext.potential (displaced v x)).energy - (ext.potential fun _ => 0).energy) ∧
    ((∀ i, ¬ NoOutlier es i) → run ext m (some Φ) T N flag = .error .indexError) ∧
    ((∃ i, NoOutlier es i) → ∃ (r : Result n) (ids : List ℕ), run ext m (some Φ) T N flag = .ok r ∧ ids.Nodup ∧ ids ≠ [] ∧
      (∀ i, i ∈ ids ↔ NoOutlier es i) ∧ r.disps.length = ids.length ∧
      (∀ (t i : ℕ), ids[t]? = some i → ∃ x u, (ext.draw σ N)[i]? = some x ∧ u = displaced v x ∧ r.disps[t]? = some u ∧
        r.energiesFull[t]? = some ((ext.potential u).energy - (ext.potential fun _ => 0).energy) ∧
        r.forces[t]? = some (ext.potential u).forces ∧ r.stresses[t]? = some (ext.potential u).stress ∧
        r.energiesHarm[t]? = some (quadEnergy Φ u)) ∧
      (∀ q, IsMean (r.disps.map fun u => (ext.potential u).forces q - quadForce Φ u q)
        (r.averageForces q + (ext.potential fun _ => 0).forces q)) ∧
      ∀ q, IsMean (r.disps.map fun u => (ext.potential u).stress q - quadStress Φ u q)
        (r.averageStress q + (ext.potential fun _ => 0).stress q)) := by
  refine ⟨modes ext m Φ, _, frequencies ext m Φ, sigma ext m Φ T, modes_normal ext hx m hm Φ hs, fun k => variance_ok T _,
    _, rfl, ?_, ?_⟩
  · intro h
    rw [run_eq]
    have : kept (relEnergies ext (modes ext m Φ) (sigma ext m Φ T) N) = [] := by
      rw [List.eq_nil_iff_forall_not_mem]
      intro i hi
      exact h i ((kept_iff _ i).mp hi)
    rw [this]
    have h2 : ext.listOfSet [] = [] := List.perm_nil.mp (hset [])
    rw [h2, if_pos rfl]
  · rintro ⟨i0, hi0⟩
    have hp := hset (kept (relEnergies ext (modes ext m Φ) (sigma ext m Φ T) N))
    have hne : ext.listOfSet (kept (relEnergies ext (modes ext m Φ) (sigma ext m Φ T) N)) ≠ [] := by
      intro h
      have : i0 ∈ kept (relEnergies ext (modes ext m Φ) (sigma ext m Φ T) N) := (kept_iff _ _).mpr hi0
      rw [h] at hp
      rw [List.nil_perm.mp hp] at this
      exact absurd this (by simp)
    have hmem : ∀ i, i ∈ ext.listOfSet (kept (relEnergies ext (modes ext m Φ) (sigma ext m Φ T) N)) ↔
        NoOutlier (relEnergies ext (modes ext m Φ) (sigma ext m Φ T) N) i := fun i => (hp.mem_iff).trans (kept_iff _ i)
    have hlt : ∀ i ∈ ext.listOfSet (kept (relEnergies ext (modes ext m Φ) (sigma ext m Φ T) N)),
        i < ((ext.draw (sigma ext m Φ T) N).map (displaced (modes ext m Φ))).length := by
      intro i hi
      obtain ⟨e, he, -⟩ := (hmem i).mp hi
      have := (List.getElem?_eq_some_iff.mp he).1
      simpa [relEnergies] using this
    refine ⟨_, _, by rw [run_eq, if_neg hne], hp.nodup_iff.mpr (kept_nodup _), hne, hmem, ?_, ?_, ?_, ?_⟩
    · exact take_length _ _ hlt
    · intro t i hti
      have hget := take_get _ _ hlt t
      rw [hti] at hget
      have hi := hlt i (List.mem_of_getElem? hti)
      rw [List.length_map] at hi
      have hx2 : (ext.draw (sigma ext m Φ T) N)[i]? = some (ext.draw (sigma ext m Φ T) N)[i] := List.getElem?_eq_getElem hi
      simp only [Option.bind_some, List.getElem?_map, hx2, Option.map_some] at hget
      refine ⟨_, _, hx2, rfl, hget, ?_, ?_, ?_, ?_⟩ <;> simp only [resultOf, List.getElem?_map, hget, Option.map_some]
    all_goals
      intro q
      simp only [resultOf]
      generalize hd : take ((ext.draw (sigma ext m Φ T) N).map (displaced (modes ext m Φ))) _ = d
      have hd0 : d ≠ [] := by
        intro h
        have := take_length _ _ hlt
        rw [hd, h] at this
        exact hne (List.length_eq_zero_iff.mp this.symm)
      have hl : (d.length : ℝ) ≠ 0 := by simpa using hd0
      refine ⟨by simpa using hd0, ?_⟩
      unfold mean
      simp only [List.length_map]
      have hsub : ∀ (f g : Vec n → ℝ), (d.map fun u => f u - g u).sum = (d.map f).sum - (d.map g).sum := by
        intro f g
        induction d with
        | nil => simp
        | cons a l ih =>
          by_cases hl : l = []
          · subst hl; simp
          · have : ∀ (l : List (Vec n)), (l.map fun u => f u - g u).sum = (l.map f).sum - (l.map g).sum := by
              intro l
              induction l with
              | nil => simp
              | cons a l ih => simp only [List.map_cons, List.sum_cons, ih]; ring
            exact this _
      rw [hsub]
      field_simp
      ring

/-- C88: without force constants nothing is calculated. -/
theorem C88_no_constants (ext : Ext n) (m : Fin n → ℝ) (T : ℝ) (N : ℕ) (flag : Bool) :
    run ext m none T N flag = .error .valueError := rfl

theorem sum_add (l : List (ℝ × ℝ)) (c : ℝ) :
    (l.map fun p => (p.1 - p.2) * c).sum = ((l.map Prod.fst).sum - (l.map Prod.snd).sum) * c := by
  induction l with
  | nil => simp
  | cons a l ih => simp only [List.map_cons, List.sum_cons, ih]; ring

/-- C88: the average anharmonic potential is the difference of the average potential and the average harmonic one, in kJ/mol
of unit cells. -/
theorem C88_anharmonic (ext : Ext n) (m : Fin n → ℝ) (Φ : Fin n → Fin n → Fin 3 → Fin 3 → ℝ) (T : ℝ) (N : ℕ) (flag : Bool)
    (r : Result n) (h : run ext m (some Φ) T N flag = .ok r) (nCells : ℕ) :
    averageAnharmonic nCells r = averageFull nCells r - averageHarmonic nCells r ∧
    anharmonicPotentials nCells r = r.disps.map fun u =>
      ((ext.potential u).energy - (ext.potential fun _ => 0).energy - quadEnergy Φ u) * (96.48533212331002 / nCells) := by
  rw [run_eq] at h
  split at h
  · cases h
  cases h
  simp only [resultOf]
  generalize take ((ext.draw (sigma ext m Φ T) N).map (displaced (modes ext m Φ))) _ = d
  have hz : anharmonicPotentials nCells (⟨d, d.map fun u => (ext.potential u).energy - (ext.potential fun _ => 0).energy,
      d.map fun u => (ext.potential u).forces, d.map fun u => (ext.potential u).stress, d.map (quadEnergy Φ), fun _ => 0,
      fun _ => 0⟩ : Result n) = d.map fun u =>
      ((ext.potential u).energy - (ext.potential fun _ => 0).energy - quadEnergy Φ u) * (evToKJ / nCells) := by
    simp only [anharmonicPotentials]
    induction d with
    | nil => rfl
    | cons a l ih => simp only [List.map_cons, List.zipWith_cons_cons, ih]
  constructor
  · have : ∀ A B, averageAnharmonic nCells (⟨d, d.map fun u => (ext.potential u).energy - (ext.potential fun _ => 0).energy,
        d.map fun u => (ext.potential u).forces, d.map fun u => (ext.potential u).stress, d.map (quadEnergy Φ), A, B⟩ : Result n) =
        mean (d.map fun u => ((ext.potential u).energy - (ext.potential fun _ => 0).energy - quadEnergy Φ u) *
          (evToKJ / nCells)) := by
      intro A B
      rw [← hz]
      rfl
    rw [this]
    simp only [averageFull, averageHarmonic, mean, List.length_map]
    have key := sum_add (d.map fun u => ((ext.potential u).energy - (ext.potential fun _ => 0).energy, quadEnergy Φ u))
      (evToKJ / nCells)
    simp only [List.map_map, Function.comp_def] at key
    rw [key]
    ring
  · exact hz

/-- C88: for a potential that is harmonic with these force constants, anharmonic potentials, average forces and average
stresses are zero, whatever is drawn. -/
theorem C88_exact (ext : Ext n) (hset : ∀ l, (ext.listOfSet l).Perm l) (m : Fin n → ℝ) (Φ : Fin n → Fin n → Fin 3 → Fin 3 → ℝ) (T : ℝ) (N : ℕ) (flag : Bool)
    (r : Result n) (h : run ext m (some Φ) T N flag = .ok r) (nCells : ℕ)
    (hh : ∀ u, (ext.potential u).energy = (ext.potential fun _ => 0).energy + quadEnergy Φ u ∧
      (∀ q, (ext.potential u).forces q = (ext.potential fun _ => 0).forces q + quadForce Φ u q) ∧
      ∀ q, (ext.potential u).stress q = (ext.potential fun _ => 0).stress q + quadStress Φ u q) :
    averageAnharmonic nCells r = 0 ∧ (∀ x ∈ anharmonicPotentials nCells r, x = 0) ∧ (∀ q, r.averageForces q = 0) ∧
      ∀ q, averageStressTensor nCells r q = 0 := by
  obtain ⟨-, h2⟩ := C88_anharmonic ext m Φ T N flag r h nCells
  have h3 : ∀ x ∈ anharmonicPotentials nCells r, x = 0 := by
    rw [h2]
    intro x hx
    obtain ⟨u, -, rfl⟩ := List.mem_map.mp hx
    rw [(hh u).1]
    ring
  refine ⟨?_, h3, ?_⟩
  · unfold averageAnharmonic mean
    rw [List.sum_eq_zero h3, zero_div]
  · rw [run_eq] at h
    split at h
    · cases h
    rename_i hne
    cases h
    simp only [resultOf, averageStressTensor]
    generalize hd : take ((ext.draw (sigma ext m Φ T) N).map (displaced (modes ext m Φ))) _ = d
    by_cases hl : d = []
    · exfalso
      have hlt : ∀ i ∈ ext.listOfSet (kept (relEnergies ext (modes ext m Φ) (sigma ext m Φ T) N)),
          i < ((ext.draw (sigma ext m Φ T) N).map (displaced (modes ext m Φ))).length := by
        intro i hi
        obtain ⟨e, he, -⟩ := (kept_iff _ i).mp ((hset _).mem_iff.mp hi)
        have := (List.getElem?_eq_some_iff.mp he).1
        simpa [relEnergies] using this
      have := take_length _ _ hlt
      rw [hd, hl] at this
      exact hne (List.length_eq_zero_iff.mp this.symm)
    · have hl' : (d.length : ℝ) ≠ 0 := by simpa using hl
      have key : ∀ (f g : Vec n → ℝ) (c : ℝ), (∀ u, f u = c + g u) → mean (d.map f) - mean (d.map g) - c = 0 := by
        intro f g c hf
        have : (d.map f).sum = d.length * c + (d.map g).sum := by
          have hf' : f = fun u => c + g u := funext hf
          rw [hf']
          clear hl hl' hd
          induction d with
          | nil => simp
          | cons a l ih => simp only [List.map_cons, List.sum_cons, ih, List.length_cons]; push_cast; ring
        unfold mean
        simp only [List.length_map, this]
        field_simp
        ring
      refine ⟨fun q => key _ _ _ fun u => (hh u).2.1 q, fun q => ?_⟩
      rw [key _ _ _ fun u => (hh u).2.2 q, zero_div]

/-! ## Distributions -/

/-- C88: what a distribution gives as energies are differences from the static energy in kJ/mol of unit cells; the static
potential is in the same unit, and the average potential is the mean of the differences. -/
theorem C88_distribution (ext : Ext n) (m : Fin n → ℝ) (Φ : Fin n → Fin n → Fin 3 → Fin 3 → ℝ) (T : ℝ) (N : ℕ) (flag : Bool)
    (r : Result n) (h : run ext m (some Φ) T N flag = .ok r) (nCells : ℕ) :
    (distEnergies nCells r = r.disps.map fun u =>
      ((ext.potential u).energy - (ext.potential fun _ => 0).energy) * (96.48533212331002 / nCells)) ∧
    (distAverages ext nCells r).1 = (ext.potential fun _ => 0).energy * (96.48533212331002 / nCells) ∧
    (distEnergies nCells r ≠ [] → IsMean (distEnergies nCells r) (distAverages ext nCells r).2) := by
  refine ⟨?_, rfl, fun h => mean_spec h⟩
  rw [run_eq] at h
  split at h
  · cases h
  cases h
  simp only [distEnergies, fullPotentials, resultOf, List.map_map]
  rfl

/-! ## A solver -/

open Classical in
/-- A solver of the eigenvalue problem. -/
noncomputable def solver (A : Fin (n * 3) → Fin (n * 3) → ℝ) : (Fin (n * 3) → ℝ) × (Fin (n * 3) → Fin (n * 3) → ℝ) :=
  if h : (Matrix.of A).IsHermitian then (h.eigenvalues, fun r k => h.eigenvectorBasis k r) else (fun _ => 0, fun _ _ => 0)

theorem solver_spec (draw : (Fin (n * 3) → ℝ) → ℕ → List (Fin (n * 3) → ℝ)) (potential : Vec n → Values n)
    (listOfSet : List ℕ → List ℕ) : EighSpec (⟨solver, draw, potential, listOfSet⟩ : Ext n) := by
  intro A hA
  have h : (Matrix.of A).IsHermitian := by
    ext i j
    simp [Matrix.conjTranspose_apply, hA i j]
  simp only [solver, dif_pos h]
  constructor
  · intro k r
    have := congrFun (h.mulVec_eigenvectorBasis k) r
    simpa [Matrix.mulVec, dotProduct] using this
  · intro i j
    have := (orthonormal_iff_ite.mp h.eigenvectorBasis.orthonormal) i j
    rw [← this]
    simp [PiLp.inner_apply, mul_comm]

/-- The force constants of one atom on springs. -/
def sampleFC : FC 1 ℝ := fun _ _ a b => if a = b then 1 else 0

/-- One atom on springs: four samples are drawn, three of them without displacement. -/
noncomputable def sampleExt : Ext 1 :=
  ⟨solver, fun _ _ => [fun _ => 0, fun _ => 0, fun _ => 0, fun _ => 1],
    fun u => ⟨quadEnergy sampleFC u, quadForce sampleFC u, quadStress sampleFC u⟩, id⟩

theorem sample_quad (u : Vec 1) : quadEnergy sampleFC u = 1 / 2 * ∑ r, u r * u r := by
  have h : ∀ r c : Fin (1 * 3), flatFC sampleFC r c = if r = c then 1 else 0 := by
    intro r c
    simp only [flatFC, sampleFC]
    congr 1
    revert r c
    decide
  simp [quadEnergy, h]

theorem sampleFC_symm : PermSymm sampleFC := by
  intro i j a b
  simp only [sampleFC, eq_comm]

/-- Hypotheses of `C88_modes` and `C88_run`. -/
example : EighSpec sampleExt ∧ (∀ l, (sampleExt.listOfSet l).Perm l) ∧ PermSymm sampleFC ∧ ∀ i : Fin 1, 0 < (fun _ => (28 : ℝ)) i :=
  ⟨solver_spec _ _ _, fun _ => List.Perm.refl _, sampleFC_symm, fun _ => by norm_num⟩

theorem sample_energies (T : ℝ) : relEnergies sampleExt (modes sampleExt (fun _ => 1) sampleFC)
    (sigma sampleExt (fun _ => 1) sampleFC T) 4 = [0, 0, 0, 3 / 2] := by
  have hn := (modes_normal sampleExt (solver_spec _ _ _) (fun _ => 1) (fun _ => one_pos) sampleFC sampleFC_symm).2.1
  have h3 : ∑ r, displaced (modes sampleExt (fun _ => 1) sampleFC) (fun _ => 1) r *
      displaced (modes sampleExt (fun _ => 1) sampleFC) (fun _ => 1) r = 3 := by
    have : ∀ r, displaced (modes sampleExt (fun _ => 1) sampleFC) (fun _ => 1) r *
        displaced (modes sampleExt (fun _ => 1) sampleFC) (fun _ => 1) r =
        ∑ i, ∑ j, massOf (fun _ : Fin 1 => (1 : ℝ)) r * modes sampleExt (fun _ => 1) sampleFC i r *
          modes sampleExt (fun _ => 1) sampleFC j r := by
      intro r
      simp only [displaced, mul_one, Finset.sum_mul_sum, massOf, one_mul]
    rw [sum_congr rfl fun r _ => this r, sum_comm, sum_congr rfl fun i _ => sum_comm]
    simp only [hn]
    simp
  have h0 : ∀ r, displaced (modes sampleExt (fun _ => 1) sampleFC) (fun _ => 0) r = 0 := by
    intro r
    simp [displaced]
  clear hn
  generalize modes sampleExt (fun _ => 1) sampleFC = v at h0 h3 ⊢
  simp only [relEnergies, sampleExt, List.map_cons, List.map_nil]
  simp only [sample_quad, h0, h3]
  norm_num

theorem sample_kept : kept [0, 0, 0, 3 / 2] = [0, 1, 2] := by
  have hf : ([0, 0, 0, 3 / 2] : List ℝ).filter (fun e => decide (e > -10)) = [0, 0, 0, 3 / 2] := by
    norm_num [List.filter_cons]
  have hr : List.range 4 = [0, 1, 2, 3] := rfl
  simp only [kept, hf, mean]
  norm_num [List.filter_cons, hr, abs_of_pos, abs_of_neg]
  intro h
  simp at h

/-- C88 does not hold if outliers shall be kept: they are left out all the same. -/
theorem C88_outliers_violation : ∃ (ext : Ext 1) (Φ : Fin 1 → Fin 1 → Fin 3 → Fin 3 → ℝ) (m : Fin 1 → ℝ), EighSpec ext ∧
    (∀ l, (ext.listOfSet l).Perm l) ∧ PermSymm Φ ∧ (∀ i, 0 < m i) ∧ (∀ σ, (ext.draw σ 4).length = 4) ∧
    ∀ T, ∃ r, run ext m (some Φ) T 4 false = .ok r ∧ r.disps.length = 3 := by
  refine ⟨sampleExt, sampleFC, fun _ => 1, solver_spec _ _ _, fun _ => List.Perm.refl _, sampleFC_symm, fun _ => one_pos,
    fun _ => rfl, fun T => ?_⟩
  rw [run_eq, sample_energies, sample_kept]
  exact ⟨_, if_neg (by simp [sampleExt]), by simp [resultOf, sampleExt, take]⟩

/-- Hypotheses of `C88_anharmonic`, `C88_exact` and `C88_distribution`. -/
example : ∃ r, run sampleExt (fun _ => 1) (some sampleFC) 300 4 true = .ok r ∧
    ∀ u, (sampleExt.potential u).energy = (sampleExt.potential fun _ => 0).energy + quadEnergy sampleFC u ∧
      (∀ q, (sampleExt.potential u).forces q = (sampleExt.potential fun _ => 0).forces q + quadForce sampleFC u q) ∧
      ∀ q, (sampleExt.potential u).stress q = (sampleExt.potential fun _ => 0).stress q + quadStress sampleFC u q := by
  refine ⟨_, by rw [run_eq, sample_energies, sample_kept]; exact if_neg (by simp [sampleExt]), fun u => ⟨?_, ?_, ?_⟩⟩
  · simp [sampleExt, quadEnergy]
  · simp [sampleExt, quadForce]
  · simp [sampleExt, quadStress, compOf, quadForce]

/-- Hypotheses of `C88_virial`. -/
example (σ : Fin (n * 3) → ℝ) : ∃ E : ((Fin (n * 3) → ℝ) → ℝ) →ₗ[ℝ] ℝ, HasVariance E σ :=
  ⟨{ toFun := fun f => ∑ k, σ k / 2 * (f (Pi.single k 1) + f (-Pi.single k 1))
     map_add' := fun f g => by
       rw [← Finset.sum_add_distrib]
       exact sum_congr rfl fun k _ => by simp only [Pi.add_apply]; ring
     map_smul' := fun a f => by
       simp only [Pi.smul_apply, smul_eq_mul, RingHom.id_apply, mul_sum]
       exact sum_congr rfl fun k _ => by ring }, fun i j => by
    simp only [LinearMap.coe_mk, AddHom.coe_mk, Pi.neg_apply]
    rw [Finset.sum_eq_single i]
    · by_cases h : i = j
      · subst h; simp; ring
      · simp [h]
    · intro k _ hk
      simp [Ne.symm hk]
    · intro h
      exact absurd (Finset.mem_univ _) h⟩

/-- Hypotheses of `C88_equipartition`: a mode of 5 THz at zero temperature. -/
example : ∃ w σ : ℝ, (5 : ℝ) * |5| = 244.40020137144617 * w ∧ ThermalVariance 0 5 σ :=
  ⟨25 / 244.40020137144617, amplitude 0 (hide 5), by norm_num, variance_ok 0 5⟩

/-- C88 does not hold for potentials that are the same for all samples, or symmetric about the static value: nothing is left
and the calculation fails. -/
theorem C88_flat_violation (ext : Ext n) (hset : ∀ l, (ext.listOfSet l).Perm l) (m : Fin n → ℝ)
    (Φ : Fin n → Fin n → Fin 3 → Fin 3 → ℝ) (T : ℝ) (N : ℕ) (flag : Bool)
    (hflat : ∀ u, (ext.potential u).energy = (ext.potential fun _ => 0).energy) :
    run ext m (some Φ) T N flag = .error .indexError := by
  rw [run_eq]
  have : kept (relEnergies ext (modes ext m Φ) (sigma ext m Φ T) N) = [] := by
    rw [List.eq_nil_iff_forall_not_mem]
    intro i hi
    obtain ⟨e, he, -, s, c, rfl, rfl, h2⟩ := (kept_iff _ i).mp hi
    have hz : ∀ x ∈ relEnergies ext (modes ext m Φ) (sigma ext m Φ T) N, x = 0 := by
      intro x hx
      obtain ⟨y, -, rfl⟩ := List.mem_map.mp hx
      rw [hflat, sub_self]
    have hs : ((relEnergies ext (modes ext m Φ) (sigma ext m Φ T) N).filter fun e => decide (-10 < e)).sum = 0 :=
      List.sum_eq_zero fun x hx => hz x (List.mem_filter.mp hx).1
    rw [hs, zero_div, abs_zero, mul_zero] at h2
    exact absurd h2 (not_lt.mpr (abs_nonneg _))
  rw [this]
  have h2 : ext.listOfSet [] = [] := List.perm_nil.mp (hset [])
  rw [h2, if_pos rfl]

/-- C88 does not hold for the documented unit of a distribution, eV of supercells: the static potential is never the static
energy of the supercell unless that is zero. -/
theorem C88_distribution_violation (ext : Ext n) (r : Result n) (nCells : ℕ) (h : (ext.potential fun _ => 0).energy ≠ 0) :
    (distAverages ext nCells r).1 ≠ (ext.potential fun _ => 0).energy := by
  intro h2
  have h3 : (ext.potential fun _ => 0).energy * (96.48533212331002 / nCells) = (ext.potential fun _ => 0).energy := h2
  have h4 : (96.48533212331002 : ℝ) / nCells = 1 := by
    have := mul_left_cancel₀ h (h3.trans (mul_one _).symm)
    exact this
  by_cases hc : (nCells : ℝ) = 0
  · rw [hc, div_zero] at h4
    exact absurd h4 (by norm_num)
  · rw [div_eq_one_iff_eq hc] at h4
    have h5 : (9648533212331002 : ℝ) = ((nCells * 100000000000000 : ℕ) : ℝ) := by
      push_cast
      rw [← h4]
      norm_num
    have h6 : 9648533212331002 = nCells * 100000000000000 := by exact_mod_cast h5
    omega

/-- C88 does not hold for `KbEV`: it is not `Kb` in eV. -/
theorem C88_units_violation : (heatCapacityEV 1 1) * 1.380649e-23 / 1.602176634e-19 < 1 - 6e-6 := by
  unfold heatCapacityEV kbEV
  norm_num

end Verif.Harmonic
