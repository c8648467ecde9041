import Verif.Spec.Recip
import Mathlib.Tactic.Linarith
import Mathlib.Tactic.NormNum

/-!
# Harmonic properties in reciprocal space, and the files of an SSCHA calculation (C109)
-/

namespace Verif.Recip
open Verif.Spec

variable {FC Ms M D P : Type}

theorem imaginary_iff (l : List ℝ) :
    (((l.filter fun f => @decide (f < -(1 / 100)) (Classical.propDecidable _)).length : ℝ) / l.length > 1 / 10 ^ 5) ↔
      ManyImaginary l := by
  classical
  constructor
  · intro h
    refine ⟨l.filter fun f => @decide (f < -(1 / 100)) (Classical.propDecidable _), List.filter_sublist, ?_, ?_⟩
    · intro f hf
      simpa using (List.mem_filter.1 hf).2
    · by_cases h0 : l.length = 0
      · rw [h0] at h; norm_num at h
      · have hp : (0 : ℝ) < l.length := by exact_mod_cast Nat.pos_of_ne_zero h0
        rw [gt_iff_lt, lt_div_iff₀ hp] at h
        have : (l.length : ℝ) < 10 ^ 5 *
            ((l.filter fun f => @decide (f < -(1 / 100)) (Classical.propDecidable _)).length : ℝ) := by linarith
        exact_mod_cast this
  · rintro ⟨k, hk, hf, hl⟩
    have hkl : k.length ≤ (l.filter fun f => @decide (f < -(1 / 100)) (Classical.propDecidable _)).length := by
      have h1 : k.filter (fun f => @decide (f < -(1 / 100)) (Classical.propDecidable _)) = k := by
        rw [List.filter_eq_self]
        intro f h
        simpa using hf f h
      have h2 := (hk.filter fun f => @decide (f < -(1 / 100)) (Classical.propDecidable _)).length_le
      rw [h1] at h2
      exact h2
    have hpos : 0 < l.length := by
      have := hk.length_le
      omega
    have hp : (0 : ℝ) < l.length := by exact_mod_cast hpos
    rw [gt_iff_lt, lt_div_iff₀ hp]
    have : (l.length : ℝ) < 10 ^ 5 *
        ((l.filter fun f => @decide (f < -(1 / 100)) (Classical.propDecidable _)).length : ℝ) := by
      have h3 : l.length < 10 ^ 5 * (l.filter fun f => @decide (f < -(1 / 100)) (Classical.propDecidable _)).length := by
        omega
      exact_mod_cast h3
    linarith

/-- C109 (thermal properties).  Whatever was computed before, setting force constants and computing thermal properties gives
those of these force constants on the mesh and at the temperature asked for. -/
theorem C109_thermal (ext : Ext FC Ms M D P) (r : Recip FC M) (f : FC) (temp : ℝ) (q : Ms) :
    ∃ r', computeThermal ext (setFc r (some f)) temp q false =
        .ok (r', (ext.thermal (ext.mesh f q false) temp).free, none) ∧
      thermalOf r' = some (ext.thermal (ext.mesh f q false) temp) ∧
      ∃ b, isImaginary r' = .ok b ∧ (b = true ↔ ManyImaginary (ext.freq (ext.mesh f q false))) := by
  refine ⟨_, rfl, rfl, _, rfl, ?_⟩
  rw [decide_eq_true_iff]
  exact imaginary_iff _

example : ManyImaginary [-1, 2] := ⟨[-1], by simp, by norm_num, by norm_num⟩

/-- C109 (hidden modes).  Hiding imaginary modes replaces exactly the frequencies below -0.001 THz, by positive ones; the
returned free energies are those with the true and with the replaced frequencies, and `free_energy` is the second one.  A
density of states that follows is the one of the replaced frequencies. -/
theorem C109_hide (ext : Ext FC Ms M D P) (r : Recip FC M) (f : FC) (temp : ℝ) (q : Ms) :
    ∃ (r' : Recip FC M) (l : List ℝ),
      List.Forall₂ (fun x y => (-(1 / 1000) ≤ x → y = x) ∧ (x < -(1 / 1000) → y = -10 * x ∧ 0 < y))
        (ext.freq (ext.mesh f q false)) l ∧
      computeThermal ext (setFc r (some f)) temp q true = .ok (r', (ext.thermal (ext.mesh f q false) temp).free,
        some (ext.thermal (ext.withFreq (ext.mesh f q false) l) temp).free) ∧
      thermalOf r' = some (ext.thermal (ext.withFreq (ext.mesh f q false) l) temp) ∧
      ∀ d, (save ext q ⟨f, r', some d⟩ false).map (·.dos) = .ok (ext.dos (ext.withFreq (ext.mesh f q false) l)) := by
  refine ⟨_, hide (ext.freq (ext.mesh f q false)), ?_, rfl, rfl, fun _ => rfl⟩
  unfold hide
  rw [List.forall₂_map_right_iff]
  refine List.forall₂_same.2 ?_
  intro x _
  constructor
  · intro h
    rw [if_neg (not_lt.2 h)]
  · intro h
    rw [if_pos h, abs_of_neg (by linarith)]
    constructor <;> linarith

/-- C109 (stable systems).  Without frequencies below -0.001 THz hiding imaginary modes changes nothing. -/
theorem C109_stable (l : List ℝ) (h : ∀ f ∈ l, -(1 / 1000) ≤ f) : hide l = l := by
  unfold hide
  conv_rhs => rw [← List.map_id l]
  refine List.map_congr_left ?_
  intro f hf
  rw [if_neg (not_lt.2 (h f hf))]
  rfl

theorem properties_ok (ext : Ext FC Ms M D P) (q : Ms) (temp : ℝ) (c : Core FC M) :
    ∃ c', properties ext q temp c = .ok c' ∧ c'.fc2 = c.fc2 ∧
      c'.recip.phMesh = some (ext.mesh c.fc2 q false) ∧ ∃ d, c'.data = some d ∧ DataOf ext q c.fc2 temp d := by
  refine ⟨_, rfl, rfl, rfl, _, rfl, rfl, rfl, ?_⟩
  rw [decide_eq_true_iff]
  exact imaginary_iff _

theorem steps_append (ext : Ext FC Ms M D P) (q : Ms) (c : Core FC M) (l : List (Step FC Ms)) (s : Step FC Ms) :
    steps ext q c (l ++ [s]) = (steps ext q c l).bind fun c' => step ext q c' s := by
  unfold steps
  rw [List.foldlM_append]
  simp only [bind]
  congr 1
  funext c'
  simp only [List.foldlM_cons, List.foldlM_nil, bind, pure, Except.pure]
  cases step ext q c' s <;> rfl

theorem step_ok (ext : Ext FC Ms M D P) (q : Ms) (c : Core FC M) (s : Step FC Ms) : ∃ c', step ext q c s = .ok c' := by
  cases s with
  | single t f =>
    obtain ⟨c', h, -⟩ := properties_ok ext q t c
    exact ⟨{ c' with fc2 := f }, by simp only [step, h, Except.map]⟩
  | final t =>
    obtain ⟨c', h, -⟩ := properties_ok ext q t c
    exact ⟨_, h⟩
  | frequencies q' => exact ⟨_, rfl⟩

theorem steps_ok (ext : Ext FC Ms M D P) (q : Ms) (l : List (Step FC Ms)) : ∀ c : Core FC M, ∃ c', steps ext q c l = .ok c' := by
  induction l with
  | nil => exact fun c => ⟨c, rfl⟩
  | cons s l ih =>
    intro c
    obtain ⟨c', h⟩ := step_ok ext q c s
    obtain ⟨c'', h'⟩ := ih c'
    refine ⟨c'', ?_⟩
    unfold steps at h' ⊢
    rw [List.foldlM_cons, h]
    exact h'

/-- C109 (files).  After any steps, a final iteration makes all files of a temperature belong to one set of force constants,
the one before it: force constants, thermal properties, imaginary modes, total and projected densities of states. -/
theorem C109_files (ext : Ext FC Ms M D P) (q : Ms) (c : Core FC M) (l : List (Step FC Ms)) (temp : ℝ) (b : Bool) :
    ∃ c₁ c₂ x, steps ext q c l = .ok c₁ ∧ steps ext q c (l ++ [.final temp]) = .ok c₂ ∧ c₂.fc2 = c₁.fc2 ∧
      save ext q c₂ b = .ok x ∧ OneSet ext q c₁.fc2 temp b x := by
  obtain ⟨c₁, h1⟩ := steps_ok ext q l c
  obtain ⟨c₂, h2, hf, hm, d, hd, hda⟩ := properties_ok ext q temp c₁
  refine ⟨c₁, c₂, ⟨d, c₂.fc2, ext.dos (ext.mesh c₁.fc2 q false), if b then some (ext.pdos (ext.mesh c₂.fc2 q true)) else none⟩,
    h1, ?_, hf, ?_, hf, hda, rfl, ?_⟩
  · rw [steps_append, h1]
    exact h2
  · simp [save, orErr, hd, hm, bind, Except.bind, pure, Except.pure]
  · rw [hf]

/-- C109 (frequencies).  Whatever has been calculated before, frequencies that are asked for are those of the current force
constants on the mesh of the call, or on the mesh of the parameters if the call has none; the force constants are kept, and
imaginary modes are those of the same frequencies. -/
theorem C109_frequencies (ext : Ext FC Ms M D P) (q : Ms) (c : Core FC M) (l : List (Step FC Ms)) (q' : Option Ms) (k : Ms)
    (hk : q' = some k ∨ q' = none ∧ k = q) :
    ∃ c₁ c₂, steps ext q c l = .ok c₁ ∧ steps ext q c (l ++ [.frequencies q']) = .ok c₂ ∧ c₂.fc2 = c₁.fc2 ∧
      c₂.data.map (·.temp) = c₁.data.map (·.temp) ∧
      frequencies ext c₂.recip = some (ext.freq (ext.mesh c₁.fc2 k false)) ∧
      ∃ b, isImaginary c₂.recip = .ok b ∧ (b = true ↔ ManyImaginary (ext.freq (ext.mesh c₁.fc2 k false))) := by
  obtain ⟨c₁, h1⟩ := steps_ok ext q l c
  have hq : q'.getD q = k := by
    rcases hk with rfl | ⟨rfl, rfl⟩ <;> rfl
  obtain ⟨c₂, h2, h3, h4, h5, h6⟩ : ∃ c₂, step ext q c₁ (.frequencies q') = .ok c₂ ∧ c₂.fc2 = c₁.fc2 ∧
      c₂.data.map (·.temp) = c₁.data.map (·.temp) ∧
      frequencies ext c₂.recip = some (ext.freq (ext.mesh c₁.fc2 k false)) ∧
      ∃ b, isImaginary c₂.recip = .ok b ∧ (b = true ↔ ManyImaginary (ext.freq (ext.mesh c₁.fc2 k false))) := by
    unfold step
    dsimp only
    rw [hq]
    refine ⟨_, rfl, rfl, rfl, rfl, _, rfl, ?_⟩
    rw [decide_eq_true_iff]
    exact imaginary_iff _
  refine ⟨c₁, c₂, h1, ?_, h3, h4, h5, h6⟩
  rw [steps_append, h1]
  exact h2

/-- C109 fails: if a calculation ends without convergence, with an iteration, the density of states (and all properties)
belong to other force constants than those that are saved; the projected one belongs to the saved ones. -/
theorem C109_unconverged_violation :
    ∃ (ext : Ext ℕ Unit (ℕ × Bool) ℕ ℕ) (l : List (Step ℕ Unit)) (c : Core ℕ (ℕ × Bool)) (x : Files ℕ ℕ ℕ),
      steps ext () ⟨1, .new, none⟩ l = .ok c ∧ save ext () c true = .ok x ∧ x.fc2 = c.fc2 ∧
      x.dos ≠ ext.dos (ext.mesh c.fc2 () false) ∧ x.pdos = some (ext.pdos (ext.mesh c.fc2 () true)) := by
  refine ⟨⟨fun f _ b => (f, b), fun _ => [], fun m _ => m, fun _ _ => ⟨0, 0, 0⟩, fun m => m.1, fun m => m.1⟩,
    [.single 300 2], _, _, rfl, rfl, rfl, ?_, rfl⟩
  decide

/-- C109 fails: removing the force constants leaves them in the phonopy object, and thermal properties are computed from
them. -/
theorem C109_removed_violation (ext : Ext FC Ms M D P) (r : Recip FC M) (f : FC) (temp : ℝ) (q : Ms) :
    ∃ r', (setFc (setFc r (some f)) none).fc2 = none ∧
      computeThermal ext (setFc (setFc r (some f)) none) temp q false =
        .ok (r', (ext.thermal (ext.mesh f q false) temp).free, none) := ⟨_, rfl, rfl⟩

/-- C109 fails: after new force constants and thermal properties `frequencies` are still those of the last call of
`compute_mesh_properties`, while imaginary modes are those of the new force constants. -/
theorem C109_frequencies_violation :
    ∃ (ext : Ext ℝ Unit ℝ ℕ ℕ) (r r' : Recip ℝ ℝ) (a b : ℝ), computeMesh ext (setFc .new (some a)) () = .ok r ∧
      (computeThermal ext (setFc r (some b)) 300 () false).map (·.1) = .ok r' ∧ frequencies ext r' = some [a] ∧ 0 < a ∧
      isImaginary r' = .ok true := by
  refine ⟨⟨fun f _ _ => f, fun m => [m], fun m _ => m, fun _ _ => ⟨0, 0, 0⟩, fun _ => 0, fun _ => 0⟩, _, _, 1, -1, rfl,
    rfl, rfl, one_pos, ?_⟩
  have h : ManyImaginary [-1] := ⟨[-1], List.Sublist.refl _, by norm_num, by norm_num⟩
  have := (imaginary_iff [-1]).2 h
  simp only [isImaginary, Except.ok.injEq, decide_eq_true_iff]
  exact this

end Verif.Recip
