import Verif.Spec.Accuracy
import Verif.Lemmas.Dict
import Mathlib.Tactic.Ring
import Mathlib.Tactic.FieldSimp
import Mathlib.Tactic.Linarith
import Mathlib.Algebra.Order.BigOperators.Group.List
import Mathlib.Data.Fin.VecNotation

/-! # C79: prediction errors -/

namespace Verif.Accuracy

open Verif.Spec

variable {S : Type}

/-! ## Means -/

theorem zipArr_ok (f : ℝ → ℝ → ℝ) {a b : List ℝ} (h : a.length = b.length) : zipArr f a b = .ok (List.zipWith f a b) := by
  unfold zipArr; rw [if_pos h]

theorem computeRmse_some (t p n : List ℝ) (h1 : t.length = n.length) (h2 : p.length = n.length) :
    computeRmse t p (some n) = .ok (Real.sqrt (mean ((List.zipWith (· - ·) (List.zipWith (· / ·) t n)
      (List.zipWith (· / ·) p n)).map fun x => x ^ 2)), List.zipWith (· / ·) t n, List.zipWith (· / ·) p n) := by
  unfold computeRmse rmse
  simp only [normalized, zipArr_ok _ h1, zipArr_ok _ h2, bind, Except.bind, pure, Except.pure]
  rw [zipArr_ok _ (by simp [h1, h2])]

theorem computeMae_some (t p n : List ℝ) (h1 : t.length = n.length) (h2 : p.length = n.length) :
    computeMae t p (some n) = .ok (mean ((List.zipWith (· - ·) (List.zipWith (· / ·) t n)
      (List.zipWith (· / ·) p n)).map fun x => |x|)) := by
  unfold computeMae
  simp only [normalized, zipArr_ok _ h1, zipArr_ok _ h2, bind, Except.bind, pure, Except.pure]
  rw [zipArr_ok _ (by simp [h1, h2])]

theorem computeRmse_none (t p : List ℝ) (h : t.length = p.length) :
    computeRmse t p none = .ok (Real.sqrt (mean ((List.zipWith (· - ·) t p).map fun x => x ^ 2)), t, p) := by
  unfold computeRmse rmse
  simp only [normalized, zipArr_ok _ h, bind, Except.bind, pure, Except.pure]

theorem computeMae_none (t p : List ℝ) (h : t.length = p.length) :
    computeMae t p none = .ok (mean ((List.zipWith (· - ·) t p).map fun x => |x|)) := by
  unfold computeMae
  simp only [normalized, zipArr_ok _ h, bind, Except.bind, pure, Except.pure]

/-- The square of a sum of absolute values is at most the number of terms times the sum of squares. -/
theorem sum_abs_sq (l : List ℝ) : ((l.map fun x => |x|).sum) ^ 2 ≤ l.length * (l.map fun x => x ^ 2).sum := by
  rcases Nat.eq_zero_or_pos l.length with h0 | hpos
  · have : l = [] := List.length_eq_zero_iff.1 h0
    subst this
    simp
  have e : ∀ t : ℝ, (l.map fun x => (|x| - t) ^ 2).sum =
      (l.map fun x => x ^ 2).sum - 2 * t * (l.map fun x => |x|).sum + t * t * l.length := by
    intro t
    clear hpos
    induction l with
    | nil => simp
    | cons p l ih =>
      simp only [List.map_cons, List.sum_cons, List.length_cons]
      rw [ih]
      push_cast
      rw [← sq_abs p]
      ring
  have hp : (0 : ℝ) < l.length := by exact_mod_cast hpos
  have h : 0 ≤ (l.map fun x => (|x| - (l.map fun x => |x|).sum / l.length) ^ 2).sum := List.sum_nonneg (by
    intro x hx
    obtain ⟨p, -, rfl⟩ := List.mem_map.1 hx
    exact sq_nonneg _)
  rw [e] at h
  have h3 := mul_nonneg hp.le h
  have : (l.length : ℝ) * ((l.map fun x => x ^ 2).sum - 2 * ((l.map fun x => |x|).sum / l.length) * (l.map fun x => |x|).sum +
      (l.map fun x => |x|).sum / l.length * ((l.map fun x => |x|).sum / l.length) * l.length) =
      l.length * (l.map fun x => x ^ 2).sum - (l.map fun x => |x|).sum ^ 2 := by
    field_simp
    ring
  linarith

theorem mean_abs_le (l : List ℝ) : mean (l.map fun x => |x|) ≤ Real.sqrt (mean (l.map fun x => x ^ 2)) := by
  apply Real.le_sqrt_of_sq_le
  unfold mean
  simp only [List.length_map]
  rcases Nat.eq_zero_or_pos l.length with h0 | hpos
  · have : l = [] := List.length_eq_zero_iff.1 h0
    subst this
    simp
  have hp : (0 : ℝ) < l.length := by exact_mod_cast hpos
  rw [div_pow, div_le_div_iff₀ (by positivity) hp]
  have := mul_le_mul_of_nonneg_right (sum_abs_sq l) hp.le
  calc _ ≤ _ := this
    _ = _ := by ring

/-! ## Shapes of arrays -/

theorem zip_normalized (g : Str S → ℝ) (w : Str S → ℝ) (es : List ℝ) (strs : List (Str S)) :
    List.zipWith (· - ·) (List.zipWith (· / ·) es (strs.map w)) (List.zipWith (· / ·) (strs.map g) (strs.map w)) =
      (es.zip strs).map fun q => (q.1 - g q.2) / w q.2 := by
  induction strs generalizing es with
  | nil => simp
  | cons st strs ih =>
    cases es with
    | nil => simp
    | cons e es =>
      simp only [List.map_cons, List.zipWith_cons_cons, List.zip_cons_cons]
      rw [ih, sub_div]

/-- Components of a force. -/
def flat3 (v : Fin 3 → ℝ) : List ℝ := [v 0, v 1, v 2]

/-- Components of a stress. -/
def flat6 (s : Fin 6 → ℝ) : List ℝ := [s 0, s 1, s 2, s 3, s 4, s 5]

theorem zip_flat3 (f g : List (Fin 3 → ℝ)) (h : f.length = g.length) (k : ℝ → ℝ) :
    ((List.zipWith (· - ·) (f.flatMap flat3) (g.flatMap flat3)).map k).sum =
      ((f.zip g).map fun q => k (q.1 0 - q.2 0) + k (q.1 1 - q.2 1) + k (q.1 2 - q.2 2)).sum := by
  induction f generalizing g with
  | nil => simp
  | cons a f ih =>
    cases g with
    | nil => simp at h
    | cons b g =>
      simp only [List.flatMap_cons, flat3, List.cons_append, List.nil_append, List.zipWith_cons_cons, List.map_cons, List.sum_cons,
        List.zip_cons_cons]
      have := ih g (by simpa using h)
      rw [this]
      ring

theorem flatMap_flat3_length (f : List (Fin 3 → ℝ)) : (f.flatMap flat3).length = 3 * f.length := by
  induction f with
  | nil => rfl
  | cons a f ih => simp only [List.flatMap_cons, List.length_append, ih, List.length_cons, flat3, List.length_nil]; omega

theorem zip_forces (fs : List (List (Fin 3 → ℝ))) (ps : List Pred)
    (h : List.Forall₂ (fun f p => f.length = p.forces.length) fs ps) (k : ℝ → ℝ) :
    ((List.zipWith (· - ·) (fs.flatMap fun f => f.flatMap flat3) (ps.flatMap fun p => p.forces.flatMap flat3)).map k).sum =
      ((fs.zip ps).map fun q => ((q.1.zip q.2.forces).map fun r =>
        k (r.1 0 - r.2 0) + k (r.1 1 - r.2 1) + k (r.1 2 - r.2 2)).sum).sum ∧
    (fs.flatMap fun f => f.flatMap flat3).length = (ps.flatMap fun p => p.forces.flatMap flat3).length ∧
    (fs.flatMap fun f => f.flatMap flat3).length = 3 * (fs.map List.length).sum := by
  induction h with
  | nil => simp
  | @cons f p fs ps hfp _ ih =>
    obtain ⟨i1, i2, i3⟩ := ih
    have hlen : (f.flatMap flat3).length = (p.forces.flatMap flat3).length := by
      rw [flatMap_flat3_length, flatMap_flat3_length, hfp]
    refine ⟨?_, ?_, ?_⟩
    · rw [List.flatMap_cons, List.flatMap_cons, List.zipWith_append hlen, List.map_append, List.sum_append, i1,
        zip_flat3 f p.forces hfp, List.zip_cons_cons, List.map_cons, List.sum_cons]
    · rw [List.flatMap_cons, List.flatMap_cons, List.length_append, List.length_append, hlen, i2]
    · rw [List.flatMap_cons, List.length_append, i3, flatMap_flat3_length, List.map_cons, List.sum_cons]
      omega

theorem flatMap_flat6_length (ss : List (Fin 6 → ℝ)) : (ss.flatMap flat6).length = 6 * ss.length := by
  induction ss with
  | nil => rfl
  | cons a f ih => simp only [List.flatMap_cons, List.length_append, ih, List.length_cons, flat6, List.length_nil]; omega

theorem zip_stress (w : Str S → ℝ) (g : Str S → Fin 6 → ℝ) (strs : List (Str S)) (ss : List (Fin 6 → ℝ))
    (h : ss.length = strs.length) (k : ℝ → ℝ) :
    ((List.zipWith (· - ·) (List.zipWith (· / ·) (ss.flatMap flat6) (strs.flatMap fun st => List.replicate 6 (w st)))
      (List.zipWith (· / ·) (strs.flatMap fun st => flat6 (g st)) (strs.flatMap fun st => List.replicate 6 (w st)))).map k).sum =
      ((ss.zip strs).map fun q => k ((q.1 0 - g q.2 0) / w q.2) + k ((q.1 1 - g q.2 1) / w q.2) +
        k ((q.1 2 - g q.2 2) / w q.2) + k ((q.1 3 - g q.2 3) / w q.2) + k ((q.1 4 - g q.2 4) / w q.2) +
        k ((q.1 5 - g q.2 5) / w q.2)).sum := by
  induction strs generalizing ss with
  | nil => simp
  | cons st strs ih =>
    cases ss with
    | nil => simp at h
    | cons s ss =>
      have := ih ss (by simpa using h)
      simp only [flat6, List.replicate] at this
      simp only [List.flatMap_cons, flat6, List.replicate, List.cons_append, List.nil_append, List.zipWith_cons_cons,
        List.map_cons, List.sum_cons, List.zip_cons_cons, this, sub_div]
      ring

/-! ## The dictionary of errors -/

/-- Values of `evaluate`. -/
theorem evaluate_spec (eval : S → Pred) (d : DataSet S) (fs : List (List (Fin 3 → ℝ))) (ss : List (Fin 6 → ℝ)) (unit : String)
    (direction : Bool) (w : Str S → ℝ) (ha : Aligned eval d fs ss)
    (hw : unit = "eV" ∧ w = (fun st => (st.nAtoms.sum : ℝ)) ∨
      unit = "GPa" ∧ w = fun st => st.volume / (16021766208 / 100000000)) :
    ∃ r, evaluate eval d unit direction = .ok r ∧
      r.errors.energy = Real.sqrt (energyMean eval d fun x => x ^ 2) ∧ r.errors.energyMae = energyMean eval d (fun x => |x|) ∧
      r.errors.force = (if d.existForce then some (Real.sqrt (forceMean eval d fs fun x => x ^ 2)) else none) ∧
      r.errors.forceMae = (if d.existForce then some (forceMean eval d fs fun x => |x|) else none) ∧
      r.errors.stress = (if d.existStress then some (Real.sqrt (stressMean eval d ss w fun x => x ^ 2)) else none) ∧
      r.errors.stressMae = (if d.existStress then some (stressMean eval d ss w fun x => |x|) else none) ∧
      r.trueE = List.zipWith (· / ·) d.energies (d.structures.map fun st => (st.nAtoms.sum : ℝ)) ∧
      r.predE = List.zipWith (· / ·) (d.structures.map fun st => (eval st.input).energy)
        (d.structures.map fun st => (st.nAtoms.sum : ℝ)) ∧
      r.force.isSome = d.existForce ∧ r.stress.isSome = d.existStress ∧
      (r.errors.forceMae.getD 0 ≤ r.errors.force.getD 0) ∧ (r.errors.stressMae.getD 0 ≤ r.errors.stress.getD 0) ∧
      r.errors.energyMae ≤ r.errors.energy := by
  have he := ha.energies
  have hE : ∀ k : ℝ → ℝ, mean ((List.zipWith (· - ·)
      (List.zipWith (· / ·) d.energies (d.structures.map fun st => (st.nAtoms.sum : ℝ)))
      (List.zipWith (· / ·) ((d.structures.map fun st => eval st.input).map Pred.energy)
        (d.structures.map fun st => (st.nAtoms.sum : ℝ)))).map k) = energyMean eval d k := by
    intro k
    have e1 : (d.structures.map fun st => eval st.input).map Pred.energy = d.structures.map fun st => (eval st.input).energy := by
      rw [List.map_map]; rfl
    rw [e1, zip_normalized (fun st => (eval st.input).energy) (fun st => (st.nAtoms.sum : ℝ))]
    unfold mean energyMean
    rw [List.map_map]
    simp [he]
    rfl
  have hF : d.existForce = true → d.forces.length = ((d.structures.map fun st => eval st.input).flatMap
        fun p => p.forces.flatMap fun v => [v 0, v 1, v 2]).length ∧ ∀ k : ℝ → ℝ, mean ((List.zipWith (· - ·) d.forces
      ((d.structures.map fun st => eval st.input).flatMap fun p => p.forces.flatMap fun v => [v 0, v 1, v 2])).map k) =
        forceMean eval d fs k := by
    intro h
    obtain ⟨e, h2⟩ := ha.forces h
    have h2' : List.Forall₂ (fun f (p : Pred) => f.length = p.forces.length) fs (d.structures.map fun st => eval st.input) := by
      rw [List.forall₂_map_right_iff]
      exact h2
    have z := zip_forces fs _ h2'
    have z2 := (z id).2
    have e' : d.forces = fs.flatMap fun f => f.flatMap flat3 := e
    refine ⟨by rw [e']; exact z2.1, fun k => ?_⟩
    have z1 := (z k).1
    unfold mean forceMean
    rw [e']
    change ((List.zipWith (· - ·) (fs.flatMap fun f => f.flatMap flat3)
      ((d.structures.map fun st => eval st.input).flatMap fun p => p.forces.flatMap flat3)).map k).sum / _ = _
    rw [z1, List.length_map, List.length_zipWith]
    have : min (fs.flatMap fun f => f.flatMap flat3).length
        ((d.structures.map fun st => eval st.input).flatMap fun p => p.forces.flatMap fun v => [v 0, v 1, v 2]).length =
        3 * (fs.map List.length).sum := by
      rw [← z2.2]
      have := z2.1
      change _ = ((d.structures.map fun st => eval st.input).flatMap fun p => p.forces.flatMap fun v => [v 0, v 1, v 2]).length at this
      omega
    rw [this, List.zip_map_right, List.map_map]
    rfl
  have hS : d.existStress = true → stressNormalize unit d.structures = some (d.structures.flatMap fun st => List.replicate 6 (w st)) ∧
      d.stresses.length = (d.structures.flatMap fun st => List.replicate 6 (w st)).length ∧
      ((d.structures.map fun st => eval st.input).flatMap
        fun p => [p.stress 0, p.stress 1, p.stress 2, p.stress 3, p.stress 4, p.stress 5]).length =
        (d.structures.flatMap fun st => List.replicate 6 (w st)).length ∧
      ∀ k : ℝ → ℝ, mean ((List.zipWith (· - ·) (List.zipWith (· / ·) d.stresses
          (d.structures.flatMap fun st => List.replicate 6 (w st)))
        (List.zipWith (· / ·) ((d.structures.map fun st => eval st.input).flatMap
          fun p => [p.stress 0, p.stress 1, p.stress 2, p.stress 3, p.stress 4, p.stress 5])
          (d.structures.flatMap fun st => List.replicate 6 (w st)))).map k) = stressMean eval d ss w k := by
    intro h
    obtain ⟨e, h2⟩ := ha.stresses h
    have e' : d.stresses = ss.flatMap flat6 := e
    have eg : ((d.structures.map fun st => eval st.input).flatMap
        fun p => [p.stress 0, p.stress 1, p.stress 2, p.stress 3, p.stress 4, p.stress 5]) =
        d.structures.flatMap fun st => flat6 ((fun st => (eval st.input).stress) st) := by
      rw [List.flatMap_map]
      rfl
    have hl1 : d.stresses.length = 6 * d.structures.length := by rw [e', flatMap_flat6_length, h2]
    have hl2 : (d.structures.flatMap fun st => List.replicate 6 (w st)).length = 6 * d.structures.length := by
      rw [List.length_flatMap]
      simp [mul_comm]
    have hl3 : (d.structures.flatMap fun st => flat6 ((fun st => (eval st.input).stress) st)).length = 6 * d.structures.length := by
      rw [List.length_flatMap]
      simp [mul_comm, flat6]
    refine ⟨?_, by rw [hl1, hl2], by rw [eg, hl3, hl2], fun k => ?_⟩
    · unfold stressNormalize
      rcases hw with ⟨rfl, rfl⟩ | ⟨rfl, rfl⟩
      · rw [if_pos rfl]
      · rw [if_neg (by decide), if_pos rfl]
    · unfold mean stressMean
      rw [eg, List.length_map, List.length_zipWith, List.length_zipWith, List.length_zipWith, hl1, hl2, hl3, e',
        zip_stress w (fun st => (eval st.input).stress) d.structures ss h2 k]
      simp
  have hfp : ∃ f, forcePart d ((d.structures.map fun st => eval st.input).flatMap
        fun p => p.forces.flatMap fun v => [v 0, v 1, v 2]) direction = .ok f ∧
      f.map (fun x => x.1) = (if d.existForce then some (Real.sqrt (forceMean eval d fs fun x => x ^ 2)) else none) ∧
      f.map (fun x => x.2.1) = (if d.existForce then some (forceMean eval d fs fun x => |x|) else none) ∧
      f.isSome = d.existForce := by
    unfold forcePart
    by_cases h : d.existForce = true
    · obtain ⟨h1, h2⟩ := hF h
      rw [if_neg (by simp [h])]
      rw [computeRmse_none _ _ h1, computeMae_none _ _ h1]
      exact ⟨_, rfl, by simp only [Option.map_some, h, if_true]; rw [h2], by simp only [Option.map_some, h, if_true]; rw [h2],
        by simp [h]⟩
    · simp only [Bool.not_eq_true] at h
      rw [if_pos h]
      exact ⟨none, rfl, by simp [h], by simp [h], by simp [h]⟩
  have hsp : ∃ f, stressPart d ((d.structures.map fun st => eval st.input).flatMap
        fun p => [p.stress 0, p.stress 1, p.stress 2, p.stress 3, p.stress 4, p.stress 5]) unit = .ok f ∧
      f.map (fun x => x.1) = (if d.existStress then some (Real.sqrt (stressMean eval d ss w fun x => x ^ 2)) else none) ∧
      f.map (fun x => x.2.1) = (if d.existStress then some (stressMean eval d ss w fun x => |x|) else none) ∧
      f.isSome = d.existStress := by
    unfold stressPart
    by_cases h : d.existStress = true
    · obtain ⟨h0, h1, h1', h2⟩ := hS h
      rw [if_neg (by simp [h]), h0]
      dsimp only
      rw [computeRmse_some _ _ _ h1 h1', computeMae_some _ _ _ h1 h1']
      exact ⟨_, rfl, by simp only [Option.map_some, h, if_true]; rw [h2], by simp only [Option.map_some, h, if_true]; rw [h2],
        by simp [h]⟩
    · simp only [Bool.not_eq_true] at h
      rw [if_pos h]
      exact ⟨none, rfl, by simp [h], by simp [h], by simp [h]⟩
  obtain ⟨f, hf, f1, f2, f3⟩ := hfp
  obtain ⟨s, hs, s1, s2, s3⟩ := hsp
  have hle : ∀ (l : List ℝ) (M : (ℝ → ℝ) → ℝ), (∀ k, mean (l.map k) = M k) → M (fun x => |x|) ≤ Real.sqrt (M fun x => x ^ 2) := by
    intro l M h
    rw [← h, ← h]
    exact mean_abs_le l
  unfold evaluate
  dsimp only
  rw [computeRmse_some _ _ _ (by simp [he]) (by simp), computeMae_some _ _ _ (by simp [he]) (by simp)]
  simp only [bind, Except.bind, pure, Except.pure]
  rw [hf]
  dsimp only
  rw [hs]
  dsimp only
  refine ⟨_, rfl, ?_, ?_, f1, f2, s1, s2, rfl, ?_, ?_, ?_, ?_, ?_, ?_⟩
  · rw [hE]
  · exact hE _
  · dsimp only
    rw [List.map_map]
    rfl
  · simpa using f3
  · simpa using s3
  · dsimp only
    rw [f1, f2]
    by_cases h : d.existForce = true
    · simp only [h, if_true, Option.getD_some]
      exact hle _ _ (hF h).2
    · simp [h]
  · dsimp only
    rw [s1, s2]
    by_cases h : d.existStress = true
    · simp only [h, if_true, Option.getD_some]
      exact hle _ _ (hS h).2.2.2
    · simp [h]
  · dsimp only
    rw [hE, hE]
    exact hle _ _ hE

/-- `compute_error_single` for files that can be written. -/
theorem single_ok (eval : S → Pred) (d : DataSet S) (key : List Char) (unit : String) (logs : Logs) (path : List Char)
    (direction : Bool) (files : Files) (r : Result) (h : evaluate eval d unit direction = .ok r)
    (hf : logs.force = true → r.force.isSome = true) (hs : logs.stress = true → r.stress.isSome = true) :
    (computeErrorSingle eval d key unit logs path direction files).2 = .ok r.errors := by
  unfold computeErrorSingle
  rw [h]
  dsimp only
  generalize (if logs.energy = true then _ else _ : Files) = fs1
  have hw : ∀ (kind : List Char) (log : Bool) (v : Option (List ℝ × List ℝ)) (fs : Files), (log = true → v.isSome = true) →
      ∃ fs', writeValues path kind key log v fs = (fs', none) := by
    intro kind log v fs hv
    unfold writeValues
    cases log with
    | false => exact ⟨fs, rfl⟩
    | true =>
      obtain ⟨v, rfl⟩ := Option.isSome_iff_exists.1 (hv rfl)
      exact ⟨_, rfl⟩
  obtain ⟨fs2, e2⟩ := hw "force".toList logs.force r.force fs1 hf
  obtain ⟨fs3, e3⟩ := hw "stress".toList logs.stress r.stress fs2 hs
  rw [e2]
  dsimp only
  rw [e3]

/-- **C79**: the reported errors are the root-mean-square and mean absolute deviations of the energies per atom, of all
components of all forces, and of all components of all stresses per atom (`eV`) or per volume (`GPa`).  Errors of forces
and stresses are absent exactly if the data set has none. -/
theorem C79_errors (eval : S → Pred) (d : DataSet S) (fs : List (List (Fin 3 → ℝ))) (ss : List (Fin 6 → ℝ)) (key : List Char)
    (unit : String) (logs : Logs) (path : List Char) (direction : Bool) (files : Files) (w : Str S → ℝ)
    (ha : Aligned eval d fs ss)
    (hw : unit = "eV" ∧ w = (fun st => (st.nAtoms.sum : ℝ)) ∨
      unit = "GPa" ∧ w = fun st => st.volume / (16021766208 / 100000000))
    (hf : logs.force = true → d.existForce = true) (hs : logs.stress = true → d.existStress = true) :
    ∃ e, (computeErrorSingle eval d key unit logs path direction files).2 = .ok e ∧
      e.energy = Real.sqrt (energyMean eval d fun x => x ^ 2) ∧ e.energyMae = energyMean eval d (fun x => |x|) ∧
      e.force = (if d.existForce then some (Real.sqrt (forceMean eval d fs fun x => x ^ 2)) else none) ∧
      e.forceMae = (if d.existForce then some (forceMean eval d fs fun x => |x|) else none) ∧
      e.stress = (if d.existStress then some (Real.sqrt (stressMean eval d ss w fun x => x ^ 2)) else none) ∧
      e.stressMae = (if d.existStress then some (stressMean eval d ss w fun x => |x|) else none) ∧
      e.energyMae ≤ e.energy ∧ e.forceMae.getD 0 ≤ e.force.getD 0 ∧ e.stressMae.getD 0 ≤ e.stress.getD 0 := by
  obtain ⟨r, hr, h1, h2, h3, h4, h5, h6, -, -, h7, h8, h9, h10, h11⟩ := evaluate_spec eval d fs ss unit direction w ha hw
  exact ⟨r.errors, single_ok eval d key unit logs path direction files r hr (fun h => by rw [h7]; exact hf h)
    (fun h => by rw [h8]; exact hs h), h1, h2, h3, h4, h5, h6, h11, h9, h10⟩

theorem sqrt_mean_zero {α : Type} (l : List α) (g : α → ℝ) (n : ℕ) (hn : 0 < n) (h0 : ∀ a ∈ l, 0 ≤ g a) :
    Real.sqrt ((l.map g).sum / n) = 0 ↔ ∀ a ∈ l, g a = 0 := by
  have hs : 0 ≤ (l.map g).sum := List.sum_nonneg (by
    intro x hx
    obtain ⟨a, ha, rfl⟩ := List.mem_map.1 hx
    exact h0 a ha)
  rw [Real.sqrt_eq_zero (by positivity), div_eq_zero_iff]
  have hn' : (n : ℝ) ≠ 0 := by positivity
  simp only [hn', or_false]
  constructor
  · intro h a ha
    have h1 : g a ≤ (l.map g).sum := List.single_le_sum (by
      intro x hx
      obtain ⟨b, hb, rfl⟩ := List.mem_map.1 hx
      exact h0 b hb) _ (List.mem_map.2 ⟨a, ha, rfl⟩)
    exact le_antisymm (h ▸ h1) (h0 a ha)
  · intro h
    apply List.sum_eq_zero
    intro x hx
    obtain ⟨a, ha, rfl⟩ := List.mem_map.1 hx
    exact h a ha

/-- **C79**: the error of energies is zero exactly if all energies are predicted exactly. -/
theorem C79_exact (eval : S → Pred) (d : DataSet S) (fs : List (List (Fin 3 → ℝ))) (ss : List (Fin 6 → ℝ)) (key : List Char)
    (path : List Char) (files : Files) (logs : Logs) (ha : Aligned eval d fs ss) (hne : d.structures ≠ [])
    (hn : ∀ st ∈ d.structures, 0 < st.nAtoms.sum)
    (hf : logs.force = true → d.existForce = true) (hs : logs.stress = true → d.existStress = true) :
    ∃ e, (computeErrorSingle eval d key "eV" logs path false files).2 = .ok e ∧
      (e.energy = 0 ↔ d.energies = d.structures.map fun st => (eval st.input).energy) := by
  obtain ⟨e, he, h1, -⟩ := C79_errors eval d fs ss key "eV" logs path false files _ ha (Or.inl ⟨rfl, rfl⟩) hf hs
  refine ⟨e, he, ?_⟩
  rw [h1]
  unfold energyMean
  rw [sqrt_mean_zero _ _ _ (List.length_pos_iff.2 hne) fun a _ => sq_nonneg _]
  have hlen := ha.energies
  generalize d.energies = es at *
  generalize d.structures = strs at *
  clear hne h1 he ha
  induction strs generalizing es with
  | nil =>
    have : es = [] := List.length_eq_zero_iff.1 hlen
    simp [this]
  | cons st strs ih =>
    cases es with
    | nil => simp at hlen
    | cons x es =>
      have hp : (st.nAtoms.sum : ℝ) ≠ 0 := by
        have := hn st (by simp)
        exact_mod_cast this.ne'
      have hi := ih es (fun s hs => hn s (List.mem_cons_of_mem _ hs)) (by simpa using hlen)
      simp only [List.zip_cons_cons, List.mem_cons, forall_eq_or_imp, List.map_cons, List.cons.injEq]
      refine and_congr ?_ hi
      rw [pow_eq_zero_iff (by norm_num), div_eq_zero_iff]
      simp only [hp, or_false]
      exact sub_eq_zero

/-! ## Names of files -/

theorem replace_of_not_infix (pat rep s : List Char) (h : ¬ pat <:+: s) : replace pat rep s = s := by
  unfold replace
  induction s with
  | nil => rfl
  | cons c s ih =>
    have hp : ¬ pat.isPrefixOf (c :: s) = true := by
      rw [List.isPrefixOf_iff_prefix]
      intro hp
      exact h hp.isInfix
    simp only [replaceGo]
    rw [if_neg hp, ih fun hi => h (hi.trans (List.suffix_cons c s).isInfix)]

theorem replace_of_not_mem (a : Char) (pat rep s : List Char) (ha : a ∈ pat) (h : a ∉ s) : replace pat rep s = s :=
  replace_of_not_infix pat rep s fun hi => h (hi.subset ha)

/-- **C79**: a name without the characters `*`, `.`, `/` and without double hyphens is kept, so that data sets with
different names of this kind have different files. -/
theorem C79_keys (name tag : List Char) (h1 : '*' ∉ name) (h2 : '.' ∉ name) (h3 : '/' ∉ name)
    (h4 : ¬ ['-', '-'] <:+: tag ++ '-' :: name) : outputKey name tag = tag ++ '-' :: name := by
  unfold outputKey
  dsimp only
  rw [replace_of_not_mem '*' ['*'] _ _ (by simp) h1, replace_of_not_mem '.' ['.', '.', '/'] _ _ (by simp) h2,
    replace_of_not_mem '.' ['.'] _ _ (by simp) h2, replace_of_not_mem '/' ['/'] _ _ (by simp) h3,
    replace_of_not_infix ['-', '-', '-'] _ _ fun h => h4 (List.IsInfix.trans ⟨[], ['-'], rfl⟩ h),
    replace_of_not_infix ['-', '-'] _ _ h4]

example : outputKey "vasprun-ordered".toList "train".toList = "train-vasprun-ordered".toList ∧
    outputKey "data/vasprun-*.xml".toList "test".toList = "test-data-vasprun-xml".toList := by decide +kernel

theorem fileName_inj {path kind key kind' key' : List Char} (hk : kind = kind' → key ≠ key')
    (hd : kind ≠ kind' → kind.head? ≠ kind'.head?) (h1 : kind ≠ []) (h2 : kind' ≠ []) :
    fileName path kind key ≠ fileName path kind' key' := by
  intro h
  unfold fileName at h
  simp only [List.append_assoc] at h
  have h := List.append_cancel_left (List.append_cancel_left h)
  by_cases e : kind = kind'
  · subst e
    have h := List.append_cancel_left h
    have h : key ++ ".dat".toList = key' ++ ".dat".toList := by simpa using h
    exact hk rfl (List.append_cancel_right h)
  · apply hd e
    cases kind with
    | nil => exact absurd rfl h1
    | cons a k =>
      cases kind' with
      | nil => exact absurd rfl h2
      | cons b k' =>
        simp only [List.cons_append, List.cons.injEq] at h
        simp [h.1]

/-- What `compute_error_single` does with the files of energies. -/
theorem single_files (eval : S → Pred) (d : DataSet S) (key : List Char) (unit : String) (logs : Logs) (path : List Char)
    (direction : Bool) (files : Files) (r : Result) (h : evaluate eval d unit direction = .ok r) (key' : List Char) :
    (computeErrorSingle eval d key unit logs path direction files).1.get? (fileName path "energy".toList key') =
      if logs.energy = true ∧ key' = key then some (energyRows r.trueE r.predE d.files)
      else files.get? (fileName path "energy".toList key') := by
  have hw : ∀ (kind : List Char) (log : Bool) (v : Option (List ℝ × List ℝ)) (fs : Files), kind ≠ [] →
      kind.head? ≠ some 'e' → (writeValues path kind key log v fs).1.get? (fileName path "energy".toList key') =
        fs.get? (fileName path "energy".toList key') := by
    intro kind log v fs hk he
    unfold writeValues
    cases log with
    | false => rfl
    | true =>
      cases v with
      | none => rfl
      | some v =>
        simp only [Bool.true_eq_false, if_false]
        rw [Dict.get?_set, if_neg]
        apply fileName_inj
        · rintro rfl
          exact absurd rfl he
        · intro _ h2
          exact he (by rw [← h2]; rfl)
        · decide
        · exact hk
  have h1 : (if logs.energy = true then files.set (fileName path "energy".toList key) (energyRows r.trueE r.predE d.files)
      else files).get? (fileName path "energy".toList key') =
      if logs.energy = true ∧ key' = key then some (energyRows r.trueE r.predE d.files)
      else files.get? (fileName path "energy".toList key') := by
    by_cases hl : logs.energy = true
    · rw [if_pos hl, Dict.get?_set]
      by_cases hk : key' = key
      · subst hk
        rw [if_pos rfl, if_pos ⟨hl, rfl⟩]
      · rw [if_neg, if_neg fun h => hk h.2]
        exact fileName_inj (fun _ => hk) (fun h => absurd rfl h) (by decide) (by decide)
    · rw [if_neg hl, if_neg fun h => hl h.1]
  unfold computeErrorSingle
  rw [h]
  dsimp only
  rw [← h1]
  generalize (if logs.energy = true then files.set _ _ else files : Files) = fs1
  have a := hw "force".toList logs.force r.force fs1 (by decide) (by decide)
  rw [← a]
  generalize writeValues path "force".toList key logs.force r.force fs1 = p2
  obtain ⟨fs2, o2⟩ := p2
  cases o2 with
  | some e => rfl
  | none =>
    dsimp only
    have b := hw "stress".toList logs.stress r.stress fs2 (by decide) (by decide)
    rw [← b]
    generalize writeValues path "stress".toList key logs.stress r.stress fs2 = p3
    obtain ⟨fs3, o3⟩ := p3
    cases o3 <;> rfl

/-- The loop over data sets, from any state. -/
theorem computeError_spec (eval : S → Pred) (unit : String) (logs : Logs) (path tag : List Char) :
    ∀ (ds : List (DataSet S)) (files : Files) (errs : Dict (List Char) Errors) (files' : Files) (errs' : Dict (List Char) Errors),
    computeError eval unit logs path tag ds files errs = (files', .ok errs') →
    (∀ n, n ∉ ds.map DataSet.name → errs'.get? n = errs.get? n) ∧
    (∀ k, k ∉ ds.map (fun d => outputKey d.name tag) → files'.get? (fileName path "energy".toList k) =
      files.get? (fileName path "energy".toList k)) ∧
    ∀ pre d post, ds = pre ++ d :: post → ∃ r, evaluate eval d unit false = .ok r ∧
      (∀ (key : List Char) (fs0 : Files), (computeErrorSingle eval d key unit logs path false fs0).2 = .ok r.errors) ∧
      (d.name ∉ post.map DataSet.name → errs'.get? d.name = some r.errors) ∧
      (logs.energy = true → outputKey d.name tag ∉ post.map (fun d => outputKey d.name tag) →
        files'.get? (fileName path "energy".toList (outputKey d.name tag)) = some (energyRows r.trueE r.predE d.files)) := by
  intro ds
  induction ds with
  | nil =>
    intro files errs files' errs' h
    simp only [computeError, Prod.mk.injEq, Except.ok.injEq] at h
    obtain ⟨rfl, rfl⟩ := h
    exact ⟨fun _ _ => rfl, fun _ _ => rfl, fun pre d post h => by simp at h⟩
  | cons d ds ih =>
    intro files errs files' errs' h
    simp only [computeError] at h
    cases hs : computeErrorSingle eval d (outputKey d.name tag) unit logs path false files with
    | mk fs1 o =>
      rw [hs] at h
      cases o with
      | error e => simp at h
      | ok er =>
        dsimp only at h
        obtain ⟨A, B, C⟩ := ih _ _ _ _ h
        cases hev : evaluate eval d unit false with
        | error e =>
          unfold computeErrorSingle at hs
          rw [hev] at hs
          simp at hs
        | ok r =>
          have hsing : ∀ (key : List Char) (fs0 : Files),
              (computeErrorSingle eval d key unit logs path false fs0).2 = .ok r.errors ∧ er = r.errors := by
            have hs2 : (computeErrorSingle eval d (outputKey d.name tag) unit logs path false files).2 = .ok er := by rw [hs]
            have hlogs : (logs.force = true → r.force.isSome = true) ∧ (logs.stress = true → r.stress.isSome = true) := by
              unfold computeErrorSingle at hs2
              rw [hev] at hs2
              dsimp only at hs2
              generalize (if logs.energy = true then _ else _ : Files) = g1 at hs2
              constructor
              · intro hl
                by_contra hc
                have : r.force = none := by simpa using hc
                simp [writeValues, hl, this] at hs2
              · intro hl
                by_contra hc
                have : r.stress = none := by simpa using hc
                generalize writeValues path "force".toList (outputKey d.name tag) logs.force r.force g1 = p2 at hs2
                obtain ⟨f2, o2⟩ := p2
                cases o2 with
                | some e => simp at hs2
                | none => simp [writeValues, hl, this] at hs2
            intro key fs0
            have := single_ok eval d (outputKey d.name tag) unit logs path false files r hev hlogs.1 hlogs.2
            rw [hs2] at this
            exact ⟨single_ok eval d key unit logs path false fs0 r hev hlogs.1 hlogs.2, by simpa using this⟩
          obtain ⟨-, rfl⟩ := hsing [] []
          have hfile := fun k => single_files eval d (outputKey d.name tag) unit logs path false files r hev k
          rw [hs] at hfile
          refine ⟨fun n hn => ?_, fun k hk => ?_, ?_⟩
          · simp only [List.map_cons, List.mem_cons, not_or] at hn
            rw [A n hn.2, Dict.get?_set, if_neg hn.1]
          · simp only [List.map_cons, List.mem_cons, not_or] at hk
            rw [B k hk.2]
            have := hfile k
            rw [if_neg fun h => hk.1 h.2] at this
            exact this
          · intro pre d' post hd
            cases pre with
            | nil =>
              simp only [List.nil_append, List.cons.injEq] at hd
              obtain ⟨rfl, rfl⟩ := hd
              refine ⟨r, hev, fun key fs0 => (hsing key fs0).1, fun hn => ?_, fun hl hk => ?_⟩
              · rw [A _ hn, Dict.get?_set, if_pos rfl]
              · rw [B _ hk]
                have := hfile (outputKey d.name tag)
                rw [if_pos ⟨hl, rfl⟩] at this
                exact this
            | cons x pre =>
              simp only [List.cons_append, List.cons.injEq] at hd
              obtain ⟨rfl, rfl⟩ := hd
              exact C pre d' post rfl

/-- **C79**: the dictionary of errors has, under the name of each data set that is not repeated, the errors of this data
set; and the file of energies of a data set, unless a later one has the same file, has one row for each structure with the
true and predicted energies per atom and the name of its file. -/
theorem C79_datasets (eval : S → Pred) (unit : String) (logs : Logs) (path tag : List Char) (ds : List (DataSet S))
    (files files' : Files) (errs : Dict (List Char) Errors)
    (h : computeError eval unit logs path tag ds files [] = (files', .ok errs)) :
    (∀ n, n ∈ errs.keys → n ∈ ds.map DataSet.name) ∧
    ∀ pre d post, ds = pre ++ d :: post → ∃ e, (∀ (key : List Char) (fs0 : Files),
        (computeErrorSingle eval d key unit logs path false fs0).2 = .ok e) ∧
      (d.name ∉ post.map DataSet.name → errs.get? d.name = some e) ∧
      ∀ fs ss w, Aligned eval d fs ss → (unit = "eV" ∧ w = (fun (st : Str S) => (st.nAtoms.sum : ℝ)) ∨
          unit = "GPa" ∧ w = fun st => st.volume / (16021766208 / 100000000)) → logs.energy = true →
        outputKey d.name tag ∉ post.map (fun d => outputKey d.name tag) →
        files'.get? (path ++ "/predictions/energy.".toList ++ outputKey d.name tag ++ ".dat".toList) =
          some (((d.energies.zip d.structures).zip d.files).map fun q =>
            (q.1.1 / (q.1.2.nAtoms.sum : ℝ), (eval q.1.2.input).energy / q.1.2.nAtoms.sum,
              (q.1.1 / q.1.2.nAtoms.sum - (eval q.1.2.input).energy / q.1.2.nAtoms.sum) * 1000, q.2)) := by
  obtain ⟨A, -, C⟩ := computeError_spec eval unit logs path tag ds files [] files' errs h
  refine ⟨fun n hn => ?_, fun pre d post hd => ?_⟩
  · by_contra hc
    have := A n hc
    rw [Dict.mem_keys_iff, this] at hn
    simp [Dict.get?] at hn
  · obtain ⟨r, hev, h1, h2, h3⟩ := C pre d post hd
    refine ⟨r.errors, h1, h2, fun fs ss w ha hw hl hk => ?_⟩
    obtain ⟨r', hr', -, -, -, -, -, -, ht, hp, -⟩ := evaluate_spec eval d fs ss unit false w ha hw
    rw [hev] at hr'
    obtain rfl : r = r' := by simpa using hr'
    have := h3 hl hk
    have hname : fileName path "energy".toList (outputKey d.name tag) =
        path ++ "/predictions/energy.".toList ++ outputKey d.name tag ++ ".dat".toList := by
      unfold fileName
      simp
    rw [hname] at this
    rw [this, ht, hp]
    congr 1
    unfold energyRows
    generalize d.files = names
    clear this hname ht hp h1 h2 h3 hev hr' ha hd
    generalize d.energies = es
    generalize d.structures = strs
    induction strs generalizing es names with
    | nil => simp
    | cons st strs ih =>
      cases es with
      | nil => simp
      | cons x es =>
        cases names with
        | nil => simp
        | cons n names =>
          simp only [List.map_cons, List.zipWith_cons_cons, List.zip_cons_cons]
          rw [ih]

/-- Data with one structure of one atom and no forces. -/
noncomputable def exData (name : String) (e : ℝ) : DataSet Unit :=
  { name := name.toList, structures := [⟨(), [1], 10⟩], energies := [e], forces := [], stresses := []
    existForce := false, existStress := false, files := ["a"] }

/-- A potential with energy zero. -/
noncomputable def exEval : Unit → Pred := fun _ => ⟨0, [fun _ => 0], fun _ => 0⟩

theorem exData_aligned (name : String) (e : ℝ) : Aligned exEval (exData name e) [] [] :=
  ⟨rfl, fun h => by simp [exData] at h, fun h => by simp [exData] at h⟩

theorem exData_evaluate (name : String) (e : ℝ) : ∃ r, evaluate exEval (exData name e) "eV" false = .ok r ∧
    r.errors.energyMae = |e| ∧ r.trueE = [e] ∧ r.predE = [0] ∧ r.force = none := by
  obtain ⟨r, h, -, h2, -, -, -, -, h3, h4, h5, -⟩ :=
    evaluate_spec exEval (exData name e) [] [] "eV" false _ (exData_aligned name e) (Or.inl ⟨rfl, rfl⟩)
  refine ⟨r, h, ?_, ?_, ?_, ?_⟩
  · rw [h2]; simp [energyMean, exData, exEval]
  · rw [h3]; simp [exData]
  · rw [h4]; simp [exData, exEval]
  · simpa [exData] using h5

example : ∃ e, (computeErrorSingle exEval (exData "a" 3) [] "eV" ⟨true, false, false⟩ [] false []).2 = .ok e ∧
    e.energy = 3 ∧ e.force = none := by
  obtain ⟨e, h, h1, -, h2, -⟩ := C79_errors exEval (exData "a" 3) [] [] [] "eV" ⟨true, false, false⟩ [] false [] _
    (exData_aligned "a" 3) (Or.inl ⟨rfl, rfl⟩) (by simp) (by simp)
  refine ⟨e, h, ?_, ?_⟩
  · rw [h1]
    simp [energyMean, exData, exEval]
  · rw [h2]
    simp [exData]

/-- **C79 violation**: of two data sets with the same name, only the errors of the last are reported. -/
theorem C79_names_violation : ∃ (ds : List (DataSet Unit)) (eval : Unit → Pred) (files files' : Files)
    (errs : Dict (List Char) Errors), ds.length = 2 ∧
    computeError eval "eV" ⟨false, false, false⟩ [] "train".toList ds files [] = (files', .ok errs) ∧ errs.length = 1 ∧
    ∃ d ∈ ds, ∃ e, (∀ (key : List Char) (fs0 : Files),
      (computeErrorSingle eval d key "eV" ⟨false, false, false⟩ [] false fs0).2 = .ok e) ∧ ∀ p ∈ errs, p.2 ≠ e := by
  obtain ⟨r1, h1, m1, -⟩ := exData_evaluate "a" 1
  obtain ⟨r2, h2, m2, -⟩ := exData_evaluate "a" 2
  have s1 : ∀ key fs0, computeErrorSingle exEval (exData "a" 1) key "eV" ⟨false, false, false⟩ [] false fs0 =
      (fs0, .ok r1.errors) := by
    intro key fs0
    simp [computeErrorSingle, h1, writeValues]
  have s2 : ∀ key fs0, computeErrorSingle exEval (exData "a" 2) key "eV" ⟨false, false, false⟩ [] false fs0 =
      (fs0, .ok r2.errors) := by
    intro key fs0
    simp [computeErrorSingle, h2, writeValues]
  refine ⟨[exData "a" 1, exData "a" 2], exEval, [], [], [("a".toList, r2.errors)], rfl, ?_, rfl, exData "a" 1, by simp, r1.errors,
    fun key fs0 => by rw [s1], ?_⟩
  · simp only [computeError, s1, s2]
    simp [Dict.set, exData]
  · intro p hp
    simp only [List.mem_singleton] at hp
    subst hp
    intro e
    have : r2.errors.energyMae = r1.errors.energyMae := congrArg Errors.energyMae e
    rw [m1, m2] at this
    norm_num at this

/-- **C79 violation**: data sets with different names can have the same file of predictions; only the rows of the last
are kept. -/
theorem C79_files_violation : ∃ (d1 d2 : DataSet Unit) (eval : Unit → Pred) (files' : Files) (errs : Dict (List Char) Errors),
    d1.name ≠ d2.name ∧
    computeError eval "eV" ⟨true, false, false⟩ [] "train".toList [d1, d2] [] [] = (files', .ok errs) ∧
    files' = [("/predictions/energy.train-a-1.dat".toList, [(2, 0, 2000, "a")])] := by
  obtain ⟨r1, h1, -, t1, p1, -⟩ := exData_evaluate "a.1" 1
  obtain ⟨r2, h2, -, t2, p2, -⟩ := exData_evaluate "a-1" 2
  have k1 : outputKey (exData "a.1" 1).name "train".toList = "train-a-1".toList := by
    change outputKey "a.1".toList _ = _
    decide +kernel
  have k2 : outputKey (exData "a-1" 2).name "train".toList = "train-a-1".toList := by
    change outputKey "a-1".toList _ = _
    decide +kernel
  have hk : (exData "a.1" 1).name ≠ (exData "a-1" 2).name := by
    change "a.1".toList ≠ "a-1".toList
    decide
  refine ⟨exData "a.1" 1, exData "a-1" 2, exEval, [("/predictions/energy.train-a-1.dat".toList, [(2, 0, 2000, "a")])],
    [("a.1".toList, r1.errors), ("a-1".toList, r2.errors)], hk, ?_, rfl⟩
  simp only [computeError, k1, k2, computeErrorSingle, h1, h2, writeValues, if_true]
  simp [Dict.set, energyRows, t2, p2, exData, fileName]
  norm_num

/-- **C79 violation**: the file of forces of a data set without forces raises an `UnboundLocalError`, after the file of
energies was written. -/
theorem C79_log_violation : ∃ (d : DataSet Unit) (eval : Unit → Pred) (files' : Files),
    computeErrorSingle eval d "k".toList "eV" ⟨true, true, false⟩ [] false [] = (files', .error .nameError) ∧ files' ≠ [] := by
  obtain ⟨r1, h1, -, t1, p1, f1⟩ := exData_evaluate "a" 1
  refine ⟨exData "a" 1, exEval,
    [(fileName [] "energy".toList "k".toList, energyRows r1.trueE r1.predE (exData "a" 1).files)], ?_, ?_⟩
  · simp [computeErrorSingle, h1, writeValues, f1, Dict.set]
  · simp

/-- **C79 violation**: forces that are predicted in the opposite direction have errors zero of norm and direction. -/
theorem C79_direction_violation : ∃ (d : DataSet Unit) (eval : Unit → Pred) (e : Errors),
    (computeErrorSingle eval d [] "eV" ⟨false, false, false⟩ [] true []).2 = .ok e ∧
    d.forces = [1, 0, 0] ∧ (eval ()).forces = [![-1, 0, 0]] ∧ e.percentForceNorm = some 0 ∧ e.forceDirection = some 0 := by
  have h : ∃ e, evaluate (fun _ : Unit => ⟨0, [![-1, 0, 0]], fun _ => 0⟩)
      { name := [], structures := [⟨(), [1], 10⟩], energies := [0], forces := [1, 0, 0], stresses := []
        existForce := true, existStress := false, files := [] } "eV" true = .ok e ∧ e.errors.percentForceNorm = some 0 ∧
      e.errors.forceDirection = some 0 := by
    simp [evaluate, computeRmse, computeMae, normalized, zipArr, forcePart, stressPart, rmse,
      bind, Except.bind, pure, Except.pure, forceDirection, rows3, norm3, mean]
  obtain ⟨r, hr, h1, h2⟩ := h
  exact ⟨_, _, r.errors, single_ok _ _ _ _ _ _ _ _ r hr (by simp) (by simp), rfl, rfl, h1, h2⟩

theorem rows3_flat (l : List (Fin 3 → ℝ)) : rows3 (l.flatMap flat3) = l := by
  induction l with
  | nil => rfl
  | cons v l ih =>
    simp only [List.flatMap_cons, flat3, List.cons_append, List.nil_append, rows3]
    have e : (![v 0, v 1, v 2] : Fin 3 → ℝ) = v := by
      funext i
      match i with
      | 0 => rfl
      | 1 => rfl
      | 2 => rfl
    rw [e]
    exact congrArg (v :: ·) ih

theorem evaluate_direction {eval : S → Pred} {d : DataSet S} {unit : String} {r : Result}
    (h : evaluate eval d unit true = .ok r) (he : d.existForce = true) :
    r.errors.percentForceNorm = some (forceDirection d.forces
      (d.structures.flatMap fun st => (eval st.input).forces.flatMap flat3)).1 ∧
    r.errors.forceDirection = some (forceDirection d.forces
      (d.structures.flatMap fun st => (eval st.input).forces.flatMap flat3)).2 := by
  unfold evaluate at h
  have e : ((d.structures.map fun st => eval st.input).flatMap fun p => p.forces.flatMap fun v => [v 0, v 1, v 2]) =
      d.structures.flatMap fun st => (eval st.input).forces.flatMap flat3 := by
    rw [List.flatMap_map]
    rfl
  dsimp only at h
  rw [e] at h
  generalize (d.structures.flatMap fun st => (eval st.input).forces.flatMap flat3) = fl at h ⊢
  simp only [bind, Except.bind, pure, Except.pure] at h
  split at h
  · cases h
  split at h
  · cases h
  split at h
  · cases h
  rename_i f hf
  split at h
  · cases h
  cases h
  simp only [forcePart, he, Bool.true_eq_false, if_false, bind, Except.bind, pure, Except.pure, if_true] at hf
  split at hf
  · cases hf
  split at hf
  · cases hf
  cases hf
  exact ⟨rfl, rfl⟩

/-- **C79** the errors of norms and directions of forces: the mean over all atoms of the relative deviation of the norm from
the true norm, and the angle, in degrees, whose cosine is the mean over all atoms of the absolute cosines of the angles
between true and predicted forces. -/
theorem C79_direction (eval : S → Pred) (d : DataSet S) (fs : List (List (Fin 3 → ℝ))) (ss : List (Fin 6 → ℝ)) (key : List Char)
    (unit : String) (logs : Logs) (path : List Char) (files : Files) (w : Str S → ℝ) (ha : Aligned eval d fs ss)
    (hw : unit = "eV" ∧ w = (fun st => (st.nAtoms.sum : ℝ)) ∨
      unit = "GPa" ∧ w = fun st => st.volume / (16021766208 / 100000000))
    (he : d.existForce = true) (hs : logs.stress = true → d.existStress = true) :
    ∃ e x, (computeErrorSingle eval d key unit logs path true files).2 = .ok e ∧
      e.percentForceNorm = some (atomMean eval d fs fun t p => |vecNorm p - vecNorm t| / vecNorm t) ∧
      e.forceDirection = some x ∧ 0 ≤ x ∧ x ≤ 90 ∧
      Real.cos (x * Real.pi / 180) = atomMean eval d fs fun t p =>
        |t 0 * p 0 + t 1 * p 1 + t 2 * p 2| / (vecNorm t * vecNorm p) := by
  obtain ⟨r, hr, -, -, -, -, -, -, -, -, h7, h8, -⟩ := evaluate_spec eval d fs ss unit true w ha hw
  have hok := single_ok eval d key unit logs path true files r hr (fun _ => by rw [h7]; exact he) (fun h => by rw [h8]; exact hs h)
  obtain ⟨hp, hd⟩ := evaluate_direction hr he
  obtain ⟨e1, -⟩ := ha.forces he
  have e1' : d.forces = fs.flatten.flatMap flat3 := by
    rw [e1, List.flatMap_def (f := flat3), List.map_flatten, List.flatten_flatten, List.map_map]
    rfl
  have e2 : (d.structures.flatMap fun st => (eval st.input).forces.flatMap flat3) =
      (d.structures.flatMap fun st => (eval st.input).forces).flatMap flat3 := by
    rw [List.flatMap_assoc]
  have hcs : ∀ t p : Fin 3 → ℝ, |t 0 / norm3 t * (p 0 / norm3 p) + t 1 / norm3 t * (p 1 / norm3 p) + t 2 / norm3 t * (p 2 / norm3 p)| =
      |t 0 * p 0 + t 1 * p 1 + t 2 * p 2| / (vecNorm t * vecNorm p) := by
    intro t p
    have h0 : 0 ≤ vecNorm t * vecNorm p := mul_nonneg (Real.sqrt_nonneg _) (Real.sqrt_nonneg _)
    rw [← abs_of_nonneg h0, ← abs_div]
    congr 1
    change t 0 / vecNorm t * (p 0 / vecNorm p) + t 1 / vecNorm t * (p 1 / vecNorm p) + t 2 / vecNorm t * (p 2 / vecNorm p) = _
    rw [div_mul_div_comm, div_mul_div_comm, div_mul_div_comm]
    ring
  have hle : ∀ t p : Fin 3 → ℝ, |t 0 * p 0 + t 1 * p 1 + t 2 * p 2| / (vecNorm t * vecNorm p) ≤ 1 := by
    intro t p
    apply div_le_one_of_le₀ _ (mul_nonneg (Real.sqrt_nonneg _) (Real.sqrt_nonneg _))
    change _ ≤ Real.sqrt _ * Real.sqrt _
    rw [← Real.sqrt_mul (by positivity)]
    apply Real.abs_le_sqrt
    nlinarith [sq_nonneg (t 0 * p 1 - t 1 * p 0), sq_nonneg (t 0 * p 2 - t 2 * p 0), sq_nonneg (t 1 * p 2 - t 2 * p 1)]
  have hmean : ∀ k : (Fin 3 → ℝ) → (Fin 3 → ℝ) → ℝ, mean ((fs.flatten.zip (d.structures.flatMap fun st => (eval st.input).forces)).map
      fun q => k q.1 q.2) = atomMean eval d fs k := by
    intro k
    unfold mean atomMean
    rw [List.length_map]
  rw [e1', e2] at hp hd
  unfold forceDirection at hp hd
  dsimp only at hp hd
  rw [rows3_flat, rows3_flat] at hp hd
  have hp' : r.errors.percentForceNorm = some (atomMean eval d fs fun t p => |vecNorm p - vecNorm t| / vecNorm t) := by
    rw [hp, ← hmean]
    congr 2
    apply List.map_congr_left
    intro q _
    rw [abs_div, abs_of_nonneg (show 0 ≤ norm3 q.1 from Real.sqrt_nonneg _)]
    rfl
  have hm : mean (((fs.flatten.zip (d.structures.flatMap fun st => (eval st.input).forces)).map fun q =>
      q.1 0 / norm3 q.1 * (q.2 0 / norm3 q.2) + q.1 1 / norm3 q.1 * (q.2 1 / norm3 q.2) +
        q.1 2 / norm3 q.1 * (q.2 2 / norm3 q.2)).map fun x => |x|) = atomMean eval d fs fun t p =>
        |t 0 * p 0 + t 1 * p 1 + t 2 * p 2| / (vecNorm t * vecNorm p) := by
    rw [List.map_map, ← hmean]
    congr 1
    apply List.map_congr_left
    intro q _
    exact hcs q.1 q.2
  rw [hm] at hd
  have hb : ∀ l : List ((Fin 3 → ℝ) × (Fin 3 → ℝ)), 0 ≤ (l.map fun q =>
        |q.1 0 * q.2 0 + q.1 1 * q.2 1 + q.1 2 * q.2 2| / (vecNorm q.1 * vecNorm q.2)).sum ∧ (l.map fun q =>
        |q.1 0 * q.2 0 + q.1 1 * q.2 1 + q.1 2 * q.2 2| / (vecNorm q.1 * vecNorm q.2)).sum ≤ l.length := by
    intro l
    induction l with
    | nil => simp
    | cons q l ih =>
      simp only [List.map_cons, List.sum_cons, List.length_cons]
      have h0 : 0 ≤ |q.1 0 * q.2 0 + q.1 1 * q.2 1 + q.1 2 * q.2 2| / (vecNorm q.1 * vecNorm q.2) :=
        div_nonneg (abs_nonneg _) (mul_nonneg (Real.sqrt_nonneg _) (Real.sqrt_nonneg _))
      push_cast
      constructor
      · linarith [ih.1]
      · linarith [ih.2, hle q.1 q.2]
  have hb' := hb (fs.flatten.zip (d.structures.flatMap fun st => (eval st.input).forces))
  have h0 : 0 ≤ atomMean eval d fs fun t p => |t 0 * p 0 + t 1 * p 1 + t 2 * p 2| / (vecNorm t * vecNorm p) :=
    div_nonneg hb'.1 (Nat.cast_nonneg _)
  have h1 : (atomMean eval d fs fun t p => |t 0 * p 0 + t 1 * p 1 + t 2 * p 2| / (vecNorm t * vecNorm p)) ≤ 1 :=
    div_le_one_of_le₀ hb'.2 (Nat.cast_nonneg _)
  have hpi := Real.pi_pos
  refine ⟨r.errors, _, hok, hp', hd, ?_, ?_, ?_⟩
  · exact div_nonneg (mul_nonneg (Real.arccos_nonneg _) (by norm_num)) hpi.le
  · rw [div_le_iff₀ hpi]
    have := Real.arccos_le_pi_div_two.2 h0
    linarith
  · rw [show ∀ a : ℝ, a * 180 / Real.pi * Real.pi / 180 = a by intro a; field_simp, Real.cos_arccos (by linarith) h1]

theorem computeRmse_values {t p : List ℝ} {n : Option (List ℝ)} {r : ℝ × List ℝ × List ℝ} (h : computeRmse t p n = .ok r) :
    normalized n t = .ok r.2.1 ∧ normalized n p = .ok r.2.2 := by
  unfold computeRmse at h
  simp only [bind, Except.bind, pure, Except.pure] at h
  split at h
  · cases h
  rename_i a ha
  split at h
  · cases h
  rename_i b hb
  split at h
  · cases h
  cases h
  exact ⟨ha, hb⟩

/-- The values that are written for forces and stresses. -/
theorem evaluate_values {eval : S → Pred} {d : DataSet S} {unit : String} {direction : Bool} {r : Result}
    (h : evaluate eval d unit direction = .ok r) :
    (∀ v, r.force = some v → v = (d.forces, d.structures.flatMap fun st => (eval st.input).forces.flatMap fun v => [v 0, v 1, v 2])) ∧
    ∀ v, r.stress = some v → ∃ n, stressNormalize unit d.structures = some n ∧ normalized (some n) d.stresses = .ok v.1 ∧
      normalized (some n) (d.structures.flatMap fun st => [(eval st.input).stress 0, (eval st.input).stress 1,
        (eval st.input).stress 2, (eval st.input).stress 3, (eval st.input).stress 4, (eval st.input).stress 5]) = .ok v.2 := by
  unfold evaluate at h
  simp only [bind, Except.bind, pure, Except.pure] at h
  split at h
  · cases h
  split at h
  · cases h
  split at h
  · cases h
  rename_i f hf
  split at h
  · cases h
  rename_i s hs
  cases h
  constructor
  · intro v hv
    unfold forcePart at hf
    split at hf
    · cases hf; cases hv
    · simp only [bind, Except.bind, pure, Except.pure] at hf
      split at hf
      · cases hf
      rename_i x hx
      split at hf
      · cases hf
      cases hf
      obtain ⟨h1, h2⟩ := computeRmse_values hx
      injection h1 with h1
      injection h2 with h2
      cases hv
      rw [List.flatMap_map] at h2
      exact Prod.ext h1.symm h2.symm
  · intro v hv
    unfold stressPart at hs
    split at hs
    · cases hs; cases hv
    · split at hs
      · cases hs
      rename_i n hn
      simp only [bind, Except.bind, pure, Except.pure] at hs
      split at hs
      · cases hs
      rename_i x hx
      split at hs
      · cases hs
      cases hs
      obtain ⟨h1, h2⟩ := computeRmse_values hx
      cases hv
      rw [List.flatMap_map] at h2
      exact ⟨n, hn, h1, h2⟩

theorem normalized_some {n v w : List ℝ} (h : normalized (some n) v = .ok w) : w = List.zipWith (· / ·) v n := by
  simp only [normalized, zipArr] at h
  split at h
  · injection h with h; exact h.symm
  · cases h

/-- **C79** the files of forces and stresses: a line for every component with the true value, the predicted value and
their difference, in the order of the data; stresses are divided by the weight of their structure. -/
theorem C79_value_files (eval : S → Pred) (d : DataSet S) (key : List Char) (unit : String) (logs : Logs) (path : List Char)
    (direction : Bool) (files files' : Files) (e : Errors)
    (h : computeErrorSingle eval d key unit logs path direction files = (files', .ok e)) :
    (logs.force = true →
      files'.get? (path ++ "/predictions/force.".toList ++ key ++ ".dat".toList) =
        some ((d.forces.zip (d.structures.flatMap fun st => (eval st.input).forces.flatMap fun v => [v 0, v 1, v 2])).map
          fun q => (q.1, q.2, q.1 - q.2, ""))) ∧
    ∀ w, (unit = "eV" ∧ w = (fun (st : Str S) => (st.nAtoms.sum : ℝ)) ∨
        unit = "GPa" ∧ w = fun st => st.volume / (16021766208 / 100000000)) → logs.stress = true →
      files'.get? (path ++ "/predictions/stress.".toList ++ key ++ ".dat".toList) =
        some (((List.zipWith (· / ·) d.stresses (d.structures.flatMap fun st => List.replicate 6 (w st))).zip
          (List.zipWith (· / ·) (d.structures.flatMap fun st => [(eval st.input).stress 0, (eval st.input).stress 1,
            (eval st.input).stress 2, (eval st.input).stress 3, (eval st.input).stress 4, (eval st.input).stress 5])
            (d.structures.flatMap fun st => List.replicate 6 (w st)))).map fun q => (q.1, q.2, q.1 - q.2, "")) := by
  have nf : path ++ "/predictions/force.".toList ++ key ++ ".dat".toList = fileName path "force".toList key := by
    simp [fileName]
  have ns : path ++ "/predictions/stress.".toList ++ key ++ ".dat".toList = fileName path "stress".toList key := by
    simp [fileName]
  rw [nf, ns]
  unfold computeErrorSingle at h
  cases hr : evaluate eval d unit direction with
  | error e => rw [hr] at h; simp at h
  | ok r =>
    rw [hr] at h
    dsimp only at h
    obtain ⟨vf, vs⟩ := evaluate_values hr
    generalize (if logs.energy = true then files.set _ _ else files : Files) = fs1 at h
    have hw : ∀ (kind : List Char) (log : Bool) (v : Option (List ℝ × List ℝ)) (fs fs' : Files),
        writeValues path kind key log v fs = (fs', none) → (log = false ∧ fs' = fs) ∨
          ∃ x, log = true ∧ v = some x ∧ fs' = fs.set (fileName path kind key)
            ((x.1.zip x.2).map fun q => (q.1, q.2, q.1 - q.2, "")) := by
      intro kind log v fs fs' hx
      unfold writeValues at hx
      cases log with
      | false => left; cases hx; exact ⟨rfl, rfl⟩
      | true =>
        cases v with
        | none => cases hx
        | some v => right; cases hx; exact ⟨v, rfl, rfl, rfl⟩
    cases h2 : writeValues path "force".toList key logs.force r.force fs1 with
    | mk fs2 o2 =>
      rw [h2] at h
      cases o2 with
      | some e => simp at h
      | none =>
        dsimp only at h
        cases h3 : writeValues path "stress".toList key logs.stress r.stress fs2 with
        | mk fs3 o3 =>
          rw [h3] at h
          cases o3 with
          | some e => simp at h
          | none =>
            dsimp only at h
            cases h
            have ne : fileName path "force".toList key ≠ fileName path "stress".toList key :=
              fileName_inj (fun h => absurd h (by decide)) (fun _ => by decide) (by decide) (by decide)
            constructor
            · intro hl
              have a : files'.get? (fileName path "force".toList key) = fs2.get? (fileName path "force".toList key) := by
                rcases hw _ _ _ _ _ h3 with ⟨-, rfl⟩ | ⟨x, -, -, rfl⟩
                · rfl
                · rw [Dict.get?_set, if_neg ne]
              rw [a]
              rcases hw _ _ _ _ _ h2 with ⟨h0, -⟩ | ⟨x, -, hx, rfl⟩
              · rw [h0] at hl; cases hl
              · rw [Dict.get?_set, if_pos rfl, vf x hx]
            · intro w hu hl
              rcases hw _ _ _ _ _ h3 with ⟨h0, -⟩ | ⟨x, -, hx, rfl⟩
              · rw [h0] at hl; cases hl
              · obtain ⟨n, hn, n1, n2⟩ := vs x hx
                have : n = d.structures.flatMap fun st => List.replicate 6 (w st) := by
                  unfold stressNormalize at hn
                  rcases hu with ⟨rfl, rfl⟩ | ⟨rfl, rfl⟩
                  · simpa using hn.symm
                  · simpa using hn.symm
                rw [Dict.get?_set, if_pos rfl, normalized_some n1, normalized_some n2, this]

/-- The premise of `C79_value_files` holds for a data set with forces whose file is written. -/
example : ∃ (d : DataSet Unit) (eval : Unit → Pred) (files' : Files) (e : Errors), d.forces = [1, 0, 0] ∧
    computeErrorSingle eval d [] "eV" ⟨false, true, false⟩ [] false [] = (files', .ok e) := by
  have h : ∃ r, evaluate (fun _ : Unit => ⟨0, [![-1, 0, 0]], fun _ => 0⟩)
      { name := [], structures := [⟨(), [1], 10⟩], energies := [0], forces := [1, 0, 0], stresses := []
        existForce := true, existStress := false, files := [] } "eV" false = .ok r ∧ r.force.isSome = true := by
    simp [evaluate, computeRmse, computeMae, normalized, zipArr, forcePart, stressPart, rmse,
      bind, Except.bind, pure, Except.pure, mean]
  obtain ⟨r, hr, h1⟩ := h
  exact ⟨_, _, _, r.errors, rfl, Prod.ext rfl (single_ok _ _ _ _ _ _ _ _ r hr (fun _ => h1) (by simp))⟩

end Verif.Accuracy
