import Verif.Spec.MdApi
import Verif.Props.SschaFiles
import Mathlib.Tactic.FieldSimp
import Mathlib.Tactic.NormNum

/-! # Sessions of molecular dynamics (C91) -/

namespace Verif.MdApi
open Verif.Spec
open Verif.Md (average heatCapacityEV freeEnergyPerturb pRoots calcIntegral)
open Verif.SschaFiles (everyNth everyNth_get)

variable {S A P F G : Type}

/-! ## One run -/

theorem average_mean (l : List ℝ) (h : l ≠ []) : MeanOf l (average l) := by
  refine ⟨h, ?_⟩
  have : (l.length : ℝ) ≠ 0 := by exact_mod_cast fun hc => h (List.length_eq_zero_iff.1 hc)
  rw [average]
  field_simp

theorem useReference_eq (k : Kind S P F) : k.useReference = hasReference k := by cases k <;> rfl

theorem useFc2_eq (k : Kind S P F) : k.useFc2 = hasFc2 k := by cases k <;> rfl

theorem means_avg (kb : ℝ) (k : Kind S P F) (a : RunArgs) (frames : List (Frame A G)) (h : a.nEq < frames.length) :
    MeansOf frames a.nEq (hasReference k) (hasFc2 k) (calcAvg kb k a frames) := by
  rw [← useReference_eq, ← useFc2_eq]
  have hne : frames.drop a.nEq ≠ [] := by
    rw [Ne, List.drop_eq_nil_iff]; omega
  have hm : ∀ g : Frame A G → ℝ, (frames.drop a.nEq).map g ≠ [] := fun g => by simpa using hne
  constructor
  · exact average_mean _ (hm _)
  · exact average_mean _ (hm _)
  · cases hk : k.useFc2 with
    | false => simp [calcAvg, hk]
    | true => simp only [if_true]; exact ⟨_, by simp only [calcAvg, hk, if_true], average_mean _ (hm _)⟩
  · cases hk : k.useReference with
    | false => simp [calcAvg, hk]
    | true => simp only [if_true]; exact ⟨_, by simp only [calcAvg, hk, if_true], average_mean _ (hm _)⟩
  · cases hk : k.useReference with
    | false => simp [calcAvg, hk]
    | true => simp only [if_true]; exact ⟨_, by simp only [calcAvg, hk, if_true], average_mean _ (hm _)⟩

theorem mapM_get' {α β : Type} (f : α → Except Err β) (l : List α) (r : List β) (h : l.mapM f = .ok r) (k : ℕ) :
    (r[k]?).map Except.ok = (l[k]?).map f := by
  induction l generalizing r k with
  | nil =>
    obtain rfl := Except.ok.inj h
    rfl
  | cons x l ih =>
    rw [List.mapM_cons] at h
    cases h1 : f x with
    | error e => rw [h1] at h; cases h
    | ok b =>
      rw [h1] at h
      cases h2 : l.mapM f with
      | error e => rw [h2] at h; cases h
      | ok bs =>
        rw [h2] at h
        obtain rfl := Except.ok.inj h
        cases k with
        | zero => simp [h1]
        | succ k => exact ih bs h2 k

/-- C91: a simulation needs atoms and a calculator; without them it is refused and the session is as before. -/
theorem C91_requires (ext : Ext S A P F G) (s : Session S A P F G) (a : RunArgs) (hk : KnownThermostat a)
    (h : s.atoms = none ∨ s.clc = none) : step ext s (.run a) = (.error .runtimeError, s) := by
  unfold KnownThermostat at hk
  simp only [step, run, if_pos hk]
  rcases h with h | h
  · simp [h]
  · rw [h]
    cases s.atoms <;> rfl

/-- C91: a simulation is one run of the dynamics with the calculator and the atoms of the session.  If it succeeds, the
energies shown are those of all its frames, the averages are means over the frames after equilibration, forces and
trajectories are those of every so many steps, the final structure is that of the atoms it has left, and the next simulation
starts from there. -/
theorem C91_run (ext : Ext S A P F G) (hf : AllFrames ext) (s : Session S A P F G) (a : RunArgs) (hk : KnownThermostat a)
    (x : A) (c : Calc S P F) (hx : s.atoms = some x) (hc : s.clc = some c) (o : Outcome A G) (ho : ext.md s.runs c a x = o) :
    (step ext s (.run a)).1 = (match o.error with | some e => .error e | none => .ok ()) ∧
    (let s' := (step ext s (.run a)).2
     s'.atoms = some o.atoms ∧ s'.clc = s.clc ∧ s'.unitcell = s.unitcell ∧ s'.supercell = s.supercell ∧ s'.matrix = s.matrix ∧
     energies s' = some (o.frames.map (·.energy)) ∧
     (o.error = none → ∃ m, averages s' = some m ∧ MeansOf o.frames a.nEq (hasReference c.kind) (hasFc2 c.kind) m) ∧
     (o.error ≠ none → averages s' = none) ∧
     (∀ n, a.saveForces = some n → 0 < n → ∃ l, forces s' = some l ∧
        ∀ k : ℕ, l[k]? = (o.frames[k * n]?).map (·.forces)) ∧
     (∀ n l, a.saveTrajectory = some n → 0 < n → trajectory ext s' = .ok (some l) →
        ∀ k : ℕ, (l[k]?).map Except.ok = (o.frames[k * n]?).map fun f => ext.fromAtoms f.atoms) ∧
     ∀ st, ext.fromAtoms o.atoms = .ok st → finalStructure ext s' = .ok (some st)) := by
  unfold KnownThermostat at hk
  have key : step ext s (.run a) = match o.error with
      | some e => (.error e, { s with integ := some ⟨c, a, o.frames, none⟩, atoms := some o.atoms, runs := s.runs + 1 })
      | none => (.ok (), { s with
          integ := some ⟨c, a, o.frames, some (calcAvg ext.kb c.kind a o.frames)⟩, atoms := some o.atoms, runs := s.runs + 1 }) := by
    simp only [step, run, if_pos hk, hx, hc, ho]
    cases o.error <;> rfl
  have htraj : ∀ (i : Integ S A P F G) (s' : Session S A P F G) (n : ℕ) (l : List S), s'.integ = some i →
      i.args.saveTrajectory = some n → 0 < n →
      trajectory ext s' = .ok (some l) → ∀ k : ℕ, (l[k]?).map Except.ok = (i.frames[k * n]?).map fun f => ext.fromAtoms f.atoms := by
    intro i s' n l hi hn hpos h k
    unfold trajectory at h
    rw [hi] at h
    simp only [hn] at h
    cases hm : (everyNth n i.frames).mapM fun f => ext.fromAtoms f.atoms with
    | error e => rw [hm] at h; cases h
    | ok l' =>
      rw [hm] at h
      have : l' = l := by
        have := Except.ok.inj h
        exact Option.some.inj this
      subst this
      rw [mapM_get' _ _ _ hm k, everyNth_get i.frames n hpos k]
  rw [key]
  cases he : o.error with
  | some e =>
    refine ⟨rfl, rfl, rfl, rfl, rfl, rfl, rfl, by simp, fun _ => rfl, ?_, ?_, ?_⟩
    · intro n hn hpos
      refine ⟨(everyNth n o.frames).map (·.forces), by simp only [forces, Option.bind_some, hn, Option.map_some], fun k => ?_⟩
      rw [List.getElem?_map, everyNth_get _ _ hpos]
    · intro n l hn hpos h
      exact htraj _ _ n l rfl hn hpos h
    · intro st hst
      simp only [finalStructure, hst, bind, Except.bind, pure, Except.pure]
  | none =>
    refine ⟨rfl, rfl, rfl, rfl, rfl, rfl, rfl, ?_, by simp, ?_, ?_, ?_⟩
    · intro _
      refine ⟨_, rfl, means_avg _ _ _ _ ?_⟩
      have := hf s.runs c a x (by rw [ho]; exact he)
      rw [ho] at this
      omega
    · intro n hn hpos
      refine ⟨(everyNth n o.frames).map (·.forces), by simp only [forces, Option.bind_some, hn, Option.map_some], fun k => ?_⟩
      rw [List.getElem?_map, everyNth_get _ _ hpos]
    · intro n l hn hpos h
      exact htraj _ _ n l rfl hn hpos h
    · intro st hst
      simp only [finalStructure, hst, bind, Except.bind, pure, Except.pure]

/-! ## Histories -/

theorem history_append (ext : Ext S A P F G) (s : Session S A P F G) (ops : List (Op S P F)) (o : Op S P F) :
    history ext s (ops ++ [o]) = (step ext (history ext s ops) o).2 := by
  simp [history]

theorem withFc2_same (ext : Ext S A P F G) (s : Session S A P F G) (file : String) (make : F → S → Except Err (Calc S P F)) :
    (withFc2 ext s file make).2.integ = s.integ ∧ (withFc2 ext s file make).2.atoms = s.atoms := by
  unfold withFc2
  repeat' split
  all_goals exact ⟨rfl, rfl⟩

/-- Operations that do not start a simulation leave the frames, the averages and the arguments of the last one. -/
theorem step_integ (ext : Ext S A P F G) (s : Session S A P F G) (o : Op S P F) (h : ¬ StartsRun s o) :
    ((step ext s o).2.integ).map (fun i => (i.args, i.frames, i.avg)) = s.integ.map (fun i => (i.args, i.frames, i.avg)) := by
  cases o with
  | loadPoscar file => simp only [step, loadPoscar]; repeat' split
                       all_goals rfl
  | setSupercell size => simp only [step, setSupercell]; repeat' split
                         all_goals rfl
  | unitcell st => simp only [step, setUnitcell]; repeat' split
                   all_goals rfl
  | supercell st => simp only [step, setCell]; repeat' split
                    all_goals rfl
  | plain p => rfl
  | fc2 p file alpha => simp only [step]; rw [(withFc2_same ext s file _).1]
  | ref p q alpha => simp only [step, setRef]; repeat' split
                     all_goals rfl
  | general p q file af ar alpha => simp only [step]; rw [(withFc2_same ext s file _).1]
  | calculator c => simp only [step]; cases s.integ <;> rfl
  | alpha a => simp only [step, setAlpha]; split
               · rfl
               · cases s.integ <;> rfl
  | run a =>
    simp only [step, run]
    split
    · rename_i hk
      split
      · rfl
      · rfl
      · rename_i hx hc
        exact absurd ⟨hk, by rw [hx]; simp, by rw [hc]; simp⟩ h
    · rfl

/-- C91: after any history the energies, averages, forces and trajectory of a session are those of the last simulation that was
started, and there are none before the first one. -/
theorem C91_history (ext : Ext S A P F G) (ops : List (Op S P F)) (i : Integ S A P F G) (h : (history ext {} ops).integ = some i) :
    ∃ pre a post i', ops = pre ++ Op.run a :: post ∧ StartsRun (history ext {} pre) (.run a) ∧
      (step ext (history ext {} pre) (.run a)).2.integ = some i' ∧
      i.frames = i'.frames ∧ i.avg = i'.avg ∧ i.args = i'.args ∧ i'.args = a ∧
      ∀ pre' o' post', post = pre' ++ o' :: post' → ¬ StartsRun (history ext {} (pre ++ Op.run a :: pre')) o' := by
  induction ops using List.reverseRecOn generalizing i with
  | nil => exact absurd h (by simp [history])
  | append_singleton ops o ih =>
    rw [history_append] at h
    by_cases hg : StartsRun (history ext {} ops) o
    · cases o with
      | run a =>
        refine ⟨ops, a, [], i, rfl, hg, h, rfl, rfl, rfl, ?_, ?_⟩
        · obtain ⟨hk, hx, hc⟩ := hg
          obtain ⟨x, hx⟩ := Option.ne_none_iff_exists'.1 hx
          obtain ⟨c, hc⟩ := Option.ne_none_iff_exists'.1 hc
          unfold KnownThermostat at hk
          simp only [step, run, if_pos hk, hx, hc] at h
          split at h
          · obtain rfl := Option.some.inj h; rfl
          · obtain rfl := Option.some.inj h; rfl
        · intro pre' o' post' hp
          exact absurd hp (by simp)
      | _ => exact hg.elim
    · have hs := step_integ ext _ o hg
      rw [h] at hs
      cases h0 : (history ext {} ops).integ with
      | none => rw [h0] at hs; cases hs
      | some i0 =>
        rw [h0] at hs
        simp only [Option.map_some, Option.some.injEq, Prod.mk.injEq] at hs
        obtain ⟨pre, a, post, i', e1, e2, e3, e4, e5, e6, e6', e7⟩ := ih i0 h0
        refine ⟨pre, a, post ++ [o], i', by rw [e1]; simp, e2, e3, hs.2.1.trans e4, hs.2.2.trans e5, hs.1.trans e6, e6', ?_⟩
        intro pre' o' post' hp
        rcases List.eq_nil_or_concat post' with hn | ⟨p2, x, hx⟩
        · subst hn
          obtain ⟨rfl, ho⟩ := List.append_inj' hp rfl
          cases ho
          rw [← e1]
          exact hg
        · subst hx
          have : post ++ [o] = (pre' ++ o' :: p2) ++ [x] := by rw [hp]; simp
          obtain ⟨h1, -⟩ := List.append_inj' this rfl
          exact e7 pre' o' p2 h1

/-- C91: there is something to show exactly if a simulation was started. -/
theorem C91_shown (ext : Ext S A P F G) (s : Session S A P F G) (o : Op S P F) :
    (step ext s o).2.integ ≠ none ↔ s.integ ≠ none ∨ StartsRun s o := by
  by_cases h : StartsRun s o
  · refine ⟨fun _ => .inr h, fun _ => ?_⟩
    cases o with
    | run a =>
      obtain ⟨hk, hx, hc⟩ := h
      obtain ⟨x, hx⟩ := Option.ne_none_iff_exists'.1 hx
      obtain ⟨c, hc⟩ := Option.ne_none_iff_exists'.1 hc
      unfold KnownThermostat at hk
      simp only [step, run, if_pos hk, hx, hc]
      split <;> simp
    | _ => exact h.elim
  · have := step_integ ext s o h
    constructor
    · intro h1
      refine .inl fun h2 => ?_
      rw [h2] at this
      cases h3 : (step ext s o).2.integ with
      | none => exact h1 h3
      | some i => rw [h3] at this; cases this
    · rintro (h1 | h1)
      · intro h2
        rw [h2] at this
        cases h3 : s.integ with
        | none => exact h1 h3
        | some i => rw [h3] at this; cases this
      · exact absurd h1 h

/-- C91: the atoms stay where the last simulation has left them until new atoms are given; the calculator stays until another
calculator or mixing parameter is given. -/
theorem C91_kept (ext : Ext S A P F G) (s : Session S A P F G) (o : Op S P F) :
    (¬ GivesAtoms o → (step ext s o).2.atoms = s.atoms) ∧ (¬ GivesCalculator o → (step ext s o).2.clc = s.clc) ∧
      ((step ext s o).1 ≠ .ok () → (step ext s o).2.clc = s.clc) := by
  cases o with
  | loadPoscar file =>
    refine ⟨fun h => absurd trivial h, fun _ => ?_, fun _ => ?_⟩
    all_goals simp only [step, loadPoscar]; repeat' split
    all_goals rfl
  | setSupercell size =>
    refine ⟨fun h => absurd trivial h, fun _ => ?_, fun _ => ?_⟩
    all_goals simp only [step, setSupercell]; repeat' split
    all_goals rfl
  | unitcell st =>
    refine ⟨fun _ => ?_, fun _ => ?_, fun _ => ?_⟩
    all_goals simp only [step, setUnitcell]; repeat' split
    all_goals rfl
  | supercell st =>
    refine ⟨fun h => absurd trivial h, fun _ => ?_, fun _ => ?_⟩
    all_goals simp only [step, setCell]; repeat' split
    all_goals rfl
  | plain p => exact ⟨fun _ => rfl, fun h => absurd trivial h, fun h => absurd rfl h⟩
  | fc2 p file alpha =>
    refine ⟨fun _ => (withFc2_same ext s file _).2, fun h => absurd trivial h, fun h => ?_⟩
    simp only [step, withFc2] at h ⊢
    repeat' split at h
    all_goals first | rfl | exact absurd rfl h | skip
    all_goals simp_all
  | ref p q alpha =>
    refine ⟨fun _ => ?_, fun h => absurd trivial h, fun h => ?_⟩
    · simp only [step, setRef]; split <;> rfl
    · simp only [step, setRef] at h ⊢
      cases hca : checkAlpha alpha with
      | error e => rfl
      | ok u => simp [hca] at h
  | general p q file af ar alpha =>
    refine ⟨fun _ => (withFc2_same ext s file _).2, fun h => absurd trivial h, fun h => ?_⟩
    simp only [step, withFc2] at h ⊢
    repeat' split at h
    all_goals first | rfl | exact absurd rfl h | skip
    all_goals simp_all
  | calculator c => exact ⟨fun _ => rfl, fun h => absurd trivial h, fun h => absurd rfl h⟩
  | alpha a =>
    refine ⟨fun _ => ?_, fun h => absurd trivial h, fun h => ?_⟩
    · simp only [step, setAlpha]; split <;> rfl
    · simp only [step, setAlpha] at h ⊢
      cases hc : s.clc with
      | none => simp [hc]
      | some c => simp [hc] at h
  | run a =>
    refine ⟨fun h => absurd trivial h, fun _ => ?_, fun _ => ?_⟩
    all_goals simp only [step, run]; repeat' split
    all_goals rfl

/-! ## Calculators -/

theorem checkAlpha_iff (a : ℝ) : (checkAlpha a = .ok () ↔ 0 ≤ a ∧ a ≤ 1) ∧ (¬ (0 ≤ a ∧ a ≤ 1) → checkAlpha a = .error .assertionError) := by
  unfold checkAlpha
  constructor
  · constructor
    · intro h
      by_contra hc
      rw [if_neg hc] at h
      cases h
    · intro h
      rw [if_pos h]
  · intro h
    rw [if_neg h]

/-- C91: a calculator with harmonic reference is made exactly if there is a supercell, the results beside the file have no
imaginary frequencies, the force constants fit the supercell, the mixing parameter is between zero and one and the potential
can be evaluated for the supercell; it is the one asked for, with the supercell of the session as reference.  Force constants
with imaginary frequencies are refused. -/
theorem C91_fc2 (ext : Ext S A P F G) (s : Session S A P F G) (p : P) (file : String) (al : ℝ) :
    ((step ext s (.fc2 p file al)).1 = .ok () ↔ ∃ cell fc e, s.supercell = some cell ∧
      (ext.imaginary file = none ∨ ext.imaginary file = some (.ok false)) ∧ ext.fc2 file = .ok fc ∧ ext.fits fc cell = true ∧
      (0 ≤ al ∧ al ≤ 1) ∧ ext.static p cell = .ok e) ∧
    (∀ cell fc, (step ext s (.fc2 p file al)).1 = .ok () → s.supercell = some cell → ext.fc2 file = .ok fc →
      (step ext s (.fc2 p file al)).2.clc = some ⟨.fc2 fc cell p, some al⟩) ∧
    (s.supercell ≠ none → ext.imaginary file = some (.ok true) → (step ext s (.fc2 p file al)).1 = .error .runtimeError) := by
  have himg : ∀ f, checkImaginary ext f = .ok () ↔ (ext.imaginary f = none ∨ ext.imaginary f = some (.ok false)) := by
    intro f
    unfold checkImaginary
    cases h : ext.imaginary f with
    | none => simp
    | some r => cases r with
      | error e => simp
      | ok b => cases b <;> simp
  have hmk : ∀ fc cell c, mkFc2 ext fc cell p al = .ok c ↔
      (ext.fits fc cell = true ∧ (0 ≤ al ∧ al ≤ 1) ∧ (∃ e, ext.static p cell = .ok e) ∧ c = ⟨.fc2 fc cell p, some al⟩) := by
    intro fc cell c
    unfold mkFc2
    by_cases h1 : ext.fits fc cell = true
    · rw [if_pos h1]
      by_cases h2 : 0 ≤ al ∧ al ≤ 1
      · rw [(checkAlpha_iff al).1.2 h2]
        cases h3 : ext.static p cell with
        | error e => simp [bind, Except.bind, h3]
        | ok e =>
          simp only [bind, Except.bind, pure, Except.pure, h3]
          constructor
          · intro h
            exact ⟨h1, h2, ⟨e, rfl⟩, (Except.ok.inj h).symm⟩
          · rintro ⟨-, -, -, rfl⟩
            rfl
      · rw [(checkAlpha_iff al).2 h2]
        simp [bind, Except.bind, h2]
    · rw [if_neg h1]
      simp [h1]
  refine ⟨⟨?_, ?_⟩, ?_, ?_⟩
  · intro h
    simp only [step, withFc2] at h
    split at h
    · simp at h
    · rename_i cell hcell
      split at h
      · simp at h
      · rename_i hi
        split at h
        · simp at h
        · rename_i fc hfc
          split at h
          · simp at h
          · rename_i c hc
            obtain ⟨g1, g2, ⟨e, g3⟩, -⟩ := (hmk fc cell c).1 hc
            exact ⟨cell, fc, e, hcell, (himg file).1 hi, hfc, g1, g2, g3⟩
  · rintro ⟨cell, fc, e, h1, h2, h3, h4, h5, h6⟩
    have hm := (hmk fc cell _).2 ⟨h4, h5, ⟨e, h6⟩, rfl⟩
    simp only [step, withFc2, h1, (himg file).2 h2, h3, hm]
  · intro cell fc h h1 h3
    simp only [step, withFc2, h1] at h ⊢
    cases hi : checkImaginary ext file with
    | error e => simp [hi] at h
    | ok u =>
      simp only [hi, h3] at h ⊢
      cases hc : mkFc2 ext fc cell p al with
      | error e => simp [hc] at h
      | ok c =>
        obtain ⟨-, -, -, rfl⟩ := (hmk fc cell c).1 hc
        rfl
  · intro h1 h2
    obtain ⟨cell, h1⟩ := Option.ne_none_iff_exists'.1 h1
    simp [step, withFc2, h1, checkImaginary, h2]

/-- C91: a general reference is made only for mixing parameters between zero and one and force constants that fit the
supercell, and it is the one asked for. -/
theorem C91_general (ext : Ext S A P F G) (s : Session S A P F G) (p q : P) (file : String) (af ar al : ℝ)
    (h : (step ext s (.general p q file af ar al)).1 = .ok ()) :
    ∃ cell fc, s.supercell = some cell ∧ ext.fc2 file = .ok fc ∧ ext.fits fc cell = true ∧
      (ext.imaginary file = none ∨ ext.imaginary file = some (.ok false)) ∧
      (0 ≤ af ∧ af ≤ 1) ∧ (0 ≤ ar ∧ ar ≤ 1) ∧ (0 ≤ al ∧ al ≤ 1) ∧
      (step ext s (.general p q file af ar al)).2.clc = some ⟨.general fc cell p q af ar, some al⟩ := by
  simp only [step, withFc2] at h ⊢
  cases h1 : s.supercell with
  | none => simp [h1] at h
  | some cell =>
    simp only [h1] at h ⊢
    cases h2 : checkImaginary ext file with
    | error e => simp [h2] at h
    | ok u =>
      have himg : ext.imaginary file = none ∨ ext.imaginary file = some (.ok false) := by
        unfold checkImaginary at h2
        cases h : ext.imaginary file with
        | none => simp
        | some r => cases r with
          | error e => simp [h] at h2
          | ok b => cases b with
            | true => simp [h] at h2
            | false => simp
      simp only [h2] at h ⊢
      cases h3 : ext.fc2 file with
      | error e => simp [h3] at h
      | ok fc =>
        simp only [h3] at h ⊢
        cases h4 : mkGeneral ext fc cell p q af ar al with
        | error e => simp [h4] at h
        | ok c =>
          simp only [h4]
          unfold mkGeneral at h4
          by_cases g1 : ext.fits fc cell = true
          · rw [if_pos g1] at h4
            by_cases g2 : 0 ≤ af ∧ af ≤ 1
            · rw [(checkAlpha_iff af).1.2 g2] at h4
              by_cases g3 : 0 ≤ ar ∧ ar ≤ 1
              · rw [(checkAlpha_iff ar).1.2 g3] at h4
                by_cases g4 : 0 ≤ al ∧ al ≤ 1
                · rw [(checkAlpha_iff al).1.2 g4] at h4
                  cases g5 : ext.static q cell with
                  | error e => simp [bind, Except.bind, g5] at h4
                  | ok e1 => cases g6 : ext.static p cell with
                    | error e => simp [bind, Except.bind, g5, g6] at h4
                    | ok e2 =>
                      simp only [bind, Except.bind, g5, g6, pure, Except.pure] at h4
                      obtain rfl := Except.ok.inj h4
                      exact ⟨cell, fc, rfl, rfl, g1, himg, g2, g3, g4, rfl⟩
                · rw [(checkAlpha_iff al).2 g4] at h4; simp [bind, Except.bind] at h4
              · rw [(checkAlpha_iff ar).2 g3] at h4; simp [bind, Except.bind] at h4
            · rw [(checkAlpha_iff af).2 g2] at h4; simp [bind, Except.bind] at h4
          · rw [if_neg g1] at h4; simp at h4

/-- C91: potentials as calculators, and mixtures of two potentials for mixing parameters between zero and one, are those asked
for; the mixing parameter that is set is used by the next simulations. -/
theorem C91_calculators (ext : Ext S A P F G) (s : Session S A P F G) :
    (∀ p, (step ext s (.plain p)).1 = .ok () ∧ (step ext s (.plain p)).2.clc = some ⟨.plain p, none⟩) ∧
    (∀ p q al, 0 ≤ al → al ≤ 1 → (step ext s (.ref p q al)).1 = .ok () ∧
      (step ext s (.ref p q al)).2.clc = some ⟨.ref p q, some al⟩) ∧
    (∀ p q al, ¬ (0 ≤ al ∧ al ≤ 1) → (step ext s (.ref p q al)).1 = .error .assertionError) ∧
    (∀ c, (step ext s (.calculator c)).2.clc = some c) ∧
    (∀ c al, s.clc = some c → (step ext s (.alpha al)).1 = .ok () ∧
      (step ext s (.alpha al)).2.clc = some ⟨c.kind, some al⟩ ∧ alpha (step ext s (.alpha al)).2 = some al) := by
  refine ⟨fun p => ⟨rfl, rfl⟩, ?_, ?_, fun c => rfl, ?_⟩
  · intro p q al h1 h2
    simp [step, setRef, (checkAlpha_iff al).1.2 ⟨h1, h2⟩]
  · intro p q al h
    simp [step, setRef, (checkAlpha_iff al).2 h]
  · intro c al h
    simp [step, setAlpha, h, alpha]

/-- C91: supercells have three multiplicities and are made from the unit cell of the session; reading a file gives the unit
cell and the cell of the simulation. -/
theorem C91_cells (ext : Ext S A P F G) (s : Session S A P F G) :
    (∀ size, (step ext s (.setSupercell size)).1 = .ok () ↔ ∃ u st x, s.unitcell = some u ∧ size.length = 3 ∧
      ext.supercell u size = .ok st ∧ ext.toAtoms st = .ok x) ∧
    (∀ size u st x, s.unitcell = some u → size.length = 3 → ext.supercell u size = .ok st → ext.toAtoms st = .ok x →
      (step ext s (.setSupercell size)).2 = { s with supercell := some st, atoms := some x, matrix := some size }) ∧
    (∀ size, s.unitcell = none ∨ size.length ≠ 3 → step ext s (.setSupercell size) = (.error .runtimeError, s)) ∧
    (∀ file st x, ext.poscar file = .ok st → ext.toAtoms st = .ok x →
      step ext s (.loadPoscar file) = (.ok (), { s with unitcell := some st, supercell := some st, atoms := some x })) := by
  refine ⟨?_, ?_, ?_, ?_⟩
  · intro size
    constructor
    · intro h
      simp only [step, setSupercell] at h
      cases h1 : s.unitcell with
      | none => simp [h1] at h
      | some u =>
        simp only [h1] at h
        by_cases h2 : size.length = 3
        · simp only [h2, ne_eq, not_true_eq_false, if_false] at h
          cases h3 : ext.supercell u size with
          | error e => simp [h3] at h
          | ok st =>
            simp only [h3] at h
            cases h4 : ext.toAtoms st with
            | error e => simp [h4] at h
            | ok x => exact ⟨u, st, x, rfl, h2, h3, h4⟩
        · simp [h2] at h
    · rintro ⟨u, st, x, h1, h2, h3, h4⟩
      simp [step, setSupercell, h1, h2, h3, h4]
  · intro size u st x h1 h2 h3 h4
    simp [step, setSupercell, h1, h2, h3, h4]
  · rintro size (h | h)
    · simp [step, setSupercell, h]
    · simp only [step, setSupercell]
      cases s.unitcell with
      | none => rfl
      | some u => simp [h]
  · intro file st x h1 h2
    simp [step, loadPoscar, h1, h2]

/-! ## Files -/

/-- C91: a file saved right after a successful simulation has its conditions, potentials and averages, the unit cell and the
supercell matrix of the session. -/
theorem C91_save (ext : Ext S A P F G) (s : Session S A P F G) (a : RunArgs) (hk : KnownThermostat a)
    (x : A) (c : Calc S P F) (u : S) (hx : s.atoms = some x) (hc : s.clc = some c) (hu : s.unitcell = some u)
    (ho : (ext.md s.runs c a x).error = none) :
    ∃ r, saveYaml (step ext s (.run a)).2 = .ok r ∧ r.unitcell = u ∧ r.matrix = s.matrix ∧ r.thermostat = a.thermostat ∧
      r.temperature = a.temperature ∧ r.timeStep = a.timeStep ∧ r.nEq = a.nEq ∧ r.nSteps = a.nSteps ∧
      (hasReference c.kind = true → r.alpha = c.alpha) ∧ (hasReference c.kind = false → r.alpha = none) ∧ r.avg = averages (step ext s (.run a)).2 ∧ r.avg ≠ none ∧
      (match c.kind with
        | .plain p => r.potentials = [p]
        | .fc2 _ _ p => r.potentials = [p]
        | .ref p q => r.potentials = [p, q]
        | .general _ _ p q _ _ => r.potentials = [p, q]) := by
  unfold KnownThermostat at hk
  simp only [step, run, if_pos hk, hx, hc, ho, saveYaml, hu]
  rw [useReference_eq]
  refine ⟨_, rfl, rfl, rfl, rfl, rfl, rfl, rfl, rfl, ?_, ?_, rfl, by simp, ?_⟩
  · intro h
    simp [h]
  · intro h
    simp [h]
  · cases c.kind <;> rfl

/-! ## Thermodynamic integration -/

theorem tiStep_spec (ext : Ext S A P F G) (hf : AllFrames ext) (a : RunArgs) (hk : KnownThermostat a) (s s' : Session S A P F G)
    (al : ℝ) (mult : ℕ) (l : Log) (k : Kind S P F) (b : Option ℝ) (x : A) (hc : s.clc = some ⟨k, b⟩) (hx : s.atoms = some x)
    (h : tiStep ext a s al mult = (.ok l, s')) :
    (let o := ext.md s.runs ⟨k, some al⟩ { a with nSteps := a.nSteps * mult } x
     LogOf k a.nEq al o l ∧ s'.clc = some ⟨k, some al⟩ ∧ s'.atoms = some o.atoms ∧ s'.runs = s.runs + 1 ∧
      s'.unitcell = s.unitcell ∧ s'.supercell = s.supercell ∧ s'.matrix = s.matrix ∧ s'.useReference = s.useReference ∧
      l = getLog s') := by
  unfold KnownThermostat at hk
  simp only [tiStep, setAlpha, hc, run, if_pos hk, hx] at h
  cases he : (ext.md s.runs ⟨k, some al⟩ { a with nSteps := a.nSteps * mult } x).error with
  | some e => simp [he] at h
  | none =>
    simp only [he, Prod.mk.injEq, Except.ok.injEq] at h
    obtain ⟨hl, rfl⟩ := h
    have hlen := hf s.runs ⟨k, some al⟩ { a with nSteps := a.nSteps * mult } x he
    refine ⟨⟨he, ?_, ⟨_, means_avg ext.kb k { a with nSteps := a.nSteps * mult } _ ?_, ?_⟩⟩, rfl, rfl, rfl, rfl, rfl, rfl, rfl, hl.symm⟩
    · rw [← hl]; rfl
    · rw [hlen]; simp only; omega
    · rw [← hl]
      exact ⟨rfl, rfl, rfl, rfl, rfl⟩

theorem tiRuns_spec (ext : Ext S A P F G) (hf : AllFrames ext) (a : RunArgs) (hk : KnownThermostat a) (als : List ℝ)
    (s s' : Session S A P F G) (ls : List Log) (k : Kind S P F) (b : Option ℝ) (x : A) (hc : s.clc = some ⟨k, b⟩)
    (hx : s.atoms = some x) (h : tiRuns ext a s als = (.ok ls, s')) :
    ∃ (outs : List (Outcome A G)) (x' : A) (b' : Option ℝ), s'.clc = some ⟨k, b'⟩ ∧ s'.atoms = some x' ∧ s'.unitcell = s.unitcell ∧
      s'.supercell = s.supercell ∧ s'.matrix = s.matrix ∧
      (∀ rest outs2, Sims ext k a s'.runs x' rest outs2 →
        Sims ext k a s.runs x (als.map (fun al => (al, a.nSteps)) ++ rest) (outs ++ outs2)) ∧
      outs.length = als.length ∧ ls.length = als.length ∧
      ∀ (i : ℕ) al o l, als[i]? = some al → outs[i]? = some o → ls[i]? = some l → LogOf k a.nEq al o l := by
  induction als generalizing s ls b x with
  | nil =>
    simp only [tiRuns, Prod.mk.injEq, Except.ok.injEq] at h
    obtain ⟨rfl, rfl⟩ := h
    exact ⟨[], x, b, hc, hx, rfl, rfl, rfl, fun rest outs2 h => h, rfl, rfl, by simp⟩
  | cons al als ih =>
    simp only [tiRuns] at h
    cases h1 : tiStep ext a s al 1 with
    | mk r s1 =>
      rw [h1] at h
      cases r with
      | error e => simp at h
      | ok l =>
        simp only at h
        obtain ⟨g1, g2, g3, g4, g5, g6, g7, -, -⟩ := tiStep_spec ext hf a hk s s1 al 1 l k b x hc hx h1
        cases h2 : tiRuns ext a s1 als with
        | mk r2 s2 =>
          rw [h2] at h
          cases r2 with
          | error e => simp at h
          | ok ls' =>
            simp only [Prod.mk.injEq, Except.ok.injEq] at h
            obtain ⟨rfl, rfl⟩ := h
            obtain ⟨outs, x', b', q1, q2, q3, q4, q5, q6, q7, q8, q9⟩ := ih s1 ls' (some al) _ g2 g3 h2
            simp only [Nat.mul_one] at g1 g3 q6
            refine ⟨ext.md s.runs ⟨k, some al⟩ a x :: outs, x', b', q1, q2, q3.trans g5, q4.trans g6, q5.trans g7, ?_,
              by simp [q7], by simp [q8], ?_⟩
            · intro rest outs2 hs
              have := q6 rest outs2 hs
              rw [g4] at this
              exact Sims.cons s.runs x al a.nSteps _ _ this
            · intro i al' o l' e1 e2 e3
              cases i with
              | zero =>
                simp only [List.getElem?_cons_zero, Option.some.injEq] at e1 e2 e3
                subst e1 e2 e3
                exact g1
              | succ i => exact q9 i al' o l' e1 e2 e3

theorem delta_list (k : Kind S P F) (nEq : ℕ) (hr : hasReference k = true) (als : List ℝ) (outs : List (Outcome A G)) (ls : List Log)
    (h1 : outs.length = als.length) (h2 : ls.length = als.length)
    (h : ∀ (i : ℕ) al o l, als[i]? = some al → outs[i]? = some o → ls[i]? = some l → LogOf k nEq al o l) :
    ∃ ds, ls.mapM (·.delta10) = some ds ∧
      List.Forall₂ (fun (o : Outcome A G) d => MeanOf ((o.frames.drop nEq).map (·.delta10)) d) outs ds := by
  induction als generalizing outs ls with
  | nil =>
    obtain rfl := List.length_eq_zero_iff.1 h1
    obtain rfl := List.length_eq_zero_iff.1 h2
    exact ⟨[], rfl, List.Forall₂.nil⟩
  | cons al als ih =>
    cases outs with
    | nil => simp at h1
    | cons o outs =>
      cases ls with
      | nil => simp at h2
      | cons l ls =>
        obtain ⟨ds, e1, e2⟩ := ih outs ls (by simpa using h1) (by simpa using h2)
          (fun i al' o' l' a1 a2 a3 => h (i + 1) al' o' l' a1 a2 a3)
        obtain ⟨-, -, m, hm, -, -, -, hd, -⟩ := h 0 al o l rfl rfl rfl
        have := hm.delta10
        rw [hr, if_pos rfl] at this
        obtain ⟨d, hd1, hd2⟩ := this
        refine ⟨d :: ds, ?_, List.Forall₂.cons hd2 e2⟩
        rw [List.mapM_cons, hd, hd1, e1]
        rfl

/-- C91: a thermodynamic integration that succeeds is a sequence of simulations, each from the atoms that the one before has
left: one at each node of the quadrature between zero and the largest mixing parameter, then one at zero and one at the largest
mixing parameter of three times as many steps.  Its log has the simulation at zero first and that at the largest mixing
parameter last; its free energy is the quadrature of the mean energy differences, and energy and entropy are from the mean
energies at both ends. -/
theorem C91_ti (ext : Ext S A P F G) (hf : AllFrames ext) (s s' : Session S A P F G) (x w : List ℝ) (mx : ℝ) (a : RunArgs)
    (hk : KnownThermostat a) (k : Kind S P F) (b : Option ℝ) (at0 : A) (hc : s.clc = some ⟨k, b⟩) (hx : s.atoms = some at0)
    (hr : hasReference k = true) (ht : 1 / 10 ^ 8 < |a.temperature|) (r : TiResult) (h : runTi ext s x w mx a = (.ok r, s')) :
    ∃ (outs : List (Outcome A G)) (o0 o1 : Outcome A G) (ls : List Log) (l0 l1 : Log) (ds : List ℝ) (e0 e1 : ℝ),
      Sims ext k a s.runs at0 (x.map (fun t => (mx / 2 * t + mx / 2, a.nSteps)) ++ [(0, a.nSteps * 3), (mx, a.nSteps * 3)])
        (outs ++ [o0, o1]) ∧
      r.log = l0 :: (ls ++ [l1]) ∧ outs.length = x.length ∧ ls.length = x.length ∧
      LogOf k a.nEq 0 o0 l0 ∧ LogOf k a.nEq mx o1 l1 ∧
      (∀ (i : ℕ) t o l, x[i]? = some t → outs[i]? = some o → ls[i]? = some l → LogOf k a.nEq (mx / 2 * t + mx / 2) o l) ∧
      List.Forall₂ (fun (o : Outcome A G) d => MeanOf ((o.frames.drop a.nEq).map (·.delta10)) d) outs ds ∧
      r.freeEnergy = mx / 2 * (List.zipWith (· * ·) w ds).sum ∧
      MeanOf ((o0.frames.drop a.nEq).map (·.energy)) e0 ∧ MeanOf ((o1.frames.drop a.nEq).map (·.energy)) e1 ∧
      r.energy = e1 - e0 ∧ r.freeEnergy = r.energy - a.temperature * r.entropy ∧
      s'.clc = some ⟨k, some mx⟩ ∧ s'.atoms = some o1.atoms ∧ s'.unitcell = s.unitcell ∧ s'.supercell = s.supercell ∧
      s'.matrix = s.matrix := by
  unfold runTi at h
  split at h
  · simp at h
  · simp only at h
    cases h1 : tiRuns ext a s (pRoots x w 0 mx).1 with
    | mk r1 s1 =>
      rw [h1] at h
      cases r1 with
      | error e => simp at h
      | ok ls =>
        simp only at h
        have hal : (pRoots x w 0 mx).1 = x.map fun t => mx / 2 * t + mx / 2 := by
          simp only [pRoots]
          refine List.map_congr_left fun t _ => ?_
          ring
        obtain ⟨outs, x1, b1, q1, q2, q3, q4, q5, q6, q7, q8, q9⟩ := tiRuns_spec ext hf a hk _ s s1 ls k b at0 hc hx h1
        obtain ⟨ds, d1, d2⟩ := delta_list k a.nEq hr _ outs ls q7 q8 q9
        rw [d1] at h
        simp only [tiEnds] at h
        cases h2 : tiStep ext a s1 0 3 with
        | mk r2 s2 =>
          rw [h2] at h
          cases r2 with
          | error e => simp at h
          | ok l0 =>
            simp only at h
            obtain ⟨g1, g2, g3, g4, g5, g6, g7, -, -⟩ := tiStep_spec ext hf a hk s1 s2 0 3 l0 k b1 x1 q1 q2 h2
            cases h3 : tiStep ext a s2 mx 3 with
            | mk r3 s3 =>
              rw [h3] at h
              cases r3 with
              | error e => simp at h
              | ok l1 =>
                simp only at h
                obtain ⟨p1, p2, p3, p4, p5, p6, p7, -, -⟩ := tiStep_spec ext hf a hk s2 s3 mx 3 l1 k (some 0) _ g2 g3 h3
                obtain ⟨-, -, m0, hm0, he0, -⟩ := g1
                obtain ⟨-, -, m1, hm1, he1, -⟩ := p1
                have ht' : ¬ |a.temperature| ≤ 1 / 10 ^ 8 := not_le.2 ht
                simp only [tiFinish, tiEnergy, if_neg ht', he0, he1, bind, Except.bind, pure, Except.pure, Prod.mk.injEq,
                  Except.ok.injEq] at h
                obtain ⟨rfl, rfl⟩ := h
                have hT : a.temperature ≠ 0 := by
                  intro h0
                  rw [h0, abs_zero] at ht
                  norm_num at ht
                have hsim := q6 [(0, a.nSteps * 3), (mx, a.nSteps * 3)]
                  [ext.md s1.runs ⟨k, some 0⟩ { a with nSteps := a.nSteps * 3 } x1,
                    ext.md s2.runs ⟨k, some mx⟩ { a with nSteps := a.nSteps * 3 }
                      (ext.md s1.runs ⟨k, some 0⟩ { a with nSteps := a.nSteps * 3 } x1).atoms]
                  (by
                    refine Sims.cons _ _ _ _ _ _ ?_
                    rw [g4]
                    exact Sims.cons _ _ _ _ _ _ (Sims.nil _ _))
                rw [hal] at hsim q7 q8 q9
                rw [List.map_map] at hsim
                rw [List.length_map] at q7 q8
                refine ⟨outs, _, _, ls, l0, l1, ds, m0.energy, m1.energy, hsim, rfl, q7, q8,
                  (tiStep_spec ext hf a hk s1 s2 0 3 l0 k b1 x1 q1 q2 h2).1,
                  (tiStep_spec ext hf a hk s2 s3 mx 3 l1 k (some 0) _ g2 g3 h3).1, ?_, d2, ?_, hm0.energy, hm1.energy, rfl, ?_,
                  p2, p3, ?_, ?_, ?_⟩
                · intro i t o l e1 e2 e3
                  refine q9 i _ o l ?_ e2 e3
                  rw [List.getElem?_map, e1]
                  rfl
                · simp only [calcIntegral, pRoots]
                  ring
                · simp only
                  field_simp
                  ring
                · rw [p5, g5, q3]
                · rw [p6, g6, q4]
                · rw [p7, g7, q5]

/-- C91: a thermodynamic integration needs a calculator, a unit cell and a reference; otherwise it is refused and no simulation
is run. -/
theorem C91_ti_requires (ext : Ext S A P F G) (s : Session S A P F G) (x w : List ℝ) (mx : ℝ) (a : RunArgs)
    (h : s.clc = none ∨ s.unitcell = none ∨ s.useReference = false) : runTi ext s x w mx a = (.error .runtimeError, s) := by
  unfold runTi
  rw [if_pos]
  rcases h with h | h | h
  · left; simp [h]
  · right; left; simp [h]
  · right; right; exact h

theorem tiStep_total (ext : Ext S A P F G) (hf : ∀ n c a x, (ext.md n c a x).error = none) (a : RunArgs) (hk : KnownThermostat a)
    (s : Session S A P F G) (al : ℝ) (mult : ℕ) (c : Calc S P F) (x : A) (hc : s.clc = some c) (hx : s.atoms = some x) :
    ∃ l s', tiStep ext a s al mult = (.ok l, s') ∧ s'.clc = some ⟨c.kind, some al⟩ ∧ (∃ x', s'.atoms = some x') := by
  unfold KnownThermostat at hk
  simp only [tiStep, setAlpha, hc, run, if_pos hk, hx, hf]
  exact ⟨_, _, rfl, rfl, _, rfl⟩

theorem tiRuns_total (ext : Ext S A P F G) (hf : ∀ n c a x, (ext.md n c a x).error = none) (a : RunArgs) (hk : KnownThermostat a)
    (als : List ℝ) (s : Session S A P F G) (k : Kind S P F) (b : Option ℝ) (x : A) (hc : s.clc = some ⟨k, b⟩) (hx : s.atoms = some x) :
    ∃ ls s' b', tiRuns ext a s als = (.ok ls, s') ∧ s'.clc = some ⟨k, b'⟩ ∧ (∃ x', s'.atoms = some x') := by
  induction als generalizing s b x with
  | nil => exact ⟨[], s, b, rfl, hc, x, hx⟩
  | cons al als ih =>
    obtain ⟨l, s1, h1, h2, x1, h3⟩ := tiStep_total ext hf a hk s al 1 _ x hc hx
    obtain ⟨ls, s2, b', h4, h5, h6⟩ := ih s1 _ x1 h2 h3
    exact ⟨l :: ls, s2, b', by simp only [tiRuns, h1, h4], h5, h6⟩

/-- C91: with a reference, a unit cell and atoms an integration succeeds if no simulation fails. -/
theorem C91_ti_succeeds (ext : Ext S A P F G) (hf : AllFrames ext) (hok : ∀ n c a x, (ext.md n c a x).error = none)
    (s : Session S A P F G) (x w : List ℝ) (mx : ℝ) (a : RunArgs) (hk : KnownThermostat a) (k : Kind S P F) (b : Option ℝ) (at0 : A)
    (hc : s.clc = some ⟨k, b⟩) (hx : s.atoms = some at0) (hr : hasReference k = true) (hu : s.unitcell ≠ none)
    (hs : s.useReference = true) : ∃ r s', runTi ext s x w mx a = (.ok r, s') := by
  obtain ⟨u, hu⟩ := Option.ne_none_iff_exists'.1 hu
  obtain ⟨ls, s1, b1, h1, h2, x1, h3⟩ := tiRuns_total ext hok a hk (pRoots x w 0 mx).1 s k b at0 hc hx
  obtain ⟨outs, _, _, -, -, -, -, -, -, q7, q8, q9⟩ := tiRuns_spec ext hf a hk _ s s1 ls k b at0 hc hx h1
  obtain ⟨ds, d1, -⟩ := delta_list k a.nEq hr _ outs ls q7 q8 q9
  obtain ⟨l0, s2, g1, g2, x2, g3⟩ := tiStep_total ext hok a hk s1 0 3 _ x1 h2 h3
  obtain ⟨l1, s3, p1, p2, x3, p3⟩ := tiStep_total ext hok a hk s2 mx 3 _ x2 g2 g3
  obtain ⟨⟨-, -, m0, -, e0, -⟩, -⟩ := tiStep_spec ext hf a hk s1 s2 0 3 l0 k b1 x1 h2 h3 g1
  obtain ⟨⟨-, -, m1, -, e1, -⟩, -⟩ := tiStep_spec ext hf a hk s2 s3 mx 3 l1 k (some 0) x2 g2 g3 p1
  unfold runTi
  rw [if_neg (by simp [hc, hu, hs])]
  simp only [h1, d1, tiEnds, g1, p1, tiFinish, tiEnergy, e0, e1]
  split <;> exact ⟨_, _, rfl⟩

/-- C91: after any history in which no calculator was set from outside, a calculator with reference is known to be one, and an
integration is not refused; the calls that are made once set it for good. -/
theorem C91_ti_history (ext : Ext S A P F G) (ops : List (Op S P F)) (hop : ∀ c, Op.calculator c ∉ ops) (k : Kind S P F)
    (b : Option ℝ) (hc : (history ext {} ops).clc = some ⟨k, b⟩) (hr : hasReference k = true) :
    (history ext {} ops).useReference = true := by
  have keep : ∀ (s : Session S A P F G) o, s.useReference = true → (step ext s o).2.useReference = true := by
    intro s o h
    cases o <;> simp only [step, loadPoscar, setSupercell, setUnitcell, setCell, withFc2, setRef, setAlpha, run] <;>
      repeat' split
    all_goals first | exact h | rfl
  induction ops using List.reverseRecOn generalizing k b with
  | nil => exact absurd hc (by simp [history])
  | append_singleton ops o ih =>
    have ih := ih fun c hm => hop c (by simp [hm])
    rw [history_append] at hc ⊢
    generalize history ext {} ops = s at *
    by_cases hg : GivesCalculator o
    · cases o with
      | plain p =>
        simp only [step, Option.some.injEq] at hc
        have : k = .plain p := by cases hc; rfl
        rw [this] at hr
        cases hr
      | fc2 p file al =>
        simp only [step, withFc2] at hc ⊢
        repeat' split
        all_goals first
          | rfl
          | exact ih k b (by simp_all) hr
      | ref p q al =>
        simp only [step, setRef]
        split <;> rfl
      | general p q file af ar al =>
        simp only [step, withFc2] at hc ⊢
        repeat' split
        all_goals first
          | rfl
          | exact ih k b (by simp_all) hr
      | calculator c => exact absurd (by simp) (hop c)
      | alpha a =>
        simp only [step, setAlpha] at hc ⊢
        cases h : s.clc with
        | none => simp [h] at hc
        | some c =>
          simp only [h, Option.some.injEq, Calc.mk.injEq] at hc ⊢
          exact ih k c.alpha (by rw [h, ← hc.1]) hr
      | _ => exact hg.elim
    · rw [(C91_kept ext s o).2.1 hg] at hc
      exact keep s o (ih k b hc hr)

/-- C91: an integration in a session succeeds if no simulation fails, for sessions whose calculator with reference was made in the
session. -/
theorem C91_ti_session (ext : Ext S A P F G) (hf : AllFrames ext) (hok : ∀ n c a x, (ext.md n c a x).error = none)
    (ops : List (Op S P F)) (hop : ∀ c, Op.calculator c ∉ ops) (x w : List ℝ) (mx : ℝ) (a : RunArgs) (hk : KnownThermostat a)
    (k : Kind S P F) (b : Option ℝ) (hc : (history ext {} ops).clc = some ⟨k, b⟩) (hr : hasReference k = true)
    (hx : (history ext {} ops).atoms ≠ none) (hu : (history ext {} ops).unitcell ≠ none) :
    ∃ r s', runTi ext (history ext {} ops) x w mx a = (.ok r, s') := by
  obtain ⟨at0, hx⟩ := Option.ne_none_iff_exists'.1 hx
  exact C91_ti_succeeds ext hf hok _ x w mx a hk k b at0 hc hx hr hu (C91_ti_history ext ops hop k b hc hr)

/-! ## Examples -/

/-- Dynamics that adds one to the atoms and sees the same numbers at each step. -/
noncomputable def toy : Ext ℕ ℕ ℕ ℕ Unit where
  kb := 1
  poscar _ := .ok 1
  supercell u l := .ok (u * l.prod)
  toAtoms st := .ok st
  fromAtoms x := .ok x
  imaginary _ := none
  fc2 _ := .ok 7
  fits _ _ := true
  static _ _ := .ok 0
  md _ c a x := ⟨List.replicate (a.nEq + a.nSteps + 1) ⟨c.alpha.getD 0, 1, 2, 3, 4, (), x⟩, x + 1, none⟩

/-- Arguments of a run. -/
noncomputable def toyArgs : RunArgs := ⟨"Langevin", 300, 1, 1, 1, 1, 2, some 1, some 2, true⟩

theorem toy_all : AllFrames toy := by
  intro n c a x _
  simp [toy]

/-- The hypotheses of the theorems about runs, files and integrations are met by a session in which a file is read and a mixture
of two potentials is set. -/
example : AllFrames toy ∧ KnownThermostat toyArgs ∧ (∀ n c a x, (toy.md n c a x).error = none) ∧
    (let s := history toy {} [.loadPoscar "POSCAR", .ref 1 2 0]
     s.atoms = some 1 ∧ s.clc = some ⟨.ref 1 2, some 0⟩ ∧ s.unitcell = some 1 ∧ s.useReference = true ∧
      hasReference (Kind.ref 1 2 : Kind ℕ ℕ ℕ) = true) ∧ 1 / 10 ^ 8 < |toyArgs.temperature| := by
  refine ⟨toy_all, Or.inr rfl, fun _ _ _ _ => rfl, ?_, ?_⟩
  · simp [history, step, loadPoscar, toy, setRef, checkAlpha, hasReference]
  · simp only [toyArgs]
    norm_num

example : ∃ r s', runTi toy (history toy {} [.loadPoscar "POSCAR", .ref 1 2 0]) [0] [2] 1 toyArgs = (.ok r, s') := by
  refine C91_ti_succeeds toy toy_all (fun _ _ _ _ => rfl) _ _ _ _ _ (Or.inr rfl) (.ref 1 2) (some 0) 1 ?_ ?_ rfl ?_ ?_
  all_goals simp [history, step, loadPoscar, toy, setRef, checkAlpha]

example : ∃ r s', runTi toy (history toy {} [.loadPoscar "POSCAR", .general 1 2 "fc2.hdf5" 1 0 0]) [0] [2] 1 toyArgs = (.ok r, s') := by
  refine C91_ti_session toy toy_all (fun _ _ _ _ => rfl) _ (by simp) _ _ _ _ (Or.inr rfl) (.general 7 1 1 2 1 0) (some 0) ?_ rfl ?_ ?_
  all_goals simp [history, step, loadPoscar, toy, withFc2, checkImaginary, mkGeneral, checkAlpha, bind, Except.bind, pure, Except.pure]

/-- The hypotheses of `C91_fc2` and `C91_general` are met after a file is read. -/
example : (step toy (history toy {} [.loadPoscar "POSCAR"]) (.fc2 1 "fc2.hdf5" 1)).1 = .ok () ∧
    (step toy (history toy {} [.loadPoscar "POSCAR"]) (.general 1 2 "fc2.hdf5" 1 0 1)).1 = .ok () := by
  constructor <;> simp [history, step, loadPoscar, toy, withFc2, checkImaginary, mkFc2, mkGeneral, checkAlpha, bind, Except.bind, pure, Except.pure]

/-! ## Where the code does not do what is asked -/

/-- C91 fails for other names of thermostats: nothing is simulated and no exception is raised, for any session. -/
theorem C91_thermostat_violation (ext : Ext S A P F G) (s : Session S A P F G) (a : RunArgs) (h : ¬ KnownThermostat a) :
    step ext s (.run a) = (.ok (), s) := by
  unfold KnownThermostat at h
  simp only [step, run, if_neg h]

/-- C91 fails for integrations with an unknown thermostat after an earlier simulation: they succeed without any simulation, and
the free energy is computed from the averages of the earlier one. -/
theorem C91_ti_thermostat_violation : ∃ (ext : Ext ℕ ℕ ℕ ℕ Unit) (ops : List (Op ℕ ℕ ℕ)) (a : RunArgs),
    ¬ KnownThermostat a ∧ (runTi ext (history ext {} ops) [0] [2] 1 a).2.runs = (history ext {} ops).runs ∧
    ∃ r, (runTi ext (history ext {} ops) [0] [2] 1 a).1 = .ok r ∧ r.freeEnergy = 3 := by
  have h1 : ¬ ("Berendsen" = "Nose-Hoover" ∨ "Berendsen" = "Langevin") := by decide
  refine ⟨toy, [.loadPoscar "POSCAR", .ref 1 2 0, .run toyArgs], { toyArgs with thermostat := "Berendsen" }, ?_⟩
  have hs : history toy {} [.loadPoscar "POSCAR", .ref 1 2 0, .run toyArgs] = ⟨some ⟨.ref 1 2, some 0⟩,
      some ⟨⟨.ref 1 2, some 0⟩, toyArgs, List.replicate 4 ⟨0, 1, 2, 3, 4, (), 1⟩,
        some (calcAvg 1 (.ref 1 2 : Kind ℕ ℕ ℕ) toyArgs (List.replicate 4 (⟨0, 1, 2, 3, 4, (), 1⟩ : Frame ℕ Unit)))⟩,
      some 1, some 1, some 2, none, true, none, 1⟩ := by
    simp [history, step, loadPoscar, toy, setRef, checkAlpha, run, toyArgs]
  rw [hs]
  have hd : (calcAvg 1 (.ref 1 2 : Kind ℕ ℕ ℕ) toyArgs (List.replicate 4 (⟨0, 1, 2, 3, 4, (), 1⟩ : Frame ℕ Unit))).delta10 = some 3 := by
    simp [calcAvg, Kind.useReference, average, toyArgs, List.replicate]
    norm_num
  generalize calcAvg 1 (.ref 1 2 : Kind ℕ ℕ ℕ) toyArgs (List.replicate 4 (⟨0, 1, 2, 3, 4, (), 1⟩ : Frame ℕ Unit)) = m at hd
  have ht : ¬ |(300 : ℝ)| ≤ 1 / 10 ^ 8 := by norm_num
  simp only [runTi, KnownThermostat, h1, tiRuns, tiStep, setAlpha, run, if_false, pRoots, List.map, getLog, averages, Option.map_some, Option.bind_some,
    hd, List.mapM_cons, List.mapM_nil, tiEnds, tiFinish, tiEnergy, toyArgs, ht, bind, Except.bind, pure, Except.pure]
  rw [if_neg (by simp)]
  refine ⟨not_false, rfl, _, rfl, ?_⟩
  simp [calcIntegral]

/-- C91 fails for the file of a simulation: a supercell matrix set before another structure was read is written with it. -/
theorem C91_matrix_violation : ∃ (ext : Ext ℕ ℕ ℕ ℕ Unit) (ops : List (Op ℕ ℕ ℕ)) (r : Saved ℕ ℕ),
    saveYaml (history ext {} ops) = .ok r ∧ r.matrix = some [2, 2, 2] ∧
    (history ext {} ops).supercell = (history ext {} ops).unitcell := by
  refine ⟨toy, [.loadPoscar "POSCAR", .setSupercell [2, 2, 2], .loadPoscar "POSCAR2", .plain 1, .run toyArgs], ?_⟩
  simp [history, step, loadPoscar, setSupercell, toy, run, toyArgs, saveYaml]

/-- C91 fails for the final structure: after a new supercell is set it is that supercell, although energies are still shown for
the simulation before. -/
theorem C91_final_violation : ∃ (ext : Ext ℕ ℕ ℕ ℕ Unit) (ops : List (Op ℕ ℕ ℕ)) (e : List ℝ),
    finalStructure ext (history ext {} ops) = .ok (some 2) ∧
    finalStructure ext (history ext {} (ops ++ [.setSupercell [2, 2, 2]])) = .ok (some 8) ∧
    energies (history ext {} ops) = some e ∧ energies (history ext {} (ops ++ [.setSupercell [2, 2, 2]])) = some e := by
  refine ⟨toy, [.loadPoscar "POSCAR", .plain 1, .run toyArgs], ?_⟩
  simp [history, step, loadPoscar, setSupercell, toy, run, toyArgs, finalStructure, energies, bind, Except.bind, pure, Except.pure]

/-- C91 fails for the mixing parameter in a file: it is the one set last, not that of the simulation. -/
theorem C91_saved_alpha_violation : ∃ (ext : Ext ℕ ℕ ℕ ℕ Unit) (ops : List (Op ℕ ℕ ℕ)) (r r' : Saved ℕ ℕ),
    saveYaml (history ext {} ops) = .ok r ∧ r.alpha = some 0 ∧ saveYaml (history ext {} (ops ++ [.alpha 1])) = .ok r' ∧
    r'.alpha = some 1 ∧ r'.avg = r.avg := by
  refine ⟨toy, [.loadPoscar "POSCAR", .ref 1 2 0, .run toyArgs], ?_⟩
  simp [history, step, loadPoscar, toy, run, toyArgs, setRef, checkAlpha, setAlpha, saveYaml, Kind.useReference]

/-- C91 fails for integrations after a reference was replaced by a potential: they are accepted, simulations are run, and then a
`TypeError` is raised. -/
theorem C91_stale_reference_violation : ∃ (ext : Ext ℕ ℕ ℕ ℕ Unit) (ops : List (Op ℕ ℕ ℕ)) (s' : Session ℕ ℕ ℕ ℕ Unit),
    (history ext {} ops).clc = some ⟨.plain 1, none⟩ ∧ runTi ext (history ext {} ops) [0] [2] 1 toyArgs = (.error .typeError, s') ∧
    s'.runs = (history ext {} ops).runs + 1 := by
  refine ⟨toy, [.loadPoscar "POSCAR", .ref 1 2 0, .plain 1], ?_⟩
  simp [history, step, loadPoscar, toy, run, toyArgs, setRef, checkAlpha, setAlpha, runTi, tiRuns, tiStep, pRoots, getLog, averages, calcAvg,
    Kind.useReference, List.mapM_cons]

/-- C91 fails for a calculator with a reference that is set as it is: integrations are refused. -/
theorem C91_set_calculator_violation : ∃ (ext : Ext ℕ ℕ ℕ ℕ Unit) (ops : List (Op ℕ ℕ ℕ)),
    (history ext {} ops).clc = some ⟨.ref 1 2, some 0⟩ ∧ (history ext {} ops).unitcell ≠ none ∧ (history ext {} ops).atoms ≠ none ∧
    (runTi ext (history ext {} ops) [0] [2] 1 toyArgs).1 = .error .runtimeError := by
  refine ⟨toy, [.loadPoscar "POSCAR", .calculator ⟨.ref 1 2, some 0⟩], ?_⟩
  simp [history, step, loadPoscar, toy, runTi]

theorem saveTi_error (s : Session S A P F G) (r : TiResult) (h : s.fc2file = none) : ∃ e, saveTi s r = .error e := by
  unfold saveTi
  split
  · rw [h]
    exact ⟨_, rfl⟩
  · exact ⟨_, rfl⟩

/-- C91 fails for the file of an integration between two potentials: in every session without force constants it cannot be
saved. -/
theorem C91_save_ti_violation (s : Session S A P F G) (r : TiResult) :
    (s.fc2file = none → ∃ e, saveTi s r = .error e) ∧
    ((∃ i fc cell p q af ar b, s.integ = some i ∧ s.clc = some ⟨.general fc cell p q af ar, b⟩) → ∃ e, saveTi s r = .error e) := by
  refine ⟨saveTi_error s r, ?_⟩
  rintro ⟨i, fc, cell, p, q, af, ar, b, h1, h2⟩
  unfold saveTi
  rw [h1, h2]
  cases s.fc2file with
  | none => exact ⟨_, rfl⟩
  | some f => exact ⟨_, rfl⟩

/-- **C91 (saved integrations).**  A file of an integration that can be saved holds the file of force constants, the potential
of the calculator, the free energy of the integration and the displacement of every run, in the order of the log. -/
theorem C91_saved_ti (s : Session S A P F G) (r : TiResult) (f : SavedTi P) (h : saveTi s r = .ok f) :
    s.fc2file = some f.reference ∧ (∃ c, s.clc = some c ∧
      (c.kind = .plain f.potential ∨ (∃ fc cell, c.kind = .fc2 fc cell f.potential) ∨ ∃ q, c.kind = .ref f.potential q)) ∧
    f.freeEnergy = r.freeEnergy ∧ r.log.map (·.displacement) = f.displacements.map some := by
  unfold saveTi at h
  split at h
  · rename_i i c hi hc
    cases e1 : s.fc2file with
    | none => simp [e1, orErr, bind, Except.bind] at h
    | some fl =>
      cases e2 : tiPotential c.kind with
      | error e => simp [e1, e2, orErr, bind, Except.bind] at h
      | ok p =>
        cases e3 : r.log.mapM (·.displacement) with
        | none => simp [e1, e2, e3, orErr, bind, Except.bind] at h
        | some ds =>
          simp only [e1, e2, e3, orErr, bind, Except.bind, pure, Except.pure] at h
          obtain rfl := Except.ok.inj h
          refine ⟨rfl, ⟨c, hc, ?_⟩, rfl, ?_⟩
          · cases hk : c.kind <;> rw [hk] at e2 <;> simp only [tiPotential, Except.ok.injEq, reduceCtorEq] at e2 <;> subst e2 <;> simp
          · clear h
            revert ds
            induction r.log with
            | nil =>
              intro ds e3
              obtain rfl : [] = ds := by simpa using e3
              rfl
            | cons l ls ih =>
              intro ds e3
              rw [List.mapM_cons] at e3
              cases h1 : l.displacement with
              | none => simp [h1] at e3
              | some d =>
                cases h2 : ls.mapM (·.displacement) with
                | none => simp [h1, h2] at e3
                | some dl =>
                  obtain rfl : d :: dl = ds := by simpa [h1, h2] using e3
                  simp [h1, ih dl h2]
  · simp at h

/-- **C91 (before a run).**  A session that has not run shows no results, whatever has been loaded. -/
theorem C91_before_run (ext : Ext S A P F G) (s : Session S A P F G) (h : s.integ = none) :
    finalStructure ext s = .ok none ∧ energies s = none ∧ forces s = none ∧ trajectory ext s = .ok none ∧ averages s = none := by
  refine ⟨?_, ?_, ?_, ?_, ?_⟩
  · unfold finalStructure; rw [h]
  · unfold energies; rw [h]; rfl
  · unfold forces; rw [h]; rfl
  · unfold trajectory; rw [h]
  · unfold averages; rw [h]; rfl

/-- A session with force constants saves the log of an integration. -/
example : ∃ (s : Session ℕ ℕ ℕ ℕ Unit) (r : TiResult) (f : SavedTi ℕ), saveTi s r = .ok f ∧ f.freeEnergy = 2 ∧
    f.displacements = [1, 3] ∧ s.integ ≠ none := by
  let s : Session ℕ ℕ ℕ ℕ Unit :=
    { clc := some ⟨.fc2 1 1 7, some 0⟩, fc2file := some "fc2.hdf5", integ := some ⟨⟨.fc2 1 1 7, some 0⟩, toyArgs, [], none⟩ }
  exact ⟨s, ⟨[⟨none, none, none, some 1, none, none, none⟩, ⟨none, none, none, some 3, none, none, none⟩], 2, 0, 0, none, none⟩,
    _, rfl, rfl, rfl, by simp [s]⟩

/-- C91 fails for the number of steps in the file of an integration: it is three times the number of steps at the nodes. -/
theorem C91_ti_steps_violation (ext : Ext S A P F G) (hf : AllFrames ext) (s s' : Session S A P F G) (x w : List ℝ) (mx : ℝ) (a : RunArgs)
    (hk : KnownThermostat a) (k : Kind S P F) (b : Option ℝ) (at0 : A) (hc : s.clc = some ⟨k, b⟩) (hx : s.atoms = some at0)
    (r : TiResult) (h : runTi ext s x w mx a = (.ok r, s')) (f : SavedTi P) (hsave : saveTi s' r = .ok f) : f.nSteps = 3 * a.nSteps := by
  have key : ∀ (s s' : Session S A P F G) (l : Log) (al : ℝ) (c : Calc S P F) (x : A), s.clc = some c → s.atoms = some x →
      tiStep ext a s al 3 = (.ok l, s') → ∃ i, s'.integ = some i ∧ i.args.nSteps = a.nSteps * 3 := by
    intro s s' l al c x hc hx h
    unfold KnownThermostat at hk
    simp only [tiStep, setAlpha, hc, run, if_pos hk, hx] at h
    cases he : (ext.md s.runs { kind := c.kind, alpha := some al } { a with nSteps := a.nSteps * 3 } x).error with
    | some e => simp [he] at h
    | none =>
      simp only [he, Prod.mk.injEq, Except.ok.injEq] at h
      obtain ⟨-, rfl⟩ := h
      exact ⟨_, rfl, rfl⟩
  unfold runTi at h
  split at h
  · simp at h
  · simp only at h
    cases h1 : tiRuns ext a s (pRoots x w 0 mx).1 with
    | mk r1 s1 =>
      rw [h1] at h
      cases r1 with
      | error e => simp at h
      | ok ls =>
        simp only at h
        obtain ⟨_, x1, b1, q1, q2, -⟩ := tiRuns_spec ext hf a hk _ s s1 ls k b at0 hc hx h1
        split at h
        · simp at h
        · simp only [tiEnds] at h
          cases h2 : tiStep ext a s1 0 3 with
          | mk r2 s2 =>
            rw [h2] at h
            cases r2 with
            | error e => simp at h
            | ok l0 =>
              simp only at h
              obtain ⟨-, g2, g3, -⟩ := tiStep_spec ext hf a hk s1 s2 0 3 l0 k b1 x1 q1 q2 h2
              cases h3 : tiStep ext a s2 mx 3 with
              | mk r3 s3 =>
                rw [h3] at h
                cases r3 with
                | error e => simp at h
                | ok l1 =>
                  obtain ⟨i, hi1, hi2⟩ := key s2 s3 l1 mx _ _ g2 g3 h3
                  simp only [Prod.mk.injEq] at h
                  obtain ⟨-, rfl⟩ := h
                  unfold saveTi at hsave
                  rw [hi1] at hsave
                  split at hsave
                  · rename_i j c heq hcc
                    obtain rfl := Option.some.inj heq
                    cases e1 : s3.fc2file with
                    | none => simp [e1, orErr, bind, Except.bind] at hsave
                    | some fl =>
                      cases e2 : tiPotential c.kind with
                      | error e => simp [e1, e2, orErr, bind, Except.bind] at hsave
                      | ok p =>
                        cases e3 : r.log.mapM (·.displacement) with
                        | none => simp [e1, e2, e3, orErr, bind, Except.bind] at hsave
                        | some ds =>
                          simp only [e1, e2, e3, orErr, bind, Except.bind, pure, Except.pure] at hsave
                          obtain rfl := Except.ok.inj hsave
                          simp only [hi2]
                          ring
                  · simp at hsave

/-- C91 fails for the trajectory of a simulation that saved none: instead of no trajectory an exception is raised. -/
theorem C91_trajectory_violation (ext : Ext S A P F G) (s : Session S A P F G) (i : Integ S A P F G) (h : s.integ = some i)
    (hn : i.args.saveTrajectory = none) : trajectory ext s = .error .typeError ∧ (i.args.saveForces = none → forces s = none) := by
  constructor
  · unfold trajectory
    rw [h]
    simp only [hn]
  · intro hf
    simp [forces, h, hf]

/-- C91 fails for a supercell that is set after the force constants: the calculator keeps the old one as reference. -/
theorem C91_reference_cell_violation : ∃ (ext : Ext ℕ ℕ ℕ ℕ Unit) (ops : List (Op ℕ ℕ ℕ)) (al : Option ℝ),
    (history ext {} ops).supercell = some 8 ∧ (history ext {} ops).clc = some ⟨.fc2 7 1 1, al⟩ ∧
    (step ext (history ext {} ops) (.run toyArgs)).1 = .ok () := by
  refine ⟨toy, [.loadPoscar "POSCAR", .fc2 1 "fc2.hdf5" 1, .setSupercell [2, 2, 2]], some 1, ?_⟩
  simp [history, step, loadPoscar, setSupercell, toy, withFc2, checkImaginary, mkFc2, checkAlpha, bind, Except.bind, pure, Except.pure, run, toyArgs]

end Verif.MdApi
