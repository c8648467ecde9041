import Verif.Props.CalcApi

/-!
# C81: phonons, optimizations, coefficients, and what fails
-/

namespace Verif.CalcApi

open Spec

variable {St V R A : Type}

/-! ## Phonons -/

theorem step_phonon_cell (ext : Ext St V R A) (c : Calc St V R A) (x : Call St A) (u : Option St) (a0 : A)
    (hx : ∀ s a, x ≠ .phononInit s a) (h : ∃ r, c.phonon = some (u, a0, r)) :
    ∃ r, (step ext c x).1.phonon = some (u, a0, r) := by
  obtain ⟨r, h⟩ := h
  cases x with
  | load l => cases l <;> exact ⟨r, h⟩
  | eval s =>
    change ∃ r, (eval ext c s).1.phonon = _
    rcases eval_cases ext c s with ⟨hn, he⟩ | ⟨l0, ws, hl, hv, he⟩ | ⟨l0, e0, hl, hf, he⟩ <;> rw [he] <;>
      exact ⟨r, by simp only [setStructs_phonon, h]⟩
  | features s =>
    change ∃ r, (features ext c s).1.phonon = _
    rcases features_cases ext c s with ⟨e, he⟩ | ⟨l, r, -, -, he⟩ <;> rw [he] <;>
      exact ⟨_, by simp only [setStructs_phonon, h]; rfl⟩
  | job k s a =>
    change ∃ r, (job ext c k s a).1.phonon = _
    rcases job_cases ext c k s a with ⟨e, -, he⟩ | ⟨u, e, -, -, he⟩ | ⟨u, e, -, -, -, he⟩ | ⟨u, r, -, -, -, he⟩ <;>
      rw [he] <;> exact ⟨_, by simp only [setStructs_phonon, h]; rfl⟩
  | phononInit s a => exact (hx s a rfl).elim
  | phonon a =>
    change ∃ r, (phonon ext c a).1.phonon = _
    rcases phonon_cases ext c a with ⟨-, he⟩ | ⟨u', a0', old, e, h', -, he⟩ | ⟨u', a0', old, r, h', -, he⟩ <;> rw [he]
    · exact ⟨r, h⟩
    · rw [h] at h'; cases h'; exact ⟨_, rfl⟩
    · rw [h] at h'; cases h'; exact ⟨_, rfl⟩
  | optInit s a =>
    change ∃ r, (optInit ext c s a).1.phonon = _
    rcases optInit_cases ext c s a with ⟨e, -, he⟩ | ⟨u, -, -, he⟩ | ⟨u, e, -, -, -, he⟩ | ⟨u, -, -, he⟩ <;>
      rw [he] <;> exact ⟨_, by simp only [setStructs_phonon, h]; rfl⟩
  | opt a =>
    change ∃ r, (opt ext c a).1.phonon = _
    rcases opt_cases ext c a with ⟨-, he⟩ | ⟨u, a0, as, old, e, -, -, he⟩ | ⟨u, a0, as, old, r, -, -, he⟩ <;>
      rw [he] <;> exact ⟨_, h⟩

theorem exec_phonon_cell (ext : Ext St V R A) (u : Option St) (a0 : A) : ∀ (cs : List (Call St A)) (c : Calc St V R A),
    (∀ x ∈ cs, ∀ s a, x ≠ Call.phononInit s a) → (∃ r, c.phonon = some (u, a0, r)) →
    ∃ r, (exec ext c cs).phonon = some (u, a0, r)
  | [], _, _, h => h
  | x :: cs, c, hx, h => exec_phonon_cell ext u a0 cs _ (fun y hy => hx y (by simp [hy]))
      (step_phonon_cell ext c x u a0 (hx x (by simp)) h)

/-- C81 (phonons).  Phonons that were not prepared raise RuntimeError.  Otherwise they are those of the cell and the
arguments with which they were prepared last, whatever was called in between. -/
theorem C81_phonon (ext : Ext St V R A) (c : Calc St V R A) :
    (∀ cs a, (∀ x ∈ cs, ∀ s b, x ≠ Call.phononInit s b) →
      (step ext (exec ext Calc.new cs) (.phonon a)).2 = .error .runtimeError) ∧
    (∀ s u a0 mid a, CellOf c s u → (step ext c (.phononInit s a0)).2 = .ok .done →
      (∀ x ∈ mid, ∀ t b, x ≠ Call.phononInit t b) →
      (∀ r, Gives ext.pot (ext.phonon u a0 a) (.ok r) →
        (step ext (exec ext (step ext c (.phononInit s a0)).1 mid) (.phonon a)).2 = .ok .done ∧
        phononResult (step ext (exec ext (step ext c (.phononInit s a0)).1 mid) (.phonon a)).1 = some r) ∧
      (∀ e, Gives ext.pot (ext.phonon u a0 a) (.error e) →
        (step ext (exec ext (step ext c (.phononInit s a0)).1 mid) (.phonon a)).2 = .error e ∧
        phononResult (step ext (exec ext (step ext c (.phononInit s a0)).1 mid) (.phonon a)).1 = none)) := by
  constructor
  · intro cs a hcs
    have hn : (exec ext Calc.new cs).phonon = none := by
      clear a
      induction cs using List.reverseRecOn with
      | nil => rfl
      | append_singleton l x ih =>
        have h0 := ih (fun y hy => hcs y (by simp [hy]))
        have hx := hcs x (by simp)
        rw [exec_snoc]
        generalize exec ext Calc.new l = c at h0 ⊢
        cases x with
        | load l => cases l <;> exact h0
        | eval s =>
          change (eval ext c s).1.phonon = _
          rcases eval_cases ext c s with ⟨hn, he⟩ | ⟨l0, ws, hl, hv, he⟩ | ⟨l0, e0, hl, hf, he⟩ <;> rw [he] <;>
            simp only [setStructs_phonon, h0]
        | features s =>
          change (features ext c s).1.phonon = _
          rcases features_cases ext c s with ⟨e, he⟩ | ⟨l, r, -, -, he⟩ <;> rw [he] <;> simp only [setStructs_phonon, h0]
        | job k s a =>
          change (job ext c k s a).1.phonon = _
          rcases job_cases ext c k s a with ⟨e, -, he⟩ | ⟨u, e, -, -, he⟩ | ⟨u, e, -, -, -, he⟩ | ⟨u, r, -, -, -, he⟩ <;>
            rw [he] <;> simp only [setStructs_phonon, h0]
        | phononInit s a => exact (hx s a rfl).elim
        | phonon a =>
          change (phonon ext c a).1.phonon = _
          rcases phonon_cases ext c a with ⟨-, he⟩ | ⟨u', a0', old, e, h', -, he⟩ | ⟨u', a0', old, r, h', -, he⟩
          · rw [he]; exact h0
          · rw [h0] at h'; cases h'
          · rw [h0] at h'; cases h'
        | optInit s a =>
          change (optInit ext c s a).1.phonon = _
          rcases optInit_cases ext c s a with ⟨e, -, he⟩ | ⟨u, -, -, he⟩ | ⟨u, e, -, -, -, he⟩ | ⟨u, -, -, he⟩ <;>
            rw [he] <;> simp only [setStructs_phonon, h0]
        | opt a =>
          change (opt ext c a).1.phonon = _
          rcases opt_cases ext c a with ⟨-, he⟩ | ⟨u, a0, as, old, e, -, -, he⟩ | ⟨u, a0, as, old, r, -, -, he⟩ <;>
            rw [he] <;> exact h0
    change (phonon ext _ a).2 = _
    rcases phonon_cases ext (exec ext Calc.new cs) a with ⟨-, he⟩ | ⟨_, _, _, _, h', -, -⟩ | ⟨_, _, _, _, h', -, -⟩
    · rw [he]
    · rw [hn] at h'; cases h'
    · rw [hn] at h'; cases h'
  · intro s u a0 mid a hu hok hmid
    have h1 : (step ext c (.phononInit s a0)).1.phonon = some (u, a0, none) := by
      change (phononInit ext c s a0).2 = _ at hok
      change (phononInit ext c s a0).1.phonon = _
      rcases phononInit_cases ext c s a0 with ⟨e, -, he⟩ | ⟨u', e, -, -, he⟩ | ⟨u', hu', -, he⟩
      · rw [he] at hok; cases hok
      · rw [he] at hok; cases hok
      · rw [he, cellOf_unique hu hu']
    obtain ⟨r0, h2⟩ := exec_phonon_cell ext u a0 mid _ hmid ⟨none, h1⟩
    generalize exec ext (step ext c (.phononInit s a0)).1 mid = d at h2
    change (∀ r, _ → (phonon ext d a).2 = _ ∧ phononResult (phonon ext d a).1 = _) ∧
      (∀ e, _ → (phonon ext d a).2 = _ ∧ phononResult (phonon ext d a).1 = _)
    rcases phonon_cases ext d a with ⟨h', he⟩ | ⟨u', a0', old, e', h', hg, he⟩ | ⟨u', a0', old, r', h', hg, he⟩
    · rw [h2] at h'; cases h'
    · rw [h2] at h'; cases h'
      refine ⟨?_, ?_⟩
      · intro r hr; cases gives_unique hg hr
      · intro e he'; cases gives_unique hg he'; rw [he]; exact ⟨rfl, rfl⟩
    · rw [h2] at h'; cases h'
      refine ⟨?_, ?_⟩
      · intro r hr; cases gives_unique hg hr; rw [he]; exact ⟨rfl, rfl⟩
      · intro e he'; cases gives_unique hg he'

/-! ## Optimizations -/

theorem step_opt_cell (ext : Ext St V R A) (c : Calc St V R A) (x : Call St A) (u : Option St) (a0 : A) (as : List A)
    (hx : ∀ s a, x ≠ .optInit s a) (h : ∃ r, c.opt = some (u, a0, as, r)) :
    ∃ r, (step ext c x).1.opt = some (u, a0, as ++ optArgs [x], r) := by
  obtain ⟨r, h⟩ := h
  cases x with
  | load l => cases l <;> exact ⟨r, by simpa [optArgs, step] using h⟩
  | eval s =>
    change ∃ r, (eval ext c s).1.opt = _
    rcases eval_cases ext c s with ⟨hn, he⟩ | ⟨l0, ws, hl, hv, he⟩ | ⟨l0, e0, hl, hf, he⟩ <;> rw [he] <;>
      exact ⟨r, by simp [setStructs_opt, h, optArgs]⟩
  | features s =>
    change ∃ r, (features ext c s).1.opt = _
    rcases features_cases ext c s with ⟨e, he⟩ | ⟨l, r', -, -, he⟩ <;> rw [he] <;>
      exact ⟨r, by simp [setStructs_opt, h, optArgs]⟩
  | job k s a =>
    change ∃ r, (job ext c k s a).1.opt = _
    rcases job_cases ext c k s a with ⟨e, -, he⟩ | ⟨u, e, -, -, he⟩ | ⟨u, e, -, -, -, he⟩ | ⟨u, r', -, -, -, he⟩ <;>
      rw [he] <;> exact ⟨r, by simp [setStructs_opt, h, optArgs]⟩
  | phononInit s a =>
    change ∃ r, (phononInit ext c s a).1.opt = _
    rcases phononInit_cases ext c s a with ⟨e, -, he⟩ | ⟨u, e, -, -, he⟩ | ⟨u, -, -, he⟩ <;> rw [he] <;>
      exact ⟨r, by simp [setStructs_opt, h, optArgs]⟩
  | phonon a =>
    change ∃ r, (phonon ext c a).1.opt = _
    rcases phonon_cases ext c a with ⟨-, he⟩ | ⟨u', a0', old, e, h', -, he⟩ | ⟨u', a0', old, r', h', -, he⟩ <;> rw [he] <;>
      exact ⟨r, by simp [h, optArgs]⟩
  | optInit s a => exact (hx s a rfl).elim
  | opt a =>
    change ∃ r, (opt ext c a).1.opt = _
    rcases opt_cases ext c a with ⟨h', he⟩ | ⟨u', a0', as', old, e, h', -, he⟩ | ⟨u', a0', as', old, o, h', -, he⟩
    · rw [h] at h'; cases h'
    · rw [h] at h'; cases h'; rw [he]; exact ⟨_, rfl⟩
    · rw [h] at h'; cases h'; rw [he]; exact ⟨_, rfl⟩

theorem optArgs_cons (x : Call St A) (cs : List (Call St A)) : optArgs (x :: cs) = optArgs [x] ++ optArgs cs := by
  cases x <;> rfl

theorem exec_opt_cell (ext : Ext St V R A) (u : Option St) (a0 : A) : ∀ (cs : List (Call St A)) (as : List A)
    (c : Calc St V R A), (∀ x ∈ cs, ∀ s a, x ≠ Call.optInit s a) → (∃ r, c.opt = some (u, a0, as, r)) →
    ∃ r, (exec ext c cs).opt = some (u, a0, as ++ optArgs cs, r)
  | [], _, _, _, h => by simpa [exec, optArgs] using h
  | x :: cs, as, c, hx, h => by
    have := exec_opt_cell ext u a0 cs (as ++ optArgs [x]) _ (fun y hy => hx y (by simp [hy]))
      (step_opt_cell ext c x u a0 as (hx x (by simp)) h)
    rw [optArgs_cons, ← List.append_assoc]
    exact this

/-- C81 (optimizations).  Without anything to optimize, and without preparation, an optimization returns three times None
and changes nothing.  Otherwise it starts from the structure with which it was prepared last and continues the earlier
runs since then, whatever else was called in between; its final structure becomes the only structure, and its energy,
number of iterations and success are returned and reported. -/
theorem C81_opt (ext : Ext St V R A) (c : Calc St V R A) :
    (∀ a, c.opt = none → step ext c (.opt a) = (c, .ok (.optimized none))) ∧
    (∀ s u a0, CellOf c s u → Gives ext.pot (ext.optInit u a0) (.error .valueError) →
      (step ext c (.optInit s a0)).2 = .ok .done ∧ (step ext c (.optInit s a0)).1.opt = none) ∧
    (∀ s u a0 mid a o, CellOf c s u → Gives ext.pot (ext.optInit u a0) (.ok ()) →
      (∀ x ∈ mid, ∀ t b, x ≠ Call.optInit t b) →
      Gives ext.pot (ext.opt u a0 (optArgs mid ++ [a])) (.ok o) →
      let d := step ext (exec ext (step ext c (.optInit s a0)).1 mid) (.opt a)
      d.2 = .ok (.optimized (some (o.energy, o.nIter, o.success))) ∧ goData d.1 = some (o.energy, o.nIter, o.success) ∧
      d.1.structures = some [o.final] ∧ converged d.1 = .ok (some o.final)) := by
  refine ⟨?_, ?_, ?_⟩
  · intro a h
    change opt ext c a = _
    rcases opt_cases ext c a with ⟨h', he⟩ | ⟨_, _, _, _, _, h', -, -⟩ | ⟨_, _, _, _, _, h', -, -⟩
    · exact he
    · rw [h] at h'; cases h'
    · rw [h] at h'; cases h'
  · intro s u a0 hu hg
    change (optInit ext c s a0).2 = _ ∧ (optInit ext c s a0).1.opt = _
    rcases optInit_cases ext c s a0 with ⟨e, hn, he⟩ | ⟨u', hu', -, he⟩ | ⟨u', e, hu', hne, hg', he⟩ | ⟨u', hu', hg', he⟩
    · exact (hn u hu).elim
    · rw [he]; exact ⟨rfl, rfl⟩
    · rw [← cellOf_unique hu hu'] at hg'; cases gives_unique hg hg'; exact (hne rfl).elim
    · rw [← cellOf_unique hu hu'] at hg'; cases gives_unique hg hg'
  · intro s u a0 mid a o hu hg hmid ho
    have h1 : (step ext c (.optInit s a0)).1.opt = some (u, a0, [], none) := by
      change (optInit ext c s a0).1.opt = _
      rcases optInit_cases ext c s a0 with ⟨e, hn, he⟩ | ⟨u', hu', hg', he⟩ | ⟨u', e, hu', hne, hg', he⟩ | ⟨u', hu', hg', he⟩
      · exact (hn u hu).elim
      · rw [← cellOf_unique hu hu'] at hg'; cases gives_unique hg hg'
      · rw [← cellOf_unique hu hu'] at hg'; cases gives_unique hg hg'
      · rw [he, cellOf_unique hu hu']
    obtain ⟨r0, h2⟩ := exec_opt_cell ext u a0 mid [] _ hmid ⟨none, h1⟩
    rw [List.nil_append] at h2
    generalize exec ext (step ext c (.optInit s a0)).1 mid = d at h2
    change (opt ext d a).2 = _ ∧ goData (opt ext d a).1 = _ ∧ (opt ext d a).1.structures = _ ∧
      converged (opt ext d a).1 = _
    rcases opt_cases ext d a with ⟨h', he⟩ | ⟨_, _, _, _, e', h', hg', he⟩ | ⟨_, _, _, _, o', h', hg', he⟩
    · rw [h2] at h'; cases h'
    · rw [h2] at h'; cases h'; cases gives_unique ho hg'
    · rw [h2] at h'; cases h'; cases gives_unique ho hg'
      rw [he]; exact ⟨rfl, rfl, rfl, rfl⟩

/-! ## Coefficients -/

/-- C81 (coefficients).  A single model with one array of two or more coefficients, or none, is given that array; with a
list that has one array, that array.  Several models are given as many arrays, and any other number raises RuntimeError,
as missing coefficients do. -/
theorem C81_coeffs (n : ℕ) :
    (∀ x : List ℚ, x.length ≠ 1 → givenCoeffs 1 (some (.flat x)) = .ok (.array x)) ∧
    (∀ x : List ℚ, givenCoeffs 1 (some (.nested [x])) = .ok (.array x)) ∧
    (1 < n → ∀ x : List (List ℚ), (x.length = n → givenCoeffs n (some (.nested x)) = .ok (.arrays x)) ∧
      (x.length ≠ n → givenCoeffs n (some (.nested x)) = .error .runtimeError)) ∧
    givenCoeffs n none = .error .runtimeError := by
  refine ⟨?_, ?_, ?_, rfl⟩
  · intro x hx
    simp [givenCoeffs, Coeffs.len, hx, Coeffs.whole]
  · intro x
    simp [givenCoeffs, Coeffs.len, Coeffs.head]
  · intro hn x
    constructor
    · intro h
      have h1 : n ≠ 1 := by omega
      simp [givenCoeffs, Coeffs.len, h, h1, Coeffs.whole]
    · intro h
      simp [givenCoeffs, Coeffs.len, hn, Ne.symm h]

/-- C81 fails: an array with one coefficient is given to the evaluation as a number. -/
theorem C81_coeffs_violation : givenCoeffs 1 (some (.flat [5])) = .ok (.number 5) := by
  simp [givenCoeffs, Coeffs.len, Coeffs.head]

/-! ## What fails -/

/-- A program to try the statements with: structures and values are numbers; the potential fails for 9; an equation of
state evaluates two strained cells; an optimization evaluates one more structure and does not converge. -/
def demo : Ext ℕ ℕ ℕ ℕ where
  pot := fun s => if s = 9 then .error .valueError else .ok (10 * s)
  feat := fun l => .ok l.length
  jobInit := fun _ u _ => match u with | none => .error .attributeError | some _ => .ok ()
  job := fun _ u a => match u with
    | none => .ret (.error .attributeError)
    | some s => .ask [s + a, s + 2 * a] (fun vs => .ret (.ok vs.sum))
  phononInit := fun u _ => match u with | none => .error .attributeError | some _ => .ok ()
  phonon := fun u a0 _ => match u with
    | none => .ret (.error .attributeError)
    | some s => .ask [s + a0] (fun vs => .ret (.ok vs.sum))
  optInit := fun _ a => if a = 0 then .ret (.error .valueError) else .ret (.ok ())
  opt := fun u _ as => match u with
    | none => .ret (.error .attributeError)
    | some s => .ask [s + as.length] (fun vs => .ret (.ok ⟨s + as.length, vs.sum, 1, false⟩))

/-- C81 fails: after an equation of state the values reported are not those of the structures reported. -/
theorem C81_values_violation :
    let c := exec demo Calc.new [.eval (some [1, 2]), .job .eos none 3]
    c.structures = some [1, 2] ∧ reported c = some [40, 70] := by decide +kernel

/-- C81 fails: after an evaluation that raises an exception, and after reading structures, the structures are the new
ones and the values the old ones. -/
theorem C81_stale_violation :
    (let c := exec demo Calc.new [.eval (some [1]), .eval (some [2, 9])]
     c.structures = some [2, 9] ∧ reported c = some [10]) ∧
    (let c := exec demo Calc.new [.eval (some [1]), .load (.ok [2])]
     c.structures = some [2] ∧ reported c = some [10]) := by decide +kernel

/-- C81 fails: a structure is called converged after an optimization without success, and without any optimization. -/
theorem C81_converged_violation :
    (let c := exec demo Calc.new [.optInit (some [4]) 1, .opt 7]
     goData c = some (50, 1, false) ∧ converged c = .ok (some 5)) ∧
    converged (exec demo Calc.new [.load (.ok [4])]) = .ok (some 4) ∧
    converged (exec demo Calc.new [.optInit (some [4]) 1, .opt 7, .load (.ok [6])]) = .ok (some 6) := by
  refine ⟨?_, rfl, rfl⟩
  refine ⟨by decide +kernel, rfl⟩

/-- C81 fails: the unit cell that is reported is not the one of the phonons. -/
theorem C81_unitcell_violation :
    let c := exec demo Calc.new [.phononInit (some [4]) 1, .job .eos (some [2]) 3, .phonon 0]
    phononResult c = some 50 ∧ c.unitcell = some 2 := by decide +kernel

/-! The hypotheses are met by histories with all kinds of calls. -/

example : (step demo Calc.new (.eval (some [1, 3]))).2 = .ok (.values [10, 30]) := rfl
example : ValuesOf demo.pot [1, 3] [10, 30] := .cons rfl (.cons rfl .nil)
example : FailsWith demo.pot [1, 9, 3] .valueError := ⟨[1], 9, [3], rfl, by simp [demo], rfl⟩
example : reported (exec demo Calc.new [.eval (some [1, 3]), .load (.ok [2]), .features none]) = some [10, 30] := rfl
example : jobResult (exec demo Calc.new [.job .eos (some [1]) 1, .eval (some [5]), .job .elastic none 2]) .eos = some 50 := rfl
example : Makes demo .eos (Calc.new : Calc ℕ ℕ ℕ ℕ) (.job .eos (some [1]) 1) (some 50) :=
  ⟨some [1], 1, some 1, rfl, ⟨1, rfl, rfl⟩, rfl, .inl ⟨50, .ask (.cons rfl (.cons rfl .nil)) (.ret _), rfl⟩⟩
example : CellOf (Calc.new : Calc ℕ ℕ ℕ ℕ) (some [4, 5]) (some 4) := ⟨4, rfl, rfl⟩
example : Gives demo.pot (demo.optInit (some 4) 1) (.ok ()) := .ret _
example : Gives demo.pot (demo.optInit (some 4) 0) (.error .valueError) := .ret _
example : Gives demo.pot (demo.opt (some 4) 1 [7, 8]) (.ok ⟨6, 60, 1, false⟩) := .ask (.cons rfl .nil) (.ret _)
example : (step demo (exec demo Calc.new [.optInit (some [4]) 1, .opt 7, .eval (some [1])]) (.opt 8)).2 =
    .ok (.optimized (some (60, 1, false))) := by
  change Except.ok (Out.optimized (some (((60 : ℕ) : ℚ), 1, false))) = _
  norm_num

end Verif.CalcApi
