import Mathlib.Data.List.Nodup
import Mathlib.Tactic.NormNum
import Verif.Lemmas.Dict
import Verif.Props.CalcApi
import Verif.Spec.AutoProto

/-!
# C105: automatic calculations for prototype structures
-/

namespace Verif.AutoProto

open CalcApi Spec

variable {St V R A : Type}

theorem job_cell (t : Tools St V R A) (c : Calc St V R A) (k : Kind) (s : St) (a : A) (h : c.structures = some [s]) :
    (∃ e c', job t.ext c k none a = (c', .error e) ∧ JobGives t k s a (.error e)) ∨
      ∃ r c', job t.ext c k none a = (c', .ok (.result r)) ∧ JobGives t k s a (.ok r) ∧ jobResult c' k = some r ∧
        c'.structures = some [s] := by
  have hf : first c = .ok (some s) := by unfold first; rw [h]
  unfold job
  simp only [setStructs, hf]
  cases hi : t.ext.jobInit k (some s) a with
  | error e => left; exact ⟨e, _, rfl, .inl ⟨e, hi, rfl⟩⟩
  | ok u =>
    have hg := runProg_gives t.ext.pot (t.ext.job k (some s) a) c.last
    rcases hr : runProg t.ext.pot c.last (t.ext.job k (some s) a) with ⟨l, r⟩
    rw [hr] at hg
    cases r with
    | error e => left; exact ⟨e, _, rfl, .inr ⟨hi, hg⟩⟩
    | ok r => right; exact ⟨r, _, rfl, .inr ⟨hi, hg⟩, by simp [jobResult], h⟩

theorem phonon_cell (t : Tools St V R A) (c : Calc St V R A) (s : St) (p : Prototype St R A)
    (h : c.structures = some [s]) :
    (∃ e c', runPhonon t c p = (c', p, .error e) ∧ PhononGives t s p.supercell (.error e)) ∨
      ∃ r c', runPhonon t c p = (c', { p with dos := some r }, .ok ()) ∧ PhononGives t s p.supercell (.ok r) := by
  have hf : first c = .ok (some s) := by unfold first; rw [h]
  unfold runPhonon phononInit
  simp only [setStructs, hf]
  cases hi : t.ext.phononInit (some s) p.supercell with
  | error e => left; exact ⟨e, _, rfl, .inl ⟨e, hi, rfl⟩⟩
  | ok u =>
    have hg := runProg_gives t.ext.pot (t.ext.phonon (some s) p.supercell t.distance) c.last
    unfold phonon
    rcases hr : runProg t.ext.pot c.last (t.ext.phonon (some s) p.supercell t.distance) with ⟨l, r⟩
    rw [hr] at hg
    simp only [hr]
    cases r with
    | error e => left; exact ⟨e, _, rfl, .inr ⟨hi, hg⟩⟩
    | ok r => right; exact ⟨r, _, rfl, .inr ⟨hi, hg⟩⟩

theorem optimize_cases (t : Tools St V R A) (c : Calc St V R A) (p : Prototype St R A) :
    (∃ e c', e ≠ Err.valueError ∧ optimize t c p = (c', p, .error e) ∧
      Gives t.ext.pot (t.ext.optInit (some p.cell) t.relax) (.error e)) ∨
    (∃ c', optimize t c p = (c', p, .ok none) ∧ NotRelaxed t p.cell) ∨
    ∃ o c', optimize t c p = (c', withOptimum t p o, .ok (some o.final)) ∧ Relaxes t p.cell o ∧
      c'.structures = some [o.final] := by
  have hg := runProg_gives t.ext.pot (t.ext.optInit (some p.cell) t.relax) c.last
  unfold optimize optInit
  simp only [setStructs, first]
  rcases hr : runProg t.ext.pot c.last (t.ext.optInit (some p.cell) t.relax) with ⟨l, r⟩
  rw [hr] at hg
  cases r with
  | error e =>
    by_cases he : e = .valueError
    · subst he
      right; left
      exact ⟨_, rfl, .inl hg⟩
    · left
      refine ⟨e, { c with structures := some [p.cell], last := l }, he, ?_, hg⟩
      cases e <;> first | rfl | exact absurd rfl he
  | ok u =>
    have hg2 := runProg_gives t.ext.pot (t.ext.opt (some p.cell) t.relax [t.cg]) l
    unfold opt
    simp only [List.nil_append]
    rcases hr2 : runProg t.ext.pot l (t.ext.opt (some p.cell) t.relax [t.cg]) with ⟨l2, r2⟩
    rw [hr2] at hg2
    cases r2 with
    | error e => right; left; exact ⟨_, rfl, .inr ⟨hg, .inl ⟨e, hg2⟩⟩⟩
    | ok o =>
      obtain ⟨fin, en, n, su⟩ := o
      cases su with
      | false => right; left; exact ⟨_, rfl, .inr ⟨hg, .inr ⟨_, hg2, rfl⟩⟩⟩
      | true => right; right; exact ⟨_, _, rfl, ⟨hg, hg2, rfl⟩, rfl⟩

theorem runOne_cases (t : Tools St V R A) (c : Calc St V R A) (p : Prototype St R A) :
    (∃ c' p', runOne t c p = (c', p', .ok ()) ∧ ReportOf t p p') ∨
      ∃ c' p' e, runOne t c p = (c', p', .error e) ∧ StopsWith t p p' e := by
  unfold runOne
  rcases optimize_cases t c p with ⟨e, c', hne, ho, hg⟩ | ⟨c', ho, hn⟩ | ⟨o, c1, ho, hrel, hs⟩
  · right; exact ⟨c', p, e, by rw [ho], .prepare e hne hg⟩
  · left; exact ⟨c', p, by rw [ho], .inr ⟨hn, rfl⟩⟩
  · simp only [ho]
    unfold runEos
    rcases job_cell t c1 .eos o.final t.eosArgs hs with ⟨e, c2, hj, hje⟩ | ⟨r, c2, hj, hjo, hres, hs2⟩
    · right; exact ⟨c2, _, e, by rw [hj], .eos o e hrel hje⟩
    · simp only [hj, hres]
      unfold setEos
      cases hfit : (t.eosOf r).fit with
      | none => right; exact ⟨c2, _, _, rfl, .noFit o r hrel hjo hfit⟩
      | some f =>
        obtain ⟨e, v, b⟩ := f
        cases hcur : (t.eosOf r).fitted with
        | none => right; exact ⟨c2, _, _, rfl, .noCurve o r e v b hrel hjo hfit hcur⟩
        | some l =>
          simp only []
          unfold runElastic
          cases hread : t.reread o.final with
          | error err => right; exact ⟨c2, _, _, rfl, .file o r e v b l err hrel hjo hfit hcur hread⟩
          | ok s =>
            rcases job_cell t { c2 with structures := some [s] } .elastic s t.elasticArgs rfl with
              ⟨err, c3, hj3, hje⟩ | ⟨er, c3, hj3, hje, hres3, hs3⟩
            · right
              exact ⟨c3, _, err, by simp only [hj3]; rfl, .elastic o r e v b l s err hrel hjo hfit hcur hread hje⟩
            · simp only [hj3, hres3]
              rcases phonon_cell t c3 s { withFit (withOptimum t p o) e v b (t.eosOf r).points l with elastic := some er } hs3 with
                ⟨err, c4, hp, hpe⟩ | ⟨dr, c4, hp, hpe⟩
              · right
                exact ⟨c4, _, err, hp, .phonon o r e v b l s er err hrel hjo hfit hcur hread hje hpe⟩
              · left
                refine ⟨c4, _, hp, .inl ⟨o, r, e, v, b, l, s, er, dr, hrel, hjo, ?_, hread, hje, hpe, rfl⟩⟩
                rw [← hfit, ← hcur]

/-- C105 (reports).  Whatever the object that calculates was used for before: without an exception, every prototype has
its own report, in its place; energy and volume per atom are those of its own optimum, and the equation of state, the
elastic constants and the phonons are those of the same optimum. -/
theorem C105_reports (t : Tools St V R A) (c : Calc St V R A) (ps : List (Prototype St R A))
    (h : (run t c (some ps)).2.2 = .ok ()) :
    ∃ ps', (run t c (some ps)).2.1 = some ps' ∧ List.Forall₂ (ReportOf t) ps ps' := by
  change (runAll t c ps).2.2 = .ok () at h
  refine ⟨_, rfl, ?_⟩
  change List.Forall₂ (ReportOf t) ps (runAll t c ps).2.1
  induction ps generalizing c with
  | nil => exact .nil
  | cons p ps ih =>
    unfold runAll at h ⊢
    rcases runOne_cases t c p with ⟨c', p', ho, hr⟩ | ⟨c', p', e, ho, hr⟩
    · simp only [ho] at h ⊢
      exact .cons hr (ih c' h)
    · simp only [ho] at h
      cases h

/-- C105 (exceptions).  An exception ends the run at one prototype: those before it have their reports, it has what was
obtained before the exception, and those after it are untouched. -/
theorem C105_exception (t : Tools St V R A) (c : Calc St V R A) (ps : List (Prototype St R A)) (e : Err)
    (h : (run t c (some ps)).2.2 = .error e) :
    ∃ pre p post pre' p', ps = pre ++ p :: post ∧ (run t c (some ps)).2.1 = some (pre' ++ p' :: post) ∧
      List.Forall₂ (ReportOf t) pre pre' ∧ StopsWith t p p' e := by
  change (runAll t c ps).2.2 = .error e at h
  change ∃ pre p post pre' p', ps = pre ++ p :: post ∧ some (runAll t c ps).2.1 = some (pre' ++ p' :: post) ∧ _
  induction ps generalizing c with
  | nil => cases h
  | cons p ps ih =>
    unfold runAll at h ⊢
    rcases runOne_cases t c p with ⟨c', p', ho, hr⟩ | ⟨c', p', e', ho, hr⟩
    · simp only [ho] at h ⊢
      obtain ⟨pre, q, post, pre', q', rfl, h2, h3, h4⟩ := ih c' h
      refine ⟨p :: pre, q, post, p' :: pre', q', rfl, ?_, .cons hr h3, h4⟩
      rw [Option.some.injEq] at h2 ⊢
      rw [h2]; rfl
    · simp only [ho] at h ⊢
      cases h
      exact ⟨[], p, ps, [], p', rfl, rfl, .nil, hr⟩


theorem runProg_indep {T : Type} (pot : St → Except Err V) (p : Prog St V T) (l l' : Option (Last St V)) :
    (runProg pot l p).2 = (runProg pot l' p).2 := gives_unique (runProg_gives pot p l) (runProg_gives pot p l')

theorem optimize_indep (t : Tools St V R A) (c c' : Calc St V R A) (p : Prototype St R A) :
    (optimize t c p).2 = (optimize t c' p).2 := by
  unfold optimize optInit
  simp only [setStructs, first]
  have h1 := runProg_indep t.ext.pot (t.ext.optInit (some p.cell) t.relax) c.last c'.last
  rcases hr : runProg t.ext.pot c.last (t.ext.optInit (some p.cell) t.relax) with ⟨l, r⟩
  rcases hr' : runProg t.ext.pot c'.last (t.ext.optInit (some p.cell) t.relax) with ⟨l', r'⟩
  rw [hr, hr'] at h1
  simp only at h1
  subst h1
  cases r with
  | error e => cases e <;> rfl
  | ok u =>
    unfold opt
    simp only [List.nil_append]
    have h2 := runProg_indep t.ext.pot (t.ext.opt (some p.cell) t.relax [t.cg]) l l'
    rcases hr2 : runProg t.ext.pot l (t.ext.opt (some p.cell) t.relax [t.cg]) with ⟨l2, r2⟩
    rcases hr2' : runProg t.ext.pot l' (t.ext.opt (some p.cell) t.relax [t.cg]) with ⟨l2', r2'⟩
    rw [hr2, hr2'] at h2
    simp only at h2
    subst h2
    cases r2 with
    | error e => rfl
    | ok o =>
      obtain ⟨fin, en, n, su⟩ := o
      cases su <;> rfl

theorem job_indep (t : Tools St V R A) (c c' : Calc St V R A) (k : Kind) (s : St) (a : A)
    (h : c.structures = some [s]) (h' : c'.structures = some [s]) :
    (∃ e d d', job t.ext c k none a = (d, .error e) ∧ job t.ext c' k none a = (d', .error e)) ∨
      ∃ r d d', job t.ext c k none a = (d, .ok (.result r)) ∧ job t.ext c' k none a = (d', .ok (.result r)) ∧
        jobResult d k = some r ∧ jobResult d' k = some r ∧ d.structures = some [s] ∧ d'.structures = some [s] := by
  have hu : ∀ r r', JobGives t k s a r → JobGives t k s a r' → r = r' := by
    intro r r' h h'
    rcases h with ⟨e, h1, rfl⟩ | ⟨h1, h2⟩ <;> rcases h' with ⟨e', h1', rfl⟩ | ⟨h1', h2'⟩
    · rw [h1] at h1'; cases h1'; rfl
    · rw [h1] at h1'; cases h1'
    · rw [h1] at h1'; cases h1'
    · exact gives_unique h2 h2'
  rcases job_cell t c k s a h with ⟨e, d, hj, hg⟩ | ⟨r, d, hj, hg, hr, hs⟩ <;>
    rcases job_cell t c' k s a h' with ⟨e', d', hj', hg'⟩ | ⟨r', d', hj', hg', hr', hs'⟩
  · have := hu _ _ hg hg'; cases this
    exact .inl ⟨e, d, d', hj, hj'⟩
  · have := hu _ _ hg hg'; cases this
  · have := hu _ _ hg hg'; cases this
  · have := hu _ _ hg hg'; cases this
    exact .inr ⟨r, d, d', hj, hj', hr, hr', hs, hs'⟩

theorem phonon_indep (t : Tools St V R A) (c c' : Calc St V R A) (s : St) (p : Prototype St R A)
    (h : c.structures = some [s]) (h' : c'.structures = some [s]) : (runPhonon t c p).2 = (runPhonon t c' p).2 := by
  have hu : ∀ r r', PhononGives t s p.supercell r → PhononGives t s p.supercell r' → r = r' := by
    intro r r' h h'
    rcases h with ⟨e, h1, rfl⟩ | ⟨h1, h2⟩ <;> rcases h' with ⟨e', h1', rfl⟩ | ⟨h1', h2'⟩
    · rw [h1] at h1'; cases h1'; rfl
    · rw [h1] at h1'; cases h1'
    · rw [h1] at h1'; cases h1'
    · exact gives_unique h2 h2'
  rcases phonon_cell t c s p h with ⟨e, d, hj, hg⟩ | ⟨r, d, hj, hg⟩ <;>
    rcases phonon_cell t c' s p h' with ⟨e', d', hj', hg'⟩ | ⟨r', d', hj', hg'⟩ <;>
    have := hu _ _ hg hg' <;> cases this <;> rw [hj, hj']

theorem runOne_indep (t : Tools St V R A) (c c' : Calc St V R A) (p : Prototype St R A) :
    (runOne t c p).2 = (runOne t c' p).2 := by
  have h := optimize_indep t c c' p
  have hs : ∀ c : Calc St V R A, ∀ d q s, optimize t c p = (d, q, .ok (some s)) → d.structures = some [s] := by
    intro c d q s ho
    rcases optimize_cases t c p with ⟨e, c', hne, ho', hg⟩ | ⟨c', ho', hn⟩ | ⟨o, c1, ho', hrel, hs⟩
    · rw [ho'] at ho; cases ho
    · rw [ho'] at ho; cases ho
    · rw [ho'] at ho; cases ho; exact hs
  unfold runOne
  rcases ho : optimize t c p with ⟨d, q, r⟩
  rcases ho' : optimize t c' p with ⟨d', q', r'⟩
  rw [ho, ho'] at h
  simp only [Prod.mk.injEq] at h
  obtain ⟨rfl, rfl⟩ := h
  cases r with
  | error e => rfl
  | ok o =>
    cases o with
    | none => rfl
    | some s =>
      simp only []
      unfold runEos
      rcases job_indep t d d' .eos s t.eosArgs (hs c d q s ho) (hs c' d' q s ho') with
        ⟨e, f, f', hj, hj'⟩ | ⟨r, f, f', hj, hj', hr, hr', hf, hf'⟩
      · simp only [hj, hj']
      · simp only [hj, hj', hr, hr']
        rcases setEos q (t.eosOf r) with ⟨q2, r2⟩
        cases r2 with
        | error e => rfl
        | ok u =>
          simp only []
          unfold runElastic
          cases t.reread s with
          | error e => rfl
          | ok s2 =>
            simp only []
            rcases job_indep t { f with structures := some [s2] } { f' with structures := some [s2] } .elastic s2
              t.elasticArgs rfl rfl with ⟨e, g, g', hj, hj'⟩ | ⟨r, g, g', hj, hj', hr, hr', hg, hg'⟩
            · simp only [hj, hj']
            · simp only [hj, hj', hr, hr']
              exact phonon_indep t g g' s2 _ hg hg'

/-- C105 (history).  Prototypes and exceptions do not depend on what the object was used for before. -/
theorem C105_history (t : Tools St V R A) (c c' : Calc St V R A) (ps : Option (List (Prototype St R A))) :
    (run t c ps).2 = (run t c' ps).2 := by
  cases ps with
  | none => rfl
  | some ps =>
    have h : ∀ (ps : List (Prototype St R A)) (c c' : Calc St V R A), (runAll t c ps).2 = (runAll t c' ps).2 := by
      intro ps
      induction ps with
      | nil => intro c c'; rfl
      | cons p ps ih =>
        intro c c'
        have h1 := runOne_indep t c c' p
        unfold runAll
        rcases ho : runOne t c p with ⟨d, q, r⟩
        rcases ho' : runOne t c' p with ⟨d', q', r'⟩
        rw [ho, ho'] at h1
        simp only [Prod.mk.injEq] at h1
        obtain ⟨rfl, rfl⟩ := h1
        cases r with
        | error e => rfl
        | ok u =>
          have := ih d d'
          simp only [this]
    unfold run
    simp only [h ps c c']

/-- C105 (order).  Without exceptions the report of a prototype is the same wherever it stands in the list: running a
list is running each prototype alone. -/
theorem C105_alone (t : Tools St V R A) (c : Calc St V R A) (ps : List (Prototype St R A))
    (h : (run t c (some ps)).2.2 = .ok ()) :
    ∀ p ∈ ps, ∃ p', (run t Calc.new (some [p])).2 = (some [p'], .ok ()) ∧
      ∀ i : ℕ, ps[i]? = some p → ((run t c (some ps)).2.1.getD [])[i]? = some p' := by
  change (runAll t c ps).2.2 = .ok () at h
  intro p hp
  have h1 : ∀ (ps : List (Prototype St R A)) (c : Calc St V R A), (runAll t c ps).2.2 = .ok () →
      (runAll t c ps).2.1 = ps.map fun p => (runOne t Calc.new p).2.1 := by
    intro ps
    induction ps with
    | nil => intro c _; rfl
    | cons p ps ih =>
      intro c h
      have hi := runOne_indep t c Calc.new p
      unfold runAll at h ⊢
      rcases ho : runOne t c p with ⟨d, q, r⟩
      rw [ho] at h hi
      cases r with
      | error e => cases h
      | ok u => simp only [List.map_cons, ← hi]; rw [ih d h]
  have h2 : ∀ (ps : List (Prototype St R A)) (c : Calc St V R A), (runAll t c ps).2.2 = .ok () → p ∈ ps →
      (runOne t Calc.new p).2.2 = .ok () := by
    intro ps
    induction ps with
    | nil => intro c _ hm; cases hm
    | cons q ps ih =>
      intro c h hm
      have hi := runOne_indep t c Calc.new q
      unfold runAll at h
      rcases ho : runOne t c q with ⟨d, q', r⟩
      rw [ho] at h hi
      cases r with
      | error e => cases h
      | ok u =>
        rcases List.mem_cons.1 hm with rfl | hm
        · rw [← hi]
        · exact ih d h hm
  refine ⟨(runOne t Calc.new p).2.1, ?_, ?_⟩
  · have := h2 ps c h hp
    change (some (runAll t Calc.new [p]).2.1, (runAll t Calc.new [p]).2.2) = _
    unfold runAll
    rcases ho : runOne t Calc.new p with ⟨d, q', r⟩
    rw [ho] at this
    simp only at this
    subst this
    rfl
  · intro i hi
    change ((some (runAll t c ps).2.1).getD [])[i]? = _
    rw [Option.getD_some, h1 ps c h, List.getElem?_map, hi]
    rfl

/-- C105 (files).  A file is written for every prototype with an equilibrium structure, under its own name, and for no
other. -/
theorem C105_saved (header : List Char) (ps : List (Prototype St R A)) (hn : (ps.map fun p => p.name).Nodup) :
    (∀ f p, (f, p) ∈ saved header ps ↔
      p ∈ ps ∧ p.eq ≠ none ∧ f = header ++ p.name ++ "/polymlp_predictions.yaml".toList) ∧
    ((saved header ps).map fun x => x.1).Nodup := by
  have hm : ∀ f p, (f, p) ∈ saved header ps ↔
      p ∈ ps ∧ p.eq ≠ none ∧ f = header ++ p.name ++ "/polymlp_predictions.yaml".toList := by
    intro f p
    unfold saved
    rw [List.mem_filterMap]
    constructor
    · rintro ⟨q, hq, h⟩
      split at h
      · rename_i hs
        cases h
        refine ⟨hq, ?_, by simp [List.append_assoc]⟩
        intro h0; rw [h0] at hs; cases hs
      · cases h
    · rintro ⟨hp, hs, rfl⟩
      refine ⟨p, hp, ?_⟩
      rw [if_pos (Option.isSome_iff_ne_none.2 hs)]
      simp [List.append_assoc]
  refine ⟨hm, ?_⟩
  clear hm
  induction ps with
  | nil => simp [saved]
  | cons p ps ih =>
    rw [List.map_cons, List.nodup_cons] at hn
    have h0 := ih hn.2
    unfold saved at h0 ⊢
    rw [List.filterMap_cons]
    split
    · rename_i heq; exact h0
    · rename_i x heq
      rw [List.map_cons, List.nodup_cons]
      refine ⟨?_, h0⟩
      split at heq
      · cases heq
        intro hmem
        rw [List.mem_map] at hmem
        obtain ⟨⟨f, q⟩, hq, he⟩ := hmem
        rw [List.mem_filterMap] at hq
        obtain ⟨q', hq', h⟩ := hq
        split at h
        · cases h
          simp only [List.append_assoc, List.append_cancel_left_eq] at he
          have : q.name = p.name := List.append_cancel_right he
          exact hn.1 (List.mem_map.2 ⟨q, hq', this⟩)
        · cases h
      · cases heq


theorem find_last {κ β : Type} [DecidableEq κ] (i : κ) (s : β) : ∀ l : List (κ × β),
    (l.reverse.find? fun p => p.1 = i).map (·.2) = some s ↔
      ∃ k : ℕ, l[k]? = some (i, s) ∧ ∀ j : ℕ, k < j → ∀ v, l[j]? ≠ some (i, v)
  | [] => by simp
  | x :: l => by
    rw [List.reverse_cons, List.find?_append]
    have ih := find_last i s l
    cases hf : l.reverse.find? fun p => p.1 = i with
    | some y =>
      rw [hf] at ih
      rw [Option.some_or, ih]
      constructor
      · rintro ⟨k, hk, hl⟩
        refine ⟨k + 1, by simpa using hk, ?_⟩
        rintro (_ | j) hj v
        · omega
        · simpa using hl j (by omega) v
      · rintro ⟨k, hk, hl⟩
        rcases k with _ | k
        · exfalso
          have hy := List.find?_some hf
          have hm := List.mem_of_find?_eq_some hf
          rw [List.mem_reverse] at hm
          obtain ⟨j, hj⟩ := List.mem_iff_getElem?.1 hm
          obtain ⟨y1, y2⟩ := y
          simp only [decide_eq_true_eq] at hy
          subst hy
          exact hl (j + 1) (by omega) y2 (by simpa using hj)
        · refine ⟨k, by simpa using hk, fun j hj v => ?_⟩
          simpa using hl (j + 1) (by omega) v
    | none =>
      rw [Option.none_or]
      have hno : ∀ (j : ℕ) (v : β), l[j]? ≠ some (i, v) := by
        intro j v hj
        rw [List.find?_eq_none] at hf
        exact hf (i, v) (by rw [List.mem_reverse]; exact List.mem_iff_getElem?.2 ⟨j, hj⟩) (by simp)
      obtain ⟨x1, x2⟩ := x
      by_cases hx : x1 = i
      · subst hx
        simp only [List.find?_cons, decide_true, Option.map_some, Option.some.injEq]
        constructor
        · rintro rfl
          refine ⟨0, rfl, ?_⟩
          rintro (_ | j) hj v
          · omega
          · simpa using hno j v
        · rintro ⟨k, hk, -⟩
          rcases k with _ | k
          · simpa using hk
          · exact absurd (by simpa using hk) (hno k s)
      · simp only [List.find?_cons, decide_eq_false hx, List.find?_nil, Option.map_none]
        constructor
        · intro h; cases h
        · rintro ⟨k, hk, -⟩
          rcases k with _ | k
          · simp only [List.getElem?_cons_zero, Option.some.injEq, Prod.mk.injEq] at hk
            exact absurd hk.1 hx
          · exact absurd (by simpa using hk) (hno k s)

theorem lastWithId_get (ids : List Id) (structures : List St) (i : Id) (s : St) :
    (Dict.setAll [] (ids.zip structures)).get? i = some s ↔ LastWithId ids structures i s := by
  rw [Dict.get?_setAll]
  have h0 : Dict.get? ([] : Dict Id St) i = none := rfl
  rw [h0, Option.or_none, find_last]
  unfold LastWithId
  simp only [List.getElem?_zip_eq_some, ne_eq]
  constructor
  · rintro ⟨k, ⟨h1, h2⟩, h3⟩
    refine ⟨k, h1, h2, fun j hj hi => ?_⟩
    cases hs : structures[j]? with
    | none => rfl
    | some v => exact absurd ⟨hi, hs⟩ (h3 j hj v)
  · rintro ⟨k, h1, h2, h3⟩
    refine ⟨k, ⟨h1, h2⟩, fun j hj v hv => ?_⟩
    rw [h3 j hj hv.1] at hv
    cases hv.2

/-- C105 (first principles).  Without prototypes, or with different numbers of files and IDs, the call is refused.
Otherwise every prototype whose ID was given has the refined cell of the last file with that ID; all other prototypes,
and those whose cell cannot be refined, are as before. -/
theorem C105_dft {F : Type} (parse : List F → Except Err (List St)) (refine : St → Except Err St)
    (ps : List (Prototype St R A)) (vaspruns : List F) (ids : List Id) :
    setDft parse refine (none : Option (List (Prototype St R A))) vaspruns ids = .error .runtimeError ∧
    (vaspruns.length ≠ ids.length → setDft parse refine (some ps) vaspruns ids = .error .runtimeError) ∧
    (vaspruns.length = ids.length →
      (∀ e, parse vaspruns = .error e → setDft parse refine (some ps) vaspruns ids = .error e) ∧
      ∀ structures, parse vaspruns = .ok structures → ∃ ps', setDft parse refine (some ps) vaspruns ids = .ok ps' ∧
        List.Forall₂ (fun p p' =>
          (∃ s s', LastWithId ids structures p.icsd s ∧ refine s = .ok s' ∧ p' = { p with dft := some s' }) ∨
          p' = p ∧ ((∀ s, ¬ LastWithId ids structures p.icsd s) ∨
            ∃ s e, LastWithId ids structures p.icsd s ∧ refine s = .error e)) ps ps') := by
  refine ⟨rfl, fun h => by simp [setDft, h], fun h => ⟨fun e he => by simp [setDft, h, he], fun structures hp => ?_⟩⟩
  refine ⟨ps.map (setDftOne refine (Dict.setAll [] (ids.zip structures))), by simp [setDft, h, hp], ?_⟩
  rw [List.forall₂_map_right_iff]
  refine List.forall₂_same.2 fun p _ => ?_
  unfold setDftOne
  cases hg : (Dict.setAll [] (ids.zip structures)).get? p.icsd with
  | none =>
    right
    refine ⟨rfl, .inl fun s hs => ?_⟩
    rw [(lastWithId_get ids structures p.icsd s).2 hs] at hg
    cases hg
  | some s =>
    have hl := (lastWithId_get ids structures p.icsd s).1 hg
    simp only []
    cases hr : refine s with
    | error e => right; exact ⟨rfl, .inr ⟨s, e, hl, hr⟩⟩
    | ok s' => left; exact ⟨s, s', hl, hr, rfl⟩

/-! ## The lists -/

theorem append_sep_inj {ch : Char} : ∀ {x y a b : List Char}, ch ∉ a → ch ∉ b → x ++ ch :: a = y ++ ch :: b → x = y ∧ a = b := by
  intro x
  induction x with
  | nil =>
    intro y a b ha hb h
    cases y with
    | nil => simp at h; exact ⟨rfl, h⟩
    | cons z y =>
      simp at h
      exfalso
      exact ha (by rw [h.2]; simp)
  | cons w x ih =>
    intro y a b ha hb h
    cases y with
    | nil =>
      simp at h
      exfalso
      exact hb (by rw [← h.2]; simp)
    | cons z y =>
      simp at h
      obtain ⟨h1, h2⟩ := ih ha hb h.2
      exact ⟨by rw [h.1, h1], h2⟩

theorem element_names : (elementTable.map fun r => r.1.toList).Nodup := by decide +kernel

theorem binary_names : (binaryTable.map fun r => r.1.toList).Nodup := by decide +kernel

theorem binary_last : ∀ r ∈ binaryTable, r.1.toList.getLast? = some ')' := by decide +kernel

/-- C105 (lists).  For one element there are 18 prototypes, for two elements 33 binary ones and 18 of each element, for
other numbers of elements an error.  All names are different, so that no directory is used twice. -/
theorem C105_lists (mk : String → List (List Char) → St) (diag : ℕ × ℕ × ℕ → A) (a b : List Char) (ha : Symbol a)
    (hb : Symbol b) (hab : a ≠ b) :
    (∃ ps : List (Prototype St R A), loadStructures mk diag [a] = .ok ps ∧ ps.length = 18 ∧
      (ps.map fun p => p.name).Nodup ∧ (ps.map fun p => p.icsd).Nodup) ∧
    (∃ ps : List (Prototype St R A), loadStructures mk diag [a, b] = .ok ps ∧ ps.length = 69 ∧
      (ps.map fun p => p.name).Nodup) ∧
    (∀ els : List (List Char), els.length ≠ 1 → els.length ≠ 2 →
      (loadStructures mk diag els : Except Err (List (Prototype St R A))) = .error .runtimeError) := by
  have hname : ∀ ele, ((elementList mk diag ele : List (Prototype St R A)).map fun p => p.name) =
      elementTable.map fun r => r.1.toList := by
    intro ele; unfold elementList; rw [List.map_map]; rfl
  have hsuf : ∀ ele, (((elementList mk diag ele : List (Prototype St R A)).map fun p =>
      { p with name := p.name ++ "_".toList ++ ele }).map fun p => p.name) =
      (elementTable.map fun r => r.1.toList).map fun n => n ++ '_' :: ele := by
    intro ele; unfold elementList; simp only [List.map_map]
    apply List.map_congr_left
    intro r _
    simp
  have hbin : ((binaryList mk diag [a, b] : List (Prototype St R A)).map fun p => p.name) =
      binaryTable.map fun r => r.1.toList := by
    unfold binaryList; rw [List.map_map]; rfl
  have hun : ∀ x, Symbol x → '_' ∉ x := fun x hx hm => by
    have := hx.2 _ hm; revert this; decide
  refine ⟨⟨_, rfl, by unfold elementList; rw [List.length_map]; rfl, by rw [hname]; exact element_names, ?_⟩,
    ⟨_, rfl, ?_, ?_⟩, ?_⟩
  · unfold elementList; rw [List.map_map]
    change (elementTable.map fun r => Id.int r.2.1).Nodup
    decide +kernel
  · simp only [List.length_append, List.flatMap_cons, List.flatMap_nil, List.length_map, List.length_nil]
    unfold elementList binaryList
    rw [List.length_map, List.length_map, List.length_map]
    rfl
  · simp only [List.map_append, List.flatMap_cons, List.flatMap_nil, List.append_nil, hsuf, hbin]
    have hinj : ∀ ele, Symbol ele → ((elementTable.map fun r => r.1.toList).map fun n => n ++ '_' :: ele).Nodup := by
      intro ele he
      refine List.Nodup.map ?_ element_names
      intro x y hxy
      exact (append_sep_inj (hun _ he) (hun _ he) hxy).1
    have hlast : ∀ ele, Symbol ele → ∀ n ∈ (elementTable.map fun r => r.1.toList).map (fun n => n ++ '_' :: ele),
        n ∉ binaryTable.map fun r => r.1.toList := by
      intro ele he n hn hm
      obtain ⟨r, hr, rfl⟩ := List.mem_map.1 hm
      have h1 := binary_last r hr
      obtain ⟨m, -, h2⟩ := List.mem_map.1 hn
      rw [← h2] at h1
      have h3 : ele.getLast? = some ')' := by
        have hne := he.1
        rw [List.getLast?_append] at h1
        cases ele with
        | nil => exact absurd rfl hne
        | cons z ele => simpa [List.getLast?_cons_cons] using h1
      have := he.2 _ (List.mem_of_getLast? h3)
      revert this; decide
    refine List.nodup_append.2 ⟨binary_names, List.nodup_append.2 ⟨hinj a ha, hinj b hb, ?_⟩, ?_⟩
    · intro x hx y hy hxy
      obtain ⟨m, -, rfl⟩ := List.mem_map.1 hx
      obtain ⟨m', -, rfl⟩ := List.mem_map.1 hy
      exact hab (append_sep_inj (hun _ ha) (hun _ hb) hxy).2
    · intro x hx y hy hxy
      subst hxy
      rcases List.mem_append.1 hy with hy | hy
      · exact hlast a ha x hy hx
      · exact hlast b hb x hy hx
  · intro els h1 h2
    rcases els with _ | ⟨x, _ | ⟨y, _ | ⟨z, els⟩⟩⟩
    · rfl
    · exact absurd rfl h1
    · exact absurd rfl h2
    · rfl

/-- C105 (cells).  For two elements, every cell is made for the two elements in the given order or for one of them; an
elemental prototype carries the name of its element, and it is the one of the list of this element. -/
theorem C105_cells (mk : String → List (List Char) → St) (diag : ℕ × ℕ × ℕ → A) (a b : List Char)
    (ps : List (Prototype St R A)) (h : loadStructures mk diag [a, b] = .ok ps) :
    ∀ p ∈ ps, (∃ n, p.cell = mk n [a, b] ∧ p.name = n.toList) ∨
      ∃ ele n, (ele = a ∨ ele = b) ∧ p.cell = mk n [ele] ∧ p.name = n.toList ++ '_' :: ele ∧
        ∃ q qs, loadStructures mk diag [ele] = .ok qs ∧ q ∈ qs ∧ q.name = n.toList ∧ p = { q with name := p.name } := by
  cases h
  intro p hp
  rcases List.mem_append.1 hp with hp | hp
  · unfold binaryList at hp
    obtain ⟨r, -, rfl⟩ := List.mem_map.1 hp
    exact .inl ⟨r.1, rfl, rfl⟩
  · obtain ⟨ele, he, hp⟩ := List.mem_flatMap.1 hp
    obtain ⟨q, hq, rfl⟩ := List.mem_map.1 hp
    have hq' := hq
    unfold elementList at hq
    obtain ⟨r, -, rfl⟩ := List.mem_map.1 hq
    exact .inr ⟨ele, r.1, by simpa using he, rfl, by simp, _, _, rfl, hq', rfl, rfl⟩

/-! ## What fails -/

/-- A program to try the statements with: structures are numbers of atoms; an optimization of 3 fails, and so does the
fit of an equation of state for 5. -/
def demo : Tools ℕ ℕ ℕ ℕ where
  ext := {
    pot := fun s => .ok (10 * s)
    feat := fun _ => .ok 0
    jobInit := fun _ _ _ => .ok ()
    job := fun _ u _ => .ask [u.getD 0] fun vs => .ret (.ok vs.sum)
    phononInit := fun _ _ => .ok ()
    phonon := fun u a _ => .ask [u.getD 0, a] fun vs => .ret (.ok vs.sum)
    optInit := fun _ _ => .ret (.ok ())
    opt := fun u _ _ => .ask [u.getD 0] fun vs =>
      if vs.sum = 30 then .ret (.error .runtimeError) else .ret (.ok ⟨u.getD 0, vs.sum, 1, vs.sum ≠ 70⟩) }
  nAtoms := fun s => s
  vol := fun s => 4 * s
  eosOf := fun r => if r = 50 then ⟨none, [1, 2], none⟩ else ⟨some (1, 2, 3), [1, 2], some [4, 6]⟩
  reread := fun s => .ok s
  relax := 0
  cg := 0
  eosArgs := 0
  elasticArgs := 0
  distance := 0

/-- A prototype of the example. -/
def proto (n : ℕ) (name : String) : Prototype ℕ ℕ ℕ := { cell := n, name := name.toList, icsd := .int n, nAtom := n, supercell := 8 }

/-- C105 fails: after a fit that failed with a warning, the run ends with TypeError, and the prototypes that follow, which
would have given their reports, are not calculated. -/
theorem C105_fit_violation :
    (run demo Calc.new (some [proto 5 "hcp", proto 2 "fcc"])).2.2 = .error .typeError ∧
    (run demo Calc.new (some [proto 5 "hcp", proto 2 "fcc"])).2.1.map (fun l => l.map fun p => p.energy) =
      some [some 10, none] ∧
    (run demo Calc.new (some [proto 2 "fcc"])).2.1.map (fun l => l.map fun p => (p.energy, p.elastic)) =
      some [(some 10, some 20)] ∧
    (run demo Calc.new (some [proto 2 "fcc"])).2.2 = .ok () := by
  decide +kernel

/-- C105 fails: in a binary system both elements have prototypes with the same ID, so that a cell from first principles of
one element is given to both. -/
theorem C105_ids_violation (mk : String → List (List Char) → St) (diag : ℕ × ℕ × ℕ → A) (s s' : St)
    (refine : St → Except Err St) (hr : refine s = .ok s') :
    ∃ ps ps' : List (Prototype St R A), loadStructures mk diag ["Al".toList, "Cu".toList] = .ok ps ∧
      setDft (fun _ : List String => .ok [s]) refine (some ps) ["Al-fcc/vasprun.xml"] [.int 52914] = .ok ps' ∧
      (∃ p ∈ ps', p.name = "fcc_Al".toList ∧ p.dft = some s') ∧ ∃ p ∈ ps', p.name = "fcc_Cu".toList ∧ p.dft = some s' := by
  refine ⟨_, _, rfl, rfl, ?_, ?_⟩
  · refine ⟨_, List.mem_map.2 ⟨_, List.mem_append_right _ (List.mem_flatMap.2 ⟨"Al".toList, by simp,
      List.mem_map.2 ⟨_, List.mem_cons_self, rfl⟩⟩), rfl⟩, ?_⟩
    simp [setDftOne, Dict.setAll, Dict.set, Dict.get?, hr]
  · refine ⟨_, List.mem_map.2 ⟨_, List.mem_append_right _ (List.mem_flatMap.2 ⟨"Cu".toList, by simp,
      List.mem_map.2 ⟨_, List.mem_cons_self, rfl⟩⟩), rfl⟩, ?_⟩
    simp [setDftOne, Dict.setAll, Dict.set, Dict.get?, hr]

/-- C105 fails: the IDs of elemental prototypes are integers; given as text, as for binary prototypes, nothing is set and
there is no message. -/
theorem C105_text_violation (mk : String → List (List Char) → St) (diag : ℕ × ℕ × ℕ → A) (s : St)
    (refine : St → Except Err St) (a : List Char) :
    ∃ ps : List (Prototype St R A), loadStructures mk diag [a] = .ok ps ∧
      setDft (fun _ : List String => .ok [s]) refine (some ps) ["vasprun.xml"] [.str "52914"] = .ok ps := by
  refine ⟨_, rfl, ?_⟩
  change Except.ok _ = _
  congr 1

/-! The hypotheses are met. -/

example : (run demo Calc.new (some [proto 2 "fcc", proto 3 "bcc", proto 7 "hcp", proto 4 "sc"])).2.2 = .ok () := by decide +kernel
example : ((run demo Calc.new (some [proto 2 "fcc", proto 3 "bcc", proto 7 "hcp", proto 4 "sc"])).2.1.getD []).map
    (fun p => (p.energy, p.volume, p.energyFit, p.dos)) =
    [(some 10, some 4, some (1 / 2), some 100), (none, none, none, none), (none, none, none, none),
      (some 10, some 4, some (1 / 4), some 120)] := by decide +kernel
example : Symbol "Al".toList := ⟨by decide, by decide⟩
example : LastWithId [.int 1, .int 2, .int 1] ["a", "b", "c"] (.int 1) "c" :=
  ⟨2, rfl, rfl, fun j hj hi => by
    rcases j with _ | _ | _ | j
    · omega
    · omega
    · omega
    · simp at hi⟩

end Verif.AutoProto
