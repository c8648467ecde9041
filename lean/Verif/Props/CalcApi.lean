import Mathlib.Data.List.Induction
import Mathlib.Tactic.NormNum
import Verif.Spec.CalcApi

/-!
# C81: the object for calculating properties
-/

namespace Verif.CalcApi

open Spec

variable {St V R A : Type}

theorem mapM_cases (pot : St → Except Err V) : ∀ ss : List St,
    (∃ vs, ss.mapM pot = .ok vs ∧ ValuesOf pot ss vs) ∨ (∃ e, ss.mapM pot = .error e ∧ FailsWith pot ss e)
  | [] => .inl ⟨[], rfl, .nil⟩
  | s :: ss => by
    rw [List.mapM_cons]
    cases hs : pot s with
    | error e => right; exact ⟨e, rfl, [], s, ss, rfl, by simp, hs⟩
    | ok v =>
      rcases mapM_cases pot ss with ⟨vs, h, hv⟩ | ⟨e, h, pre, x, post, rfl, hp, hx⟩
      · left; exact ⟨v :: vs, by rw [h]; rfl, .cons hs hv⟩
      · right
        refine ⟨e, by rw [h]; rfl, s :: pre, x, post, rfl, ?_, hx⟩
        intro y hy
        rcases List.mem_cons.1 hy with rfl | hy
        · exact ⟨v, hs⟩
        · exact hp y hy

theorem evalMultiple_cases (pot : St → Except Err V) (last : Option (Last St V)) (ss : List St) :
    (∃ vs, ValuesOf pot ss vs ∧ evalMultiple pot last ss = (some ⟨vs, ss⟩, .ok vs)) ∨
      (∃ e, FailsWith pot ss e ∧ evalMultiple pot last ss = (last, .error e)) := by
  unfold evalMultiple
  rcases mapM_cases pot ss with ⟨vs, h, hv⟩ | ⟨e, h, hf⟩
  · left; exact ⟨vs, hv, by rw [h]⟩
  · right; exact ⟨e, hf, by rw [h]⟩

theorem valuesOf_unique {pot : St → Except Err V} {ss : List St} {vs ws : List V} (h : ValuesOf pot ss vs)
    (h' : ValuesOf pot ss ws) : vs = ws := by
  induction h generalizing ws with
  | nil => cases h'; rfl
  | cons hs _ ih => cases h' with | cons hs' h2 => rw [hs] at hs'; cases hs'; rw [ih h2]

theorem not_both {pot : St → Except Err V} {ss : List St} {vs : List V} {e : Err} (h : ValuesOf pot ss vs)
    (h' : FailsWith pot ss e) : False := by
  obtain ⟨pre, s, post, rfl, -, hs⟩ := h'
  induction pre generalizing vs with
  | nil => cases h with | cons h1 _ => rw [hs] at h1; cases h1
  | cons p pre ih => cases h with | cons _ h2 => exact ih h2

theorem failsWith_unique {pot : St → Except Err V} {ss : List St} {e e' : Err} (h : FailsWith pot ss e)
    (h' : FailsWith pot ss e') : e = e' := by
  obtain ⟨pre, s, post, rfl, hp, hs⟩ := h
  obtain ⟨pre', s', post', he, hp', hs'⟩ := h'
  induction pre generalizing pre' with
  | nil =>
    cases pre' with
    | nil => simp at he; rw [he.1, hs'] at hs; cases hs; rfl
    | cons q pre' =>
      simp at he
      obtain ⟨v, hv⟩ := hp' q (by simp)
      rw [← he.1, hs] at hv; cases hv
  | cons q pre ih =>
    cases pre' with
    | nil =>
      simp at he
      obtain ⟨v, hv⟩ := hp q (by simp)
      rw [he.1, hs'] at hv; cases hv
    | cons q' pre' =>
      simp at he
      exact ih (fun x hx => hp x (by simp [hx])) pre' he.2 (fun x hx => hp' x (by simp [hx]))

theorem gives_unique {R : Type} {pot : St → Except Err V} {p : Prog St V R} {r r' : Except Err R} (h : Gives pot p r)
    (h' : Gives pot p r') : r = r' := by
  induction h with
  | ret => cases h'; rfl
  | ask hv _ ih =>
    cases h' with
    | ask hv' h2 => rw [← valuesOf_unique hv hv'] at h2; exact ih h2
    | fail hf => exact (not_both hv hf).elim
  | fail hf =>
    cases h' with
    | ask hv' _ => exact (not_both hv' hf).elim
    | fail hf' => rw [failsWith_unique hf hf']

theorem runProg_gives {R : Type} (pot : St → Except Err V) (p : Prog St V R) : ∀ last : Option (Last St V),
    Gives pot p (runProg pot last p).2 := by
  induction p with
  | ret r => intro last; exact .ret r
  | ask ss k ih =>
    intro last
    unfold runProg
    rcases evalMultiple_cases pot last ss with ⟨vs, hv, h⟩ | ⟨e, hf, h⟩
    · rw [h]; exact .ask hv (ih vs _)
    · rw [h]; exact .fail hf

/-- The values that are kept are those of the structures that are kept. -/
def Fits (pot : St → Except Err V) (last : Option (Last St V)) : Prop :=
  ∀ l, last = some l → ValuesOf pot l.structs l.values

theorem fits_eval {pot : St → Except Err V} {last : Option (Last St V)} (h : Fits pot last) (ss : List St) :
    Fits pot (evalMultiple pot last ss).1 := by
  rcases evalMultiple_cases pot last ss with ⟨vs, hv, he⟩ | ⟨e, hf, he⟩
  · rw [he]; intro l hl; cases hl; exact hv
  · rw [he]; exact h

theorem fits_run {R : Type} {pot : St → Except Err V} (p : Prog St V R) : ∀ {last : Option (Last St V)}, Fits pot last →
    Fits pot (runProg pot last p).1 := by
  induction p with
  | ret r => intro last h; exact h
  | ask ss k ih =>
    intro last h
    have h1 := fits_eval h ss
    unfold runProg
    rcases evalMultiple_cases pot last ss with ⟨vs, hv, he⟩ | ⟨e, hf, he⟩
    · rw [he] at h1 ⊢; exact ih vs h1
    · rw [he] at h1 ⊢; exact h1

theorem setStructs_last (c : Calc St V R A) (s : Option (List St)) : (setStructs c s).last = c.last := by
  cases s <;> rfl

theorem setStructs_jobs (c : Calc St V R A) (s : Option (List St)) : (setStructs c s).jobs = c.jobs := by
  cases s <;> rfl

theorem setStructs_phonon (c : Calc St V R A) (s : Option (List St)) : (setStructs c s).phonon = c.phonon := by
  cases s <;> rfl

theorem setStructs_opt (c : Calc St V R A) (s : Option (List St)) : (setStructs c s).opt = c.opt := by
  cases s <;> rfl

theorem setStructs_structures (c : Calc St V R A) (s : Option (List St)) :
    (setStructs c s).structures = (s <|> c.structures) := by
  cases s <;> rfl

theorem first_cellOf (c : Calc St V R A) (s : Option (List St)) (u : Option St) :
    first (setStructs c s) = .ok u ↔ CellOf c s u := by
  unfold CellOf
  cases s with
  | some l => cases l <;> simp [setStructs, first, eq_comm]
  | none =>
    cases hc : c.structures with
    | none => simp [setStructs, first, hc, eq_comm]
    | some l => cases l <;> simp [setStructs, first, hc, eq_comm]

/-! ## One call -/

/-- The cases of `eval`. -/
theorem eval_cases (ext : Ext St V R A) (c : Calc St V R A) (s : Option (List St)) :
    ((setStructs c s).structures = none ∧ eval ext c s = (setStructs c s, .error .typeError)) ∨
    (∃ l vs, (setStructs c s).structures = some l ∧ ValuesOf ext.pot l vs ∧
      eval ext c s = ({ setStructs c s with last := some ⟨vs, l⟩ }, .ok (.values vs))) ∨
    (∃ l e, (setStructs c s).structures = some l ∧ FailsWith ext.pot l e ∧ eval ext c s = (setStructs c s, .error e)) := by
  unfold eval
  dsimp only
  cases h : (setStructs c s).structures with
  | none => left; exact ⟨rfl, rfl⟩
  | some l =>
    right
    dsimp only
    rcases evalMultiple_cases ext.pot (setStructs c s).last l with ⟨vs, hv, he⟩ | ⟨e, hf, he⟩
    · left; exact ⟨l, vs, rfl, hv, by rw [he]⟩
    · right; exact ⟨l, e, rfl, hf, by rw [he]; dsimp only; rw [← h]⟩

/-- The cases of the calculations in one call. -/
theorem job_cases (ext : Ext St V R A) (c : Calc St V R A) (k : Kind) (s : Option (List St)) (a : A) :
    (∃ e, (∀ u, ¬ CellOf c s u) ∧ job ext c k s a = (setStructs c s, .error e)) ∨
    (∃ u e, CellOf c s u ∧ ext.jobInit k u a = .error e ∧
      job ext c k s a = ({ setStructs c s with unitcell := u }, .error e)) ∨
    (∃ u e, CellOf c s u ∧ ext.jobInit k u a = .ok () ∧ Gives ext.pot (ext.job k u a) (.error e) ∧
      job ext c k s a = ({ setStructs c s with
        unitcell := u, last := (runProg ext.pot c.last (ext.job k u a)).1,
        jobs := fun k' => if k' = k then some none else c.jobs k' }, .error e)) ∨
    (∃ u r, CellOf c s u ∧ ext.jobInit k u a = .ok () ∧ Gives ext.pot (ext.job k u a) (.ok r) ∧
      job ext c k s a = ({ setStructs c s with
        unitcell := u, last := (runProg ext.pot c.last (ext.job k u a)).1,
        jobs := fun k' => if k' = k then some (some r) else c.jobs k' }, .ok (.result r))) := by
  unfold job
  dsimp only
  cases hf : first (setStructs c s) with
  | error e =>
    left
    refine ⟨e, ?_, rfl⟩
    intro u hu
    rw [← first_cellOf, hf] at hu; cases hu
  | ok u =>
    have hu := (first_cellOf c s u).1 hf
    right
    dsimp only
    cases hi : ext.jobInit k u a with
    | error e => left; exact ⟨u, e, hu, hi, rfl⟩
    | ok x =>
      right
      dsimp only
      have hg := runProg_gives ext.pot (ext.job k u a) (setStructs c s).last
      rw [setStructs_last] at hg ⊢
      rw [setStructs_jobs]
      generalize hq : runProg ext.pot c.last (ext.job k u a) = q at hg ⊢
      obtain ⟨last', r⟩ := q
      cases r with
      | error e => left; exact ⟨u, e, hu, hi, hg, by rw [hq]⟩
      | ok r => right; exact ⟨u, r, hu, hi, hg, by rw [hq]⟩

/-- The cases of `run_geometry_optimization`. -/
theorem opt_cases (ext : Ext St V R A) (c : Calc St V R A) (a : A) :
    (c.opt = none ∧ opt ext c a = (c, .ok (.optimized none))) ∨
    (∃ u a0 as old e, c.opt = some (u, a0, as, old) ∧ Gives ext.pot (ext.opt u a0 (as ++ [a])) (.error e) ∧
      opt ext c a = ({ c with
        last := (runProg ext.pot c.last (ext.opt u a0 (as ++ [a]))).1, opt := some (u, a0, as ++ [a], old) }, .error e)) ∨
    (∃ u a0 as old o, c.opt = some (u, a0, as, old) ∧ Gives ext.pot (ext.opt u a0 (as ++ [a])) (.ok o) ∧
      opt ext c a = ({ c with
        last := (runProg ext.pot c.last (ext.opt u a0 (as ++ [a]))).1, opt := some (u, a0, as ++ [a], some o),
        structures := some [o.final] }, .ok (.optimized (some (o.energy, o.nIter, o.success))))) := by
  unfold opt
  cases ho : c.opt with
  | none => left; exact ⟨rfl, rfl⟩
  | some x =>
    obtain ⟨u, a0, as, old⟩ := x
    right
    dsimp only
    have hg := runProg_gives ext.pot (ext.opt u a0 (as ++ [a])) c.last
    generalize hq : runProg ext.pot c.last (ext.opt u a0 (as ++ [a])) = q at hg ⊢
    obtain ⟨last', r⟩ := q
    cases r with
    | error e => left; exact ⟨u, a0, as, old, e, rfl, hg, by rw [hq]⟩
    | ok o => right; exact ⟨u, a0, as, old, o, rfl, hg, by rw [hq]⟩

/-- The cases of `run_phonon`. -/
theorem phonon_cases (ext : Ext St V R A) (c : Calc St V R A) (a : A) :
    (c.phonon = none ∧ phonon ext c a = (c, .error .runtimeError)) ∨
    (∃ u a0 old e, c.phonon = some (u, a0, old) ∧ Gives ext.pot (ext.phonon u a0 a) (.error e) ∧
      phonon ext c a = ({ c with
        last := (runProg ext.pot c.last (ext.phonon u a0 a)).1, phonon := some (u, a0, none) }, .error e)) ∨
    (∃ u a0 old r, c.phonon = some (u, a0, old) ∧ Gives ext.pot (ext.phonon u a0 a) (.ok r) ∧
      phonon ext c a = ({ c with
        last := (runProg ext.pot c.last (ext.phonon u a0 a)).1, phonon := some (u, a0, some r) }, .ok .done)) := by
  unfold phonon
  cases ho : c.phonon with
  | none => left; exact ⟨rfl, rfl⟩
  | some x =>
    obtain ⟨u, a0, old⟩ := x
    right
    dsimp only
    have hg := runProg_gives ext.pot (ext.phonon u a0 a) c.last
    generalize hq : runProg ext.pot c.last (ext.phonon u a0 a) = q at hg ⊢
    obtain ⟨last', r⟩ := q
    cases r with
    | error e => left; exact ⟨u, a0, old, e, rfl, hg, by rw [hq]⟩
    | ok o => right; exact ⟨u, a0, old, o, rfl, hg, by rw [hq]⟩

/-- The cases of `init_phonon`. -/
theorem phononInit_cases (ext : Ext St V R A) (c : Calc St V R A) (s : Option (List St)) (a : A) :
    (∃ e, (∀ u, ¬ CellOf c s u) ∧ phononInit ext c s a = (setStructs c s, .error e)) ∨
    (∃ u e, CellOf c s u ∧ ext.phononInit u a = .error e ∧
      phononInit ext c s a = ({ setStructs c s with unitcell := u }, .error e)) ∨
    (∃ u, CellOf c s u ∧ ext.phononInit u a = .ok () ∧
      phononInit ext c s a = ({ setStructs c s with unitcell := u, phonon := some (u, a, none) }, .ok .done)) := by
  unfold phononInit
  dsimp only
  cases hf : first (setStructs c s) with
  | error e =>
    left
    refine ⟨e, ?_, rfl⟩
    intro u hu
    rw [← first_cellOf, hf] at hu; cases hu
  | ok u =>
    have hu := (first_cellOf c s u).1 hf
    right
    dsimp only
    cases hi : ext.phononInit u a with
    | error e => left; exact ⟨u, e, hu, hi, rfl⟩
    | ok x => right; exact ⟨u, hu, hi, rfl⟩

/-- The cases of `init_geometry_optimization`. -/
theorem optInit_cases (ext : Ext St V R A) (c : Calc St V R A) (s : Option (List St)) (a : A) :
    (∃ e, (∀ u, ¬ CellOf c s u) ∧ optInit ext c s a = (setStructs c s, .error e)) ∨
    (∃ u, CellOf c s u ∧ Gives ext.pot (ext.optInit u a) (.error .valueError) ∧
      optInit ext c s a = ({ setStructs c s with
        last := (runProg ext.pot c.last (ext.optInit u a)).1, opt := none }, .ok .done)) ∨
    (∃ u e, CellOf c s u ∧ e ≠ .valueError ∧ Gives ext.pot (ext.optInit u a) (.error e) ∧
      optInit ext c s a = ({ setStructs c s with last := (runProg ext.pot c.last (ext.optInit u a)).1 }, .error e)) ∨
    (∃ u, CellOf c s u ∧ Gives ext.pot (ext.optInit u a) (.ok ()) ∧
      optInit ext c s a = ({ setStructs c s with
        last := (runProg ext.pot c.last (ext.optInit u a)).1, opt := some (u, a, [], none) }, .ok .done)) := by
  unfold optInit
  dsimp only
  cases hf : first (setStructs c s) with
  | error e =>
    left
    refine ⟨e, ?_, rfl⟩
    intro u hu
    rw [← first_cellOf, hf] at hu; cases hu
  | ok u =>
    have hu := (first_cellOf c s u).1 hf
    right
    dsimp only
    have hg := runProg_gives ext.pot (ext.optInit u a) (setStructs c s).last
    rw [setStructs_last] at hg ⊢
    generalize hq : runProg ext.pot c.last (ext.optInit u a) = q at hg ⊢
    obtain ⟨last', r⟩ := q
    cases r with
    | error e =>
      by_cases he : e = .valueError
      · subst he; left; exact ⟨u, hu, hg, by rw [hq]⟩
      · right; left
        refine ⟨u, e, hu, he, hg, ?_⟩
        rw [hq]
        cases e <;> first | rfl | exact (he rfl).elim
    | ok o => right; right; exact ⟨u, hu, hg, by rw [hq]⟩

/-- The cases of `run_features`. -/
theorem features_cases (ext : Ext St V R A) (c : Calc St V R A) (s : Option (List St)) :
    (∃ e, features ext c s = (setStructs c s, .error e)) ∨
    (∃ l r, (setStructs c s).structures = some l ∧ ext.feat l = .ok r ∧
      features ext c s = ({ setStructs c s with features := some r }, .ok (.result r))) := by
  unfold features
  dsimp only
  cases h : (setStructs c s).structures with
  | none => left; exact ⟨_, rfl⟩
  | some l =>
    dsimp only
    cases hf : ext.feat l with
    | error e => left; exact ⟨e, rfl⟩
    | ok r => right; exact ⟨l, r, rfl, hf, rfl⟩

/-! ## Histories -/

theorem exec_append (ext : Ext St V R A) (c : Calc St V R A) (cs ds : List (Call St A)) :
    exec ext c (cs ++ ds) = exec ext (exec ext c cs) ds := List.foldl_append

theorem exec_snoc (ext : Ext St V R A) (c : Calc St V R A) (cs : List (Call St A)) (x : Call St A) :
    exec ext c (cs ++ [x]) = (step ext (exec ext c cs) x).1 := by rw [exec_append]; rfl

theorem exec_cons (ext : Ext St V R A) (c : Calc St V R A) (cs : List (Call St A)) (x : Call St A) :
    exec ext c (x :: cs) = exec ext (step ext c x).1 cs := rfl

theorem exec_inv (ext : Ext St V R A) (I : Calc St V R A → Prop) (hI : ∀ c x, I c → I (step ext c x).1) :
    ∀ (cs : List (Call St A)) (c : Calc St V R A), I c → I (exec ext c cs)
  | [], _, h => h
  | x :: cs, c, h => by rw [exec_cons]; exact exec_inv ext I hI cs _ (hI c x h)

theorem lastOf_exec {β : Type} (ext : Ext St V R A) (st : Calc St V R A) (g : Calc St V R A → Option β)
    (P : Calc St V R A → Call St A → β → Prop)
    (hP : ∀ s c, (∃ b, P s c b ∧ g (step ext s c).1 = some b) ∨ ((∀ b, ¬ P s c b) ∧ g (step ext s c).1 = g s))
    (cs : List (Call St A)) :
    (∃ b, g (exec ext st cs) = some b ∧ LastOf (exec ext st) P cs b) ∨
      (g (exec ext st cs) = g st ∧ ∀ q y t, cs = q ++ y :: t → ∀ b, ¬ P (exec ext st q) y b) := by
  induction cs using List.reverseRecOn with
  | nil => right; exact ⟨rfl, by intro q y t h; simp at h⟩
  | append_singleton l c ih =>
    rw [exec_snoc]
    rcases hP (exec ext st l) c with ⟨b, hb, hg⟩ | ⟨hn, hg⟩
    · left
      refine ⟨b, hg, l, c, [], by simp, hb, ?_⟩
      intro q y t h; simp at h
    · rcases ih with ⟨b, hb, pre, x, post, rfl, hx, hpost⟩ | ⟨hb, hno⟩
      · left
        refine ⟨b, by rw [hg, hb], pre, x, post ++ [c], by simp, hx, ?_⟩
        intro q y t h b'
        rcases List.eq_nil_or_concat t with rfl | ⟨t', z, rfl⟩
        · have h2 := List.append_inj' h (by simp)
          have : c = y := by simpa using h2.2
          subst this; rw [← h2.1]; exact hn b'
        · have h' : post ++ [c] = (q ++ y :: t') ++ [z] := by simpa using h
          have h2 := List.append_inj' h' (by simp)
          exact hpost q y t' h2.1 b'
      · right
        refine ⟨by rw [hg, hb], ?_⟩
        intro q y t h b'
        rcases List.eq_nil_or_concat t with rfl | ⟨t', z, rfl⟩
        · have h2 := List.append_inj' h (by simp)
          have : c = y := by simpa using h2.2
          subst this; rw [← h2.1]; exact hn b'
        · have h' : l ++ [c] = (q ++ y :: t') ++ [z] := by simpa using h
          have h2 := List.append_inj' h' (by simp)
          exact hno q y t' h2.1 b'

/-! ## Evaluations -/

/-- C81 (evaluations).  `eval` gives the potential's values of the structures given to it or, without any, of those that
are set, whatever was called before; the same values are then reported.  It fails if the potential fails for one of them,
with the exception of the first such structure, or if no structures are known; then the values reported stay as they
were. -/
theorem C81_eval (ext : Ext St V R A) (c : Calc St V R A) (s : Option (List St)) :
    (∀ l, s = some l ∨ s = none ∧ c.structures = some l →
      (∀ vs, (step ext c (.eval s)).2 = .ok (.values vs) ↔ ValuesOf ext.pot l vs) ∧
      (∀ e, (step ext c (.eval s)).2 = .error e ↔ FailsWith ext.pot l e)) ∧
    (s = none ∧ c.structures = none → (step ext c (.eval s)).2 = .error .typeError) ∧
    (∀ vs, (step ext c (.eval s)).2 = .ok (.values vs) → reported (step ext c (.eval s)).1 = some vs) ∧
    (∀ e, (step ext c (.eval s)).2 = .error e → reported (step ext c (.eval s)).1 = reported c) := by
  have hstep : step ext c (.eval s) = eval ext c s := rfl
  rw [hstep]
  rcases eval_cases ext c s with ⟨hn, he⟩ | ⟨l0, ws, hl, hv, he⟩ | ⟨l0, e0, hl, hf, he⟩
  all_goals rw [setStructs_structures] at *
  · rw [he]
    refine ⟨?_, fun _ => rfl, by (intro vs h; cases h), by (intro e _; unfold reported; rw [setStructs_last])⟩
    rintro l (rfl | ⟨rfl, h⟩)
    · simp at hn
    · rw [h] at hn; simp at hn
  · rw [he]
    refine ⟨?_, ?_, ?_, by (intro e h; cases h)⟩
    · intro l h
      have : l = l0 := by
        rcases h with rfl | ⟨rfl, h⟩
        · simpa using hl
        · rw [h] at hl; simpa using hl
      subst this
      refine ⟨fun vs => ⟨?_, ?_⟩, fun e => ⟨by (intro h; cases h), fun hf => (not_both hv hf).elim⟩⟩
      · intro h; cases h; exact hv
      · intro h; rw [valuesOf_unique hv h]
    · rintro ⟨rfl, h⟩
      rw [h] at hl; simp at hl
    · intro vs h; cases h; rfl
  · rw [he]
    refine ⟨?_, ?_, by (intro vs h; cases h), by (intro e _; unfold reported; rw [setStructs_last])⟩
    · intro l h
      have : l = l0 := by
        rcases h with rfl | ⟨rfl, h⟩
        · simpa using hl
        · rw [h] at hl; simpa using hl
      subst this
      refine ⟨fun vs => ⟨by (intro h; cases h), fun hv => (not_both hv hf).elim⟩, fun e => ⟨?_, ?_⟩⟩
      · intro h; cases h; exact hf
      · intro h; rw [failsWith_unique hf h]
    · rintro ⟨rfl, h⟩
      rw [h] at hl; simp at hl

theorem fits_step (ext : Ext St V R A) (c : Calc St V R A) (x : Call St A) (h : Fits ext.pot c.last) :
    Fits ext.pot (step ext c x).1.last := by
  have hs : ∀ s, Fits ext.pot (setStructs c s).last := by intro s; rw [setStructs_last]; exact h
  cases x with
  | load l => cases l <;> exact h
  | eval s =>
    change Fits ext.pot (eval ext c s).1.last
    rcases eval_cases ext c s with ⟨hn, he⟩ | ⟨l0, ws, hl, hv, he⟩ | ⟨l0, e0, hl, hf, he⟩ <;> rw [he]
    · exact hs s
    · intro l hl; cases hl; exact hv
    · exact hs s
  | features s =>
    change Fits ext.pot (features ext c s).1.last
    rcases features_cases ext c s with ⟨e, he⟩ | ⟨l, r, -, -, he⟩ <;> rw [he] <;> exact hs s
  | job k s a =>
    change Fits ext.pot (job ext c k s a).1.last
    rcases job_cases ext c k s a with ⟨e, -, he⟩ | ⟨u, e, -, -, he⟩ | ⟨u, e, -, -, -, he⟩ | ⟨u, r, -, -, -, he⟩ <;> rw [he]
    · exact hs s
    · exact hs s
    · exact fits_run _ h
    · exact fits_run _ h
  | phononInit s a =>
    change Fits ext.pot (phononInit ext c s a).1.last
    rcases phononInit_cases ext c s a with ⟨e, -, he⟩ | ⟨u, e, -, -, he⟩ | ⟨u, -, -, he⟩ <;> rw [he] <;> exact hs s
  | phonon a =>
    change Fits ext.pot (phonon ext c a).1.last
    rcases phonon_cases ext c a with ⟨-, he⟩ | ⟨u, a0, old, e, -, -, he⟩ | ⟨u, a0, old, r, -, -, he⟩ <;> rw [he]
    · exact h
    · exact fits_run _ h
    · exact fits_run _ h
  | optInit s a =>
    change Fits ext.pot (optInit ext c s a).1.last
    rcases optInit_cases ext c s a with ⟨e, -, he⟩ | ⟨u, -, -, he⟩ | ⟨u, e, -, -, -, he⟩ | ⟨u, -, -, he⟩ <;> rw [he]
    · exact hs s
    · exact fits_run _ h
    · exact fits_run _ h
    · exact fits_run _ h
  | opt a =>
    change Fits ext.pot (opt ext c a).1.last
    rcases opt_cases ext c a with ⟨-, he⟩ | ⟨u, a0, as, old, e, -, -, he⟩ | ⟨u, a0, as, old, r, -, -, he⟩ <;> rw [he]
    · exact h
    · exact fits_run _ h
    · exact fits_run _ h

/-- C81 (consistent values).  After every history the energies, forces and stresses reported are the potential's values
of one list of structures, in the same order, and the stresses in GPa are those stresses divided by the volumes of these
same structures. -/
theorem C81_consistent (ext : Ext St V R A) (cs : List (Call St A)) (stress : V → List ℚ) (vol : St → ℚ) (vs : List V)
    (h : reported (exec ext Calc.new cs) = some vs) :
    ∃ ss, ValuesOf ext.pot ss vs ∧
      stressesGpa stress vol (exec ext Calc.new cs) =
        some (List.zipWith (fun v s => (stress v).map fun (x : ℚ) => x * (160.21766208 : ℚ) / vol s) vs ss) := by
  have hI : Fits ext.pot (exec ext Calc.new cs).last :=
    exec_inv ext (fun c => Fits ext.pot c.last) (fun c x hc => fits_step ext c x hc) cs Calc.new
      (by intro l hl; cases hl)
  unfold reported at h
  cases hl : (exec ext Calc.new cs).last with
  | none => rw [hl] at h; cases h
  | some l =>
    rw [hl] at h
    have hv := hI l hl
    simp only [Option.map_some, Option.some.injEq] at h
    subst h
    refine ⟨l.structs, hv, ?_⟩
    unfold stressesGpa
    rw [hl]
    dsimp only
    rw [if_pos (List.Forall₂.length_eq hv).symm]
    have hx : ∀ x w : ℚ, x * 16021766208 / 10 ^ 8 / w = x * (160.21766208 : ℚ) / w := by
      intro x w
      rw [mul_div_assoc x, show (16021766208 : ℚ) / 10 ^ 8 = 160.21766208 by norm_num]
    simp only [hx]

/-- C81 (reading and preparing).  Reading structures, computing features and preparing phonons leave the values
reported. -/
theorem C81_quiet (ext : Ext St V R A) (c : Calc St V R A) (x : Call St A)
    (hx : (∃ l, x = .load l) ∨ (∃ s, x = .features s) ∨ (∃ s a, x = .phononInit s a)) :
    reported (step ext c x).1 = reported c := by
  rcases hx with ⟨l, rfl⟩ | ⟨s, rfl⟩ | ⟨s, a, rfl⟩
  · cases l <;> rfl
  · change reported (features ext c s).1 = _
    rcases features_cases ext c s with ⟨e, he⟩ | ⟨l, r, -, -, he⟩ <;> rw [he] <;> unfold reported <;>
      simp only [setStructs_last]
  · change reported (phononInit ext c s a).1 = _
    rcases phononInit_cases ext c s a with ⟨e, -, he⟩ | ⟨u, e, -, -, he⟩ | ⟨u, -, -, he⟩ <;> rw [he] <;>
      unfold reported <;> simp only [setStructs_last]

/-! ## Structures -/

theorem step_structures (ext : Ext St V R A) (c : Calc St V R A) (x : Call St A) :
    (∃ l, SetsStructures ext c x l ∧ (step ext c x).1.structures = some l) ∨
      ((∀ l, ¬ SetsStructures ext c x l) ∧ (step ext c x).1.structures = c.structures) := by
  have key : ∀ (s : Option (List St)) (y : Call St A), givenBy y = s → (∀ a, y ≠ .opt a) →
      (step ext c y).1.structures = (setStructs c s).structures →
      (∃ l, SetsStructures ext c y l ∧ (step ext c y).1.structures = some l) ∨
      ((∀ l, ¬ SetsStructures ext c y l) ∧ (step ext c y).1.structures = c.structures) := by
    intro s y hy hno h
    cases s with
    | some l => left; exact ⟨l, .inl hy, h⟩
    | none =>
      right
      refine ⟨?_, h⟩
      rintro l (h1 | ⟨a, u, a0, as, old, o, h1, -⟩)
      · rw [hy] at h1; cases h1
      · exact hno a h1
  cases x with
  | load l =>
    cases l with
    | error e => exact key none _ rfl (by simp) rfl
    | ok l => exact key (some l) _ rfl (by simp) rfl
  | eval s =>
    refine key s _ rfl (by simp) ?_
    change (eval ext c s).1.structures = _
    rcases eval_cases ext c s with ⟨hn, he⟩ | ⟨l0, ws, hl, hv, he⟩ | ⟨l0, e0, hl, hf, he⟩ <;> rw [he]
  | features s =>
    refine key s _ rfl (by simp) ?_
    change (features ext c s).1.structures = _
    rcases features_cases ext c s with ⟨e, he⟩ | ⟨l, r, -, -, he⟩ <;> rw [he]
  | job k s a =>
    refine key s _ rfl (by simp) ?_
    change (job ext c k s a).1.structures = _
    rcases job_cases ext c k s a with ⟨e, -, he⟩ | ⟨u, e, -, -, he⟩ | ⟨u, e, -, -, -, he⟩ | ⟨u, r, -, -, -, he⟩ <;> rw [he]
  | phononInit s a =>
    refine key s _ rfl (by simp) ?_
    change (phononInit ext c s a).1.structures = _
    rcases phononInit_cases ext c s a with ⟨e, -, he⟩ | ⟨u, e, -, -, he⟩ | ⟨u, -, -, he⟩ <;> rw [he]
  | phonon a =>
    refine key none _ rfl (by simp) ?_
    change (phonon ext c a).1.structures = _
    rcases phonon_cases ext c a with ⟨-, he⟩ | ⟨u, a0, old, e, -, -, he⟩ | ⟨u, a0, old, r, -, -, he⟩ <;> rw [he] <;> rfl
  | optInit s a =>
    refine key s _ rfl (by simp) ?_
    change (optInit ext c s a).1.structures = _
    rcases optInit_cases ext c s a with ⟨e, -, he⟩ | ⟨u, -, -, he⟩ | ⟨u, e, -, -, -, he⟩ | ⟨u, -, -, he⟩ <;> rw [he]
  | opt a =>
    change (∃ l, SetsStructures ext c (.opt a) l ∧ (opt ext c a).1.structures = some l) ∨
      ((∀ l, ¬ SetsStructures ext c (.opt a) l) ∧ (opt ext c a).1.structures = c.structures)
    rcases opt_cases ext c a with ⟨ho, he⟩ | ⟨u, a0, as, old, e, ho, hg, he⟩ | ⟨u, a0, as, old, o, ho, hg, he⟩ <;> rw [he]
    · right
      refine ⟨?_, rfl⟩
      rintro l (h1 | ⟨a, u, a0, as, old, o, h1, h2, -⟩)
      · cases h1
      · rw [ho] at h2; cases h2
    · right
      refine ⟨?_, rfl⟩
      rintro l (h1 | ⟨a, u, a0, as, old, o, h1, h2, h3, -⟩)
      · cases h1
      · cases h1; rw [ho] at h2; cases h2; cases gives_unique hg h3
    · left
      exact ⟨[o.final], .inr ⟨a, u, a0, as, old, o, rfl, ho, hg, rfl⟩, rfl⟩

/-- C81 (structures).  After every history the structures are those that the last call gave that gave any, or the final
structure of the last optimization that ended, whichever is later; failed calls that were given structures keep them. -/
theorem C81_structures (ext : Ext St V R A) (cs : List (Call St A)) :
    (∃ l, (exec ext Calc.new cs).structures = some l ∧ LastOf (exec ext Calc.new) (SetsStructures ext) cs l) ∨
      ((exec ext Calc.new cs).structures = none ∧
        ∀ q y t, cs = q ++ y :: t → ∀ l, ¬ SetsStructures ext (exec ext Calc.new q) y l) :=
  lastOf_exec ext Calc.new (fun c => c.structures) (SetsStructures ext) (step_structures ext) cs

/-! ## Elastic constants, equations of state, quasi-harmonic calculations -/

theorem cellOf_unique {c : Calc St V R A} {s : Option (List St)} {u u' : Option St} (h : CellOf c s u) (h' : CellOf c s u') :
    u = u' := by
  rw [← first_cellOf] at h h'
  rw [h] at h'; cases h'; rfl

theorem step_jobs (ext : Ext St V R A) (k : Kind) (c : Calc St V R A) (x : Call St A) :
    (∃ b, Makes ext k c x b ∧ (step ext c x).1.jobs k = some b) ∨
      ((∀ b, ¬ Makes ext k c x b) ∧ (step ext c x).1.jobs k = c.jobs k) := by
  have key : ∀ (y : Call St A), (∀ s a, y ≠ .job k s a) → (step ext c y).1.jobs k = c.jobs k →
      (∃ b, Makes ext k c y b ∧ (step ext c y).1.jobs k = some b) ∨
      ((∀ b, ¬ Makes ext k c y b) ∧ (step ext c y).1.jobs k = c.jobs k) := by
    intro y hno h
    right
    refine ⟨?_, h⟩
    rintro b ⟨s, a, u, hy, -⟩
    exact hno s a hy
  cases x with
  | load l => cases l <;> exact key _ (by simp) rfl
  | eval s =>
    refine key _ (by simp) ?_
    change (eval ext c s).1.jobs k = _
    rcases eval_cases ext c s with ⟨hn, he⟩ | ⟨l0, ws, hl, hv, he⟩ | ⟨l0, e0, hl, hf, he⟩ <;> rw [he] <;>
      simp only [setStructs_jobs]
  | features s =>
    refine key _ (by simp) ?_
    change (features ext c s).1.jobs k = _
    rcases features_cases ext c s with ⟨e, he⟩ | ⟨l, r, -, -, he⟩ <;> rw [he] <;> simp only [setStructs_jobs]
  | phononInit s a =>
    refine key _ (by simp) ?_
    change (phononInit ext c s a).1.jobs k = _
    rcases phononInit_cases ext c s a with ⟨e, -, he⟩ | ⟨u, e, -, -, he⟩ | ⟨u, -, -, he⟩ <;> rw [he] <;>
      simp only [setStructs_jobs]
  | phonon a =>
    refine key _ (by simp) ?_
    change (phonon ext c a).1.jobs k = _
    rcases phonon_cases ext c a with ⟨-, he⟩ | ⟨u, a0, old, e, -, -, he⟩ | ⟨u, a0, old, r, -, -, he⟩ <;> rw [he]
  | optInit s a =>
    refine key _ (by simp) ?_
    change (optInit ext c s a).1.jobs k = _
    rcases optInit_cases ext c s a with ⟨e, -, he⟩ | ⟨u, -, -, he⟩ | ⟨u, e, -, -, -, he⟩ | ⟨u, -, -, he⟩ <;> rw [he] <;>
      simp only [setStructs_jobs]
  | opt a =>
    refine key _ (by simp) ?_
    change (opt ext c a).1.jobs k = _
    rcases opt_cases ext c a with ⟨-, he⟩ | ⟨u, a0, as, old, e, -, -, he⟩ | ⟨u, a0, as, old, r, -, -, he⟩ <;> rw [he]
  | job k' s a =>
    by_cases hk : k = k'
    · subst hk
      change (∃ b, Makes ext k c (.job k s a) b ∧ (job ext c k s a).1.jobs k = some b) ∨
        ((∀ b, ¬ Makes ext k c (.job k s a) b) ∧ (job ext c k s a).1.jobs k = c.jobs k)
      rcases job_cases ext c k s a with ⟨e, hn, he⟩ | ⟨u, e, hu, hi, he⟩ | ⟨u, e, hu, hi, hg, he⟩ | ⟨u, r, hu, hi, hg, he⟩
      · right
        refine ⟨?_, by rw [he, setStructs_jobs]⟩
        rintro b ⟨s', a', u, h, hu, -⟩
        cases h; exact hn u hu
      · right
        refine ⟨?_, by rw [he]; simp only [setStructs_jobs]⟩
        rintro b ⟨s', a', u', h, hu', hi', -⟩
        cases h; rw [← cellOf_unique hu hu', hi] at hi'; cases hi'
      · left; exact ⟨none, ⟨s, a, u, rfl, hu, hi, .inr ⟨e, hg, rfl⟩⟩, by rw [he]; simp⟩
      · left; exact ⟨some r, ⟨s, a, u, rfl, hu, hi, .inl ⟨r, hg, rfl⟩⟩, by rw [he]; simp⟩
    · refine key _ (by intro s' a' h; cases h; exact hk rfl) ?_
      change (job ext c k' s a).1.jobs k = _
      rcases job_cases ext c k' s a with ⟨e, hn, he⟩ | ⟨u, e, hu, hi, he⟩ | ⟨u, e, hu, hi, hg, he⟩ | ⟨u, r, hu, hi, hg, he⟩ <;>
        rw [he] <;> simp [setStructs_jobs, hk]

/-- C81 (elastic constants, equations of state, quasi-harmonic results).  After every history the result of a kind that
is reported is that of the last calculation of this kind that was made, for its unit cell and with its arguments: it does
not depend on what was evaluated before it or called after it.  None is reported if that calculation failed, and if there
was none. -/
theorem C81_jobs (ext : Ext St V R A) (k : Kind) (cs : List (Call St A)) :
    (∃ b, jobResult (exec ext Calc.new cs) k = b ∧ LastOf (exec ext Calc.new) (Makes ext k) cs b) ∨
      (jobResult (exec ext Calc.new cs) k = none ∧
        ∀ q y t, cs = q ++ y :: t → ∀ b, ¬ Makes ext k (exec ext Calc.new q) y b) := by
  rcases lastOf_exec ext Calc.new (fun c => c.jobs k) (Makes ext k) (step_jobs ext k) cs with ⟨b, hb, hl⟩ | ⟨hb, hn⟩
  · left; exact ⟨b, by unfold jobResult; rw [hb]; rfl, hl⟩
  · right; exact ⟨by unfold jobResult; rw [hb]; rfl, hn⟩

/-- C81 (returned results).  What these calculations return is what the calculation gives for the first of the structures,
and it is then reported. -/
theorem C81_returned (ext : Ext St V R A) (c : Calc St V R A) (k : Kind) (s : Option (List St)) (a : A) (r : R)
    (h : (step ext c (.job k s a)).2 = .ok (.result r)) :
    (∃ u, CellOf c s u ∧ Gives ext.pot (ext.job k u a) (.ok r) ∧ (step ext c (.job k s a)).1.unitcell = u) ∧
      jobResult (step ext c (.job k s a)).1 k = some r := by
  change (job ext c k s a).2 = _ at h
  change (∃ u, _ ∧ _ ∧ (job ext c k s a).1.unitcell = u) ∧ jobResult (job ext c k s a).1 k = some r
  rcases job_cases ext c k s a with ⟨e, hn, he⟩ | ⟨u, e, hu, hi, he⟩ | ⟨u, e, hu, hi, hg, he⟩ | ⟨u, r', hu, hi, hg, he⟩
  · rw [he] at h; cases h
  · rw [he] at h; cases h
  · rw [he] at h; cases h
  · rw [he] at h ⊢
    cases h
    exact ⟨⟨u, hu, hg, rfl⟩, by simp [jobResult]⟩

end Verif.CalcApi
