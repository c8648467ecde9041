import Verif.Spec.DevApi
import Mathlib.Tactic.Ring
import Mathlib.Tactic.NormNum
import Mathlib.Data.List.Induction
import Mathlib.Algebra.BigOperators.Group.List.Basic

/-!
# C80: histories of calls of the object for developing potentials
-/

namespace Verif.DevApi

open Verif.Spec

variable {σ D S F E : Type}

/-! ## Histories -/

theorem exec_append (ext : Ext σ D S F E) (st : State σ D E) (a b : List (Call σ S F)) :
    exec ext st (a ++ b) = exec ext (exec ext st a) b := by simp [exec]

theorem exec_cons (ext : Ext σ D S F E) (st : State σ D E) (c : Call σ S F) (b : List (Call σ S F)) :
    exec ext st (c :: b) = exec ext (step ext st c).1 b := rfl

/-- A quantity of the state that is changed only by calls that make `P` true is the one of the last of them. -/
theorem lastOf_exec {β : Type} (ext : Ext σ D S F E) (st : State σ D E) (g : State σ D E → Option β)
    (P : State σ D E → Call σ S F → β → Prop)
    (hP : ∀ s c, (∃ b, P s c b ∧ g (step ext s c).1 = some b) ∨ ((∀ b, ¬ P s c b) ∧ g (step ext s c).1 = g s))
    (cs : List (Call σ S F)) :
    (∃ b, g (exec ext st cs) = some b ∧ LastOf (exec ext st) P cs b) ∨
      (g (exec ext st cs) = g st ∧ ∀ q y t, cs = q ++ y :: t → ∀ b, ¬ P (exec ext st q) y b) := by
  induction cs using List.reverseRecOn with
  | nil => right; exact ⟨rfl, by intro q y t h; simp at h⟩
  | append_singleton l c ih =>
    have hs : exec ext st (l ++ [c]) = (step ext (exec ext st l) c).1 := by rw [exec_append]; rfl
    rw [hs]
    rcases hP (exec ext st l) c with ⟨b, hb, hg⟩ | ⟨hn, hg⟩
    · left
      refine ⟨b, hg, l, c, [], by simp, hb, ?_⟩
      intro q y t h; simp at h
    · rcases ih with ⟨b, hb, pre, x, post, rfl, hx, hpost⟩ | ⟨hb, hno⟩
      · left
        refine ⟨b, by rw [hg, hb], pre, x, post ++ [c], by simp, hx, ?_⟩
        intro q y t h b'
        rcases List.eq_nil_or_concat t with rfl | ⟨t', z, rfl⟩
        · have h2 := List.append_inj' h (by simp)
          have : c = y := by simpa using h2.2
          subst this; rw [← h2.1]; exact hn b'
        · have h' : post ++ [c] = (q ++ y :: t') ++ [z] := by simpa using h
          have h2 := List.append_inj' h' (by simp)
          exact hpost q y t' h2.1 b'
      · right
        refine ⟨by rw [hg, hb], ?_⟩
        intro q y t h b'
        rcases List.eq_nil_or_concat t with rfl | ⟨t', z, rfl⟩
        · have h2 := List.append_inj' h (by simp)
          have : c = y := by simpa using h2.2
          subst this; rw [← h2.1]; exact hn b'
        · have h' : l ++ [c] = (q ++ y :: t') ++ [z] := by simpa using h
          have h2 := List.append_inj' h' (by simp)
          exact hno q y t' h2.1 b'

/-! ## Fits -/

theorem mapM_range_ok {β : Type} (n : ℕ) (g : ℕ → Except Err β) (b : List β) :
    (List.range n).mapM g = .ok b ↔ b.length = n ∧ ∀ i, i < n → ∃ y, g i = .ok y ∧ b[i]? = some y := by
  induction n generalizing b with
  | zero =>
    constructor
    · intro h; cases h; simp
    · rintro ⟨h, -⟩; rw [List.length_eq_zero_iff.mp h]; rfl
  | succ n ih =>
    rw [List.range_succ, List.mapM_append]
    simp only [bind, Except.bind, pure, Except.pure, List.mapM_cons, List.mapM_nil]
    cases hm : (List.range n).mapM g with
    | error e =>
      simp only [reduceCtorEq, false_iff]
      rintro ⟨hl, hall⟩
      have : (List.range n).mapM g = .ok (b.take n) := by
        rw [ih]
        refine ⟨by simp [hl], ?_⟩
        intro i hi
        obtain ⟨y, h1, h2⟩ := hall i (by omega)
        exact ⟨y, h1, by rw [List.getElem?_take_of_lt hi]; exact h2⟩
      rw [hm] at this; cases this
    | ok a =>
      have ha := (ih a).mp hm
      dsimp only
      cases hg : g n with
      | error e =>
        simp only [reduceCtorEq, false_iff]
        rintro ⟨hl, hall⟩
        obtain ⟨y, h1, -⟩ := hall n (by omega)
        rw [hg] at h1; cases h1
      | ok y =>
        simp only [Except.ok.injEq]
        constructor
        · rintro rfl
          refine ⟨by simp [ha.1], ?_⟩
          intro i hi
          by_cases hin : i < n
          · obtain ⟨z, h1, h2⟩ := ha.2 i hin
            exact ⟨z, h1, by rw [List.getElem?_append_left (by omega)]; exact h2⟩
          · have : i = n := by omega
            subst this
            exact ⟨y, hg, by rw [List.getElem?_append_right (by omega)]; simp [ha.1]⟩
        · rintro ⟨hl, hall⟩
          apply List.ext_getElem?
          intro i
          by_cases hin : i < n
          · obtain ⟨z, h1, h2⟩ := ha.2 i hin
            obtain ⟨z', h1', h2'⟩ := hall i (by omega)
            rw [h1] at h1'; cases h1'
            rw [List.getElem?_append_left (by omega), h2, h2']
          · by_cases hi : i = n
            · subst hi
              obtain ⟨z', h1', h2'⟩ := hall i (by omega)
              rw [hg] at h1'; cases h1'
              rw [List.getElem?_append_right (by omega), h2']; simp [ha.1]
            · rw [List.getElem?_eq_none (by simp [ha.1]; omega), List.getElem?_eq_none (by omega)]

theorem hybridDivision_ok (c : List ℕ) (n : ℕ) (xs : List ℚ) (b : List (List ℚ)) :
    hybridDivision c n xs = .ok b ↔ b.length = n ∧ ∀ i, i < n → ∃ lo hi, (i = 0 ∧ lo = 0 ∨ 0 < i ∧ c[i - 1]? = some lo) ∧
      c[i]? = some hi ∧ b[i]? = some ((xs.take hi).drop lo) := by
  unfold hybridDivision
  rw [mapM_range_ok]
  refine and_congr_right fun _ => forall_congr' fun i => forall_congr' fun hi => ?_
  by_cases h0 : i = 0
  · subst h0
    cases hc : c[0]? with
    | none => simp
    | some e => simp [slice]
  · have h0' : 0 < i := by omega
    rw [if_neg h0]
    cases hl : c[i - 1]? with
    | none => simp [h0]
    | some lo =>
      cases hc : c[i]? with
      | none => simp
      | some e => simp [slice, h0, h0']

theorem scaledCoeffs_ok (f : Fit) (n : ℕ) (b : List (List ℚ)) : scaledCoeffs f n = .ok b ↔ IsScaled f n b := by
  unfold scaledCoeffs IsScaled
  cases hc : f.cumulative with
  | none => simp only [Except.ok.injEq]; exact eq_comm
  | some c =>
    dsimp only
    constructor
    · intro h
      cases ha : hybridDivision c n f.coeffs with
      | error e => rw [ha] at h; cases h
      | ok x =>
        cases hb : hybridDivision c n f.scales with
        | error e => rw [ha, hb] at h; cases h
        | ok y =>
          rw [ha, hb] at h
          cases h
          rw [hybridDivision_ok] at ha hb
          refine ⟨by simp [ha.1, hb.1], ?_⟩
          intro i hi
          obtain ⟨lo, hi', h1, h2, h3⟩ := ha.2 i hi
          obtain ⟨lo', hi'', h1', h2', h3'⟩ := hb.2 i hi
          have e1 : hi' = hi'' := by rw [h2] at h2'; exact Option.some.inj h2'
          have e2 : lo = lo' := by
            rcases h1 with ⟨h0, rfl⟩ | ⟨h0, h1⟩ <;> rcases h1' with ⟨h0', rfl⟩ | ⟨h0', h1'⟩
            · rfl
            · omega
            · omega
            · rw [h1] at h1'; exact Option.some.inj h1'
          subst e1; subst e2
          exact ⟨lo, hi', h1, h2, by rw [List.getElem?_zipWith, h3, h3']⟩
    · rintro ⟨hl, hall⟩
      have mk : ∀ xs : List ℚ, ∃ x, hybridDivision c n xs = .ok x := by
        intro xs
        cases hx : hybridDivision c n xs with
        | ok x => exact ⟨x, rfl⟩
        | error e =>
          exfalso
          have : hybridDivision c n xs = .ok ((List.range n).map fun (i : ℕ) =>
              ((xs.take (c[i]?.getD 0)).drop (if i = 0 then 0 else c[i - 1]?.getD 0))) := by
            rw [hybridDivision_ok]
            refine ⟨by simp, ?_⟩
            intro i hi
            obtain ⟨lo, hi', h1, h2, h3⟩ := hall i hi
            refine ⟨lo, hi', h1, h2, ?_⟩
            rw [List.getElem?_map, List.getElem?_range hi, Option.map_some, h2]
            rcases h1 with ⟨rfl, rfl⟩ | ⟨h0, h1⟩
            · simp
            · rw [h1]; simp [show i ≠ 0 by omega]
          rw [hx] at this; cases this
      obtain ⟨x, hx⟩ := mk f.coeffs
      obtain ⟨y, hy⟩ := mk f.scales
      rw [hx, hy]
      simp only [Except.ok.injEq]
      rw [hybridDivision_ok] at hx hy
      apply List.ext_getElem?
      intro i
      by_cases hi : i < n
      · obtain ⟨lo, hi1, h1, h2, h3⟩ := hx.2 i hi
        obtain ⟨lo', hi2, h1', h2', h3'⟩ := hy.2 i hi
        obtain ⟨lo'', hi3, h1'', h2'', h3''⟩ := hall i hi
        have e1 : hi1 = hi2 := by rw [h2] at h2'; exact Option.some.inj h2'
        have e3 : hi1 = hi3 := by rw [h2] at h2''; exact Option.some.inj h2''
        have e2 : lo = lo' := by
          rcases h1 with ⟨h0, rfl⟩ | ⟨h0, h1⟩ <;> rcases h1' with ⟨h0', rfl⟩ | ⟨h0', h1'⟩
          · rfl
          · omega
          · omega
          · rw [h1] at h1'; exact Option.some.inj h1'
        have e4 : lo = lo'' := by
          rcases h1 with ⟨h0, rfl⟩ | ⟨h0, h1⟩ <;> rcases h1'' with ⟨h0', rfl⟩ | ⟨h0', h1''⟩
          · rfl
          · omega
          · omega
          · rw [h1] at h1''; exact Option.some.inj h1''
        subst e1; subst e2; subst e3; subst e4
        rw [List.getElem?_zipWith, h3, h3', h3'']
      · rw [List.getElem?_eq_none (by simp [hx.1, hy.1]; omega), List.getElem?_eq_none (by omega)]

theorem fit_cases (ext : Ext σ D S F E) (st : State σ D E) (m : Method) :
    (∃ r tr te f b, st.o.params = some r ∧ st.o.train = some tr ∧ st.o.test = some te ∧
      ext.regress m (view st.h r) tr te = .ok f ∧ IsScaled f (view st.h r).parts.length b ∧
      fit ext st m = (⟨st.h, { st.o with model := some ⟨f, b, r, none, none⟩ }⟩, .ok ())) ∨
    ((∀ b, ¬ ∃ r tr te f, st.o.params = some r ∧ st.o.train = some tr ∧ st.o.test = some te ∧
      ext.regress m (view st.h r) tr te = .ok f ∧ IsScaled f (view st.h r).parts.length b) ∧
      ∃ e, fit ext st m = (st, .error e)) := by
  unfold fit
  cases hp : st.o.params with
  | none => right; exact ⟨by simp, _, rfl⟩
  | some r =>
    cases htr : st.o.train with
    | none => right; exact ⟨by simp, _, rfl⟩
    | some tr =>
      cases hte : st.o.test with
      | none => right; exact ⟨by simp, _, rfl⟩
      | some te =>
        dsimp only
        cases hr : ext.regress m (view st.h r) tr te with
        | error e => right; refine ⟨?_, e, rfl⟩; rintro b ⟨_, _, _, f, h1, h2, h3, h4, -⟩; cases h1; cases h2; cases h3; rw [hr] at h4; cases h4
        | ok f =>
          have hl : (st.h.objs r).refs.length = (view st.h r).parts.length := by simp [view]
          dsimp only
          rw [hl]
          cases hs : scaledCoeffs f (view st.h r).parts.length with
          | error e => right; refine ⟨?_, e, rfl⟩; rintro b ⟨_, _, _, f', h1, h2, h3, h4, h5⟩; cases h1; cases h2; cases h3; rw [hr] at h4; cases h4; rw [← scaledCoeffs_ok, hs] at h5; cases h5
          | ok b => left; exact ⟨r, tr, te, f, b, rfl, rfl, rfl, hr, (scaledCoeffs_ok _ _ _).mp hs, rfl⟩

theorem estimate_keeps (ext : Ext σ D S F E) (st : State σ D E) :
    (estimate ext st).1.h = st.h ∧ (estimate ext st).1.o.params = st.o.params ∧
    (estimate ext st).1.o.train = st.o.train ∧ (estimate ext st).1.o.test = st.o.test ∧
    ((estimate ext st).1.o.model).map (fun m => (m.fit, m.scaled, m.params)) =
      st.o.model.map (fun m => (m.fit, m.scaled, m.params)) := by
  unfold estimate
  cases hm : st.o.model with
  | none => simp [hm]
  | some m =>
    cases htr : st.o.train with
    | none => simp [hm, htr]
    | some tr =>
      dsimp only
      cases h1 : ext.errors (view st.h m.params) m.scaled tr with
      | error e => simp [hm, htr]
      | ok e1 =>
        dsimp only
        cases hte : st.o.test with
        | none => simp [htr]
        | some te =>
          dsimp only
          cases h2 : ext.errors (view st.h m.params) m.scaled te with
          | error e => simp [htr]
          | ok e2 => simp [htr]

theorem runFit_eq (ext : Ext σ D S F E) (st : State σ D E) (m : Method) :
    (runFit ext st m).1 = (match fit ext st m with
      | (st', .error _) => st'
      | (st', .ok _) => (estimate ext st').1) := by
  unfold runFit
  rcases fit ext st m with ⟨s, r⟩
  cases r <;> rfl

theorem zipWith_ones (l : List ℚ) : List.zipWith (· / ·) l (List.replicate l.length 1) = l := by
  induction l with
  | nil => rfl
  | cons a l ih => simp [List.replicate_succ, ih]

/-! ## Parameters -/

theorem construct_ok (ext : Ext σ D S F E) (h : Heap σ) (s : Single σ) :
    ∃ h', construct ext (alloc h [s]).1 (alloc h [s]).2 = (h', .ok h.nO) := by
  refine ⟨(construct ext (alloc h [s]).1 (alloc h [s]).2).1, Prod.ext rfl ?_⟩
  simp [alloc, construct, check]

theorem setParams_model (ext : Ext σ D S F E) (st : State σ D E) (h : Heap σ) (refs : List ℕ) :
    (setParams ext st h refs).1.o.model = st.o.model ∧ (setParams ext st h refs).1.o.train = st.o.train ∧
    (setParams ext st h refs).1.o.test = st.o.test := by
  unfold setParams
  rcases construct ext h refs with ⟨h', r⟩
  cases r <;> simp

theorem paramFile_model (ext : Ext σ D S F E) (st : State σ D E) (l : List (Single σ)) (s : S) :
    (paramFile ext st l s).1.o.model = st.o.model := by
  unfold paramFile
  dsimp only
  rcases construct ext (alloc st.h l).1 (alloc st.h l).2 with ⟨h', r⟩
  cases r with
  | error e => rfl
  | ok r => dsimp only; cases ext.load (view h' r) s <;> rfl

theorem setData_model (ext : Ext σ D S F E) (st : State σ D E) (src : Source S) :
    (setData ext st src).1.o.model = st.o.model ∧ (setData ext st src).1.o.params = st.o.params := by
  unfold setData
  cases hp : st.o.params with
  | none => exact ⟨rfl, hp⟩
  | some r =>
    dsimp only
    by_cases hv : src.valid = false
    · rw [if_pos hv]; exact ⟨rfl, hp⟩
    · rw [if_neg hv]
      cases ext.load (view (prepare st.h r src) r) src.data <;> exact ⟨rfl, hp⟩

theorem append_obj (ext : Ext σ D S F E) (st : State σ D E) (s : Single σ) : (append ext st s).1.o = st.o := by
  unfold append
  cases st.o.params <;> rfl

theorem curve_obj (ext : Ext σ D S F E) (st : State σ D E) :
    (learningCurve ext st).1.h = st.h ∧ (learningCurve ext st).1.o.params = st.o.params ∧
    (learningCurve ext st).1.o.train = st.o.train ∧ (learningCurve ext st).1.o.test = st.o.test ∧
    (learningCurve ext st).1.o.model = st.o.model := by
  unfold learningCurve
  cases hp : st.o.params with
  | none => simp [hp]
  | some r =>
    cases htr : st.o.train with
    | none => simp [hp, htr]
    | some tr =>
      cases hte : st.o.test with
      | none => simp [hp, htr, hte]
      | some te =>
        dsimp only
        cases ext.curve (view st.h r) tr te <;> simp [hp, htr, hte]

theorem load_cases (ext : Ext σ D S F E) (st : State σ D E) (p : F) :
    (∃ e, ext.read p = .error e ∧ loadMlp ext st p = (st, .error e)) ∨
    (∃ f x h', ext.read p = .ok (f, x) ∧ construct ext (alloc st.h [f]).1 (alloc st.h [f]).2 = (h', .ok st.h.nO) ∧
      loadMlp ext st p = (⟨h', { st.o with params := some st.h.nO, model := some ⟨⟨x, List.replicate x.length 1, none⟩, [x], st.h.nO, none, none⟩ }⟩, .ok ())) := by
  unfold loadMlp
  cases hr : ext.read p with
  | error e => left; exact ⟨e, rfl, rfl⟩
  | ok q =>
    rcases q with ⟨f, x⟩
    obtain ⟨h', hc⟩ := construct_ok ext st.h f
    right
    refine ⟨f, x, h', rfl, hc, ?_⟩
    dsimp only
    rw [hc]
    simp only [zipWith_ones]

/-- C80 (fits).  A fit without parameters or data raises RuntimeError.  A fit that succeeds used the parameters and the
data that are set, and its coefficients are reported; a fit that fails changes nothing. -/
theorem C80_fit (ext : Ext σ D S F E) (st : State σ D E) (m : Method) :
    (st.o.params = none ∨ st.o.train = none ∨ st.o.test = none →
      step ext st (.fit m) = (st, .error .runtimeError) ∧ step ext st (.run m) = (st, .error .runtimeError) ∧
      step ext st .curve = (st, .error .runtimeError)) ∧
    (∀ e, (step ext st (.fit m)).2 = .error e → (step ext st (.fit m)).1 = st) ∧
    ((step ext st (.fit m)).2 = .ok () → ∃ r tr te f b, st.o.params = some r ∧ st.o.train = some tr ∧
      st.o.test = some te ∧ ext.regress m (view st.h r) tr te = .ok f ∧
      IsScaled f (view st.h r).parts.length b ∧ coeffs (step ext st (.fit m)).1 = .ok b ∧
      (step ext st (.fit m)).1.h = st.h ∧ (step ext st (.fit m)).1.o.params = st.o.params ∧
      (step ext st (.fit m)).1.o.train = st.o.train ∧ (step ext st (.fit m)).1.o.test = st.o.test) := by
  refine ⟨?_, ?_, ?_⟩
  · intro h
    have hf : fit ext st m = (st, .error .runtimeError) := by
      unfold fit
      cases hp : st.o.params with
      | none => rfl
      | some r =>
        cases htr : st.o.train with
        | none => rfl
        | some tr =>
          cases hte : st.o.test with
          | none => rfl
          | some te => simp [hp, htr, hte] at h
    refine ⟨hf, ?_, ?_⟩
    · change runFit ext st m = _
      unfold runFit; rw [hf]
    · change learningCurve ext st = _
      unfold learningCurve
      cases hp : st.o.params with
      | none => rfl
      | some r =>
        cases htr : st.o.train with
        | none => rfl
        | some tr =>
          cases hte : st.o.test with
          | none => rfl
          | some te => simp [hp, htr, hte] at h
  · intro e he
    change (fit ext st m).2 = _ at he
    change (fit ext st m).1 = _
    rcases fit_cases ext st m with ⟨r, tr, te, f, b, -, -, -, -, -, h⟩ | ⟨-, e', h⟩
    · rw [h] at he; cases he
    · rw [h]
  · intro he
    change (fit ext st m).2 = _ at he
    change ∃ r tr te f b, _ ∧ _ ∧ _ ∧ _ ∧ _ ∧ coeffs (fit ext st m).1 = _ ∧ (fit ext st m).1.h = _ ∧
      (fit ext st m).1.o.params = _ ∧ (fit ext st m).1.o.train = _ ∧ (fit ext st m).1.o.test = _
    rcases fit_cases ext st m with ⟨r, tr, te, f, b, h1, h2, h3, h4, h5, h⟩ | ⟨-, e', h⟩
    · exact ⟨r, tr, te, f, b, h1, h2, h3, h4, h5, by rw [h]; exact ⟨rfl, rfl, rfl, rfl, rfl⟩⟩
    · rw [h] at he; cases he

theorem step_coeffs (ext : Ext σ D S F E) (st : State σ D E) (c : Call σ S F) :
    (∃ b, Develops ext st c b ∧ (step ext st c).1.o.model.map (fun m => m.scaled) = some b) ∨
      ((∀ b, ¬ Develops ext st c b) ∧
        (step ext st c).1.o.model.map (fun m => m.scaled) = st.o.model.map (fun m => m.scaled)) := by
  have no : (∀ m, c ≠ .fit m) → (∀ m, c ≠ .run m) → (∀ p, c ≠ .load p) → ∀ b, ¬ Develops ext st c b := by
    rintro h1 h2 h3 b (⟨m, _, _, _, _, h, -⟩ | ⟨p, _, _, h, -⟩)
    · rcases h with h | h
      · exact h1 m h
      · exact h2 m h
    · exact h3 p h
  cases c with
  | setParams l => right; exact ⟨no (by simp) (by simp) (by simp), by rw [step, (setParams_model _ _ _ _).1]⟩
  | setShared refs => right; exact ⟨no (by simp) (by simp) (by simp), by rw [step, (setParams_model _ _ _ _).1]⟩
  | paramFile l s => right; exact ⟨no (by simp) (by simp) (by simp), by rw [step, paramFile_model]⟩
  | append s => right; exact ⟨no (by simp) (by simp) (by simp), by rw [step, append_obj]⟩
  | setData src => right; exact ⟨no (by simp) (by simp) (by simp), by rw [step, (setData_model _ _ _).1]⟩
  | fit m =>
    rcases fit_cases ext st m with ⟨r, tr, te, f, b, h1, h2, h3, h4, h5, h⟩ | ⟨hn, e', h⟩
    · left; exact ⟨b, .inl ⟨m, r, tr, te, f, .inl rfl, h1, h2, h3, h4, h5⟩, by rw [step, h]; rfl⟩
    · right
      refine ⟨?_, by rw [step, h]⟩
      rintro b (⟨m', r, tr, te, f, hm, h1, h2, h3, h4, h5⟩ | ⟨p, _, _, h, -⟩)
      · have : m = m' := by rcases hm with hm | hm <;> simp at hm; exact hm
        subst this
        exact hn b ⟨r, tr, te, f, h1, h2, h3, h4, h5⟩
      · cases h
  | run m =>
    rcases fit_cases ext st m with ⟨r, tr, te, f, b, h1, h2, h3, h4, h5, h⟩ | ⟨hn, e', h⟩
    · left
      refine ⟨b, .inl ⟨m, r, tr, te, f, .inr rfl, h1, h2, h3, h4, h5⟩, ?_⟩
      rw [step, runFit_eq, h]
      have := congrArg (Option.map fun (x : Fit × List (List ℚ) × ℕ) => x.2.1)
        (estimate_keeps ext ⟨st.h, { st.o with model := some ⟨f, b, r, none, none⟩ }⟩).2.2.2.2
      simpa [Option.map_map, Function.comp_def] using this
    · right
      refine ⟨?_, by rw [step, runFit_eq, h]⟩
      rintro b (⟨m', r, tr, te, f, hm, h1, h2, h3, h4, h5⟩ | ⟨p, _, _, h, -⟩)
      · have : m = m' := by rcases hm with hm | hm <;> simp at hm; exact hm
        subst this
        exact hn b ⟨r, tr, te, f, h1, h2, h3, h4, h5⟩
      · cases h
  | estimate =>
    right
    refine ⟨no (by simp) (by simp) (by simp), ?_⟩
    have := congrArg (Option.map fun (x : Fit × List (List ℚ) × ℕ) => x.2.1) (estimate_keeps ext st).2.2.2.2
    rw [step]
    simpa [Option.map_map, Function.comp_def] using this
  | curve => right; exact ⟨no (by simp) (by simp) (by simp), by rw [step, (curve_obj _ _).2.2.2.2]⟩
  | load p =>
    rcases load_cases ext st p with ⟨e, hr, h⟩ | ⟨f, x, h', hr, -, h⟩
    · right
      refine ⟨?_, by rw [step, h]⟩
      rintro b (⟨m', r, tr, te, f, hm, -⟩ | ⟨p', f, x, hp, hr', -⟩)
      · rcases hm with hm | hm <;> cases hm
      · cases hp; rw [hr] at hr'; cases hr'
    · left
      exact ⟨[x], .inr ⟨p, f, x, rfl, hr, rfl⟩, by rw [step, h]; rfl⟩

/-- C80 (coefficients).  After any history of calls of a new object, in which any calls may have failed, the reported
coefficients are those of the last call that completed a regression, with the parameters and the data that were set at
that time, or that read a file; without such a call there are none. -/
theorem C80_coeffs (ext : Ext σ D S F E) (h : Heap σ) (cs : List (Call σ S F)) :
    (∃ b, coeffs (exec ext ⟨h, Obj.new⟩ cs) = .ok b ∧ LastOf (exec ext ⟨h, Obj.new⟩) (Develops ext) cs b) ∨
      (coeffs (exec ext ⟨h, Obj.new⟩ cs) = .error .attributeError ∧
        ∀ pre c post, cs = pre ++ c :: post → ∀ b, ¬ Develops ext (exec ext ⟨h, Obj.new⟩ pre) c b) := by
  rcases lastOf_exec ext ⟨h, Obj.new⟩ (fun s => s.o.model.map fun m => m.scaled) (Develops ext)
    (fun s c => step_coeffs ext s c) cs with ⟨b, hb, hl⟩ | ⟨hb, hn⟩
  · left
    refine ⟨b, ?_, hl⟩
    unfold coeffs
    cases hm : (exec ext ⟨h, Obj.new⟩ cs).o.model with
    | none => rw [hm] at hb; cases hb
    | some m => rw [hm] at hb; simp at hb; dsimp only; rw [hb]
  · right
    refine ⟨?_, hn⟩
    unfold coeffs
    cases hm : (exec ext ⟨h, Obj.new⟩ cs).o.model with
    | none => rfl
    | some m => rw [hm] at hb; simp [Obj.new] at hb

/-! ## Data -/

theorem setData_cases (ext : Ext σ D S F E) (st : State σ D E) (src : Source S) :
    (∃ r d, st.o.params = some r ∧ src.valid = true ∧ ext.load (view (prepare st.h r src) r) src.data = .ok d ∧
      setData ext st src = (⟨prepare st.h r src, { st.o with train := some d.1, test := some d.2 }⟩, .ok ())) ∨
    (∃ e h', setData ext st src = (⟨h', st.o⟩, .error e) ∧
      ((st.o.params = none ∧ h' = st.h ∧ e = .runtimeError) ∨ ∃ r, st.o.params = some r ∧ h' = prepare st.h r src ∧
        (src.valid = false ∨ ∃ e, ext.load (view h' r) src.data = .error e))) := by
  unfold setData
  cases hp : st.o.params with
  | none => right; exact ⟨_, st.h, rfl, .inl ⟨rfl, rfl, rfl⟩⟩
  | some r =>
    dsimp only
    by_cases hv : src.valid = false
    · rw [if_pos hv]; right; exact ⟨_, _, rfl, .inr ⟨r, rfl, rfl, .inl hv⟩⟩
    · rw [if_neg hv]
      cases hl : ext.load (view (prepare st.h r src) r) src.data with
      | error e => right; exact ⟨_, _, rfl, .inr ⟨r, rfl, rfl, .inr ⟨e, hl⟩⟩⟩
      | ok d => left; exact ⟨r, d, rfl, by simpa using hv, hl, rfl⟩

theorem paramFile_cases (ext : Ext σ D S F E) (st : State σ D E) (l : List (Single σ)) (s : S) :
    (∃ h' r d, construct ext (alloc st.h l).1 (alloc st.h l).2 = (h', .ok r) ∧ ext.load (view h' r) s = .ok d ∧
      paramFile ext st l s =
        (⟨h', { st.o with params := some r, train := some d.1, test := some d.2 }⟩, .ok ())) ∨
    (∃ e, paramFile ext st l s = (⟨(construct ext (alloc st.h l).1 (alloc st.h l).2).1, st.o⟩, .error e)) := by
  unfold paramFile
  dsimp only
  rcases hc : construct ext (alloc st.h l).1 (alloc st.h l).2 with ⟨h', r⟩
  cases r with
  | error e => right; exact ⟨e, rfl⟩
  | ok r =>
    dsimp only
    cases hl : ext.load (view h' r) s with
    | error e => right; exact ⟨e, rfl⟩
    | ok d => left; exact ⟨h', r, d, rfl, hl, rfl⟩

def dataOf (st : State σ D E) : Option (D × D) :=
  match st.o.train, st.o.test with
  | some a, some b => some (a, b)
  | _, _ => none

theorem dataOf_congr (a b : State σ D E) (h1 : a.o.train = b.o.train) (h2 : a.o.test = b.o.test) :
    dataOf a = dataOf b := by
  unfold dataOf; rw [h1, h2]

theorem step_data (ext : Ext σ D S F E) (st : State σ D E) (c : Call σ S F) :
    (∃ b, MakesData ext st c b ∧ dataOf (step ext st c).1 = some b) ∨
      ((∀ b, ¬ MakesData ext st c b) ∧ dataOf (step ext st c).1 = dataOf st) := by
  have no : (∀ m, c ≠ .setData m) → (∀ l s, c ≠ .paramFile l s) → ∀ b, ¬ MakesData ext st c b := by
    rintro h1 h2 b (⟨m, _, h, -⟩ | ⟨l, s, _, h, -⟩)
    · exact h1 m h
    · exact h2 l s h
  cases c with
  | setParams l => right; exact ⟨no (by simp) (by simp), dataOf_congr _ _ (setParams_model _ _ _ _).2.1 (setParams_model _ _ _ _).2.2⟩
  | setShared refs => right; exact ⟨no (by simp) (by simp), dataOf_congr _ _ (setParams_model _ _ _ _).2.1 (setParams_model _ _ _ _).2.2⟩
  | paramFile l s =>
    rcases paramFile_cases ext st l s with ⟨h', r, d, hc, hl, h⟩ | ⟨e, h⟩
    · left
      refine ⟨d, .inr ⟨l, s, r, rfl, ?_⟩, ?_⟩
      · rw [step, h]; exact ⟨rfl, rfl, hl⟩
      · rw [step, h]; rfl
    · right
      refine ⟨?_, by rw [step, h]; rfl⟩
      rintro b (⟨src, r, hc, -⟩ | ⟨l', s', r, -, -, h2, -⟩)
      · cases hc
      · rw [step, h] at h2; cases h2
  | append s => right; exact ⟨no (by simp) (by simp), dataOf_congr _ _ (by rw [step, append_obj]) (by rw [step, append_obj])⟩
  | setData src =>
    rcases setData_cases ext st src with ⟨r, d, hp, hv, hl, h⟩ | ⟨e, h', h, hh⟩
    · left
      refine ⟨d, .inl ⟨src, r, rfl, hp, hv, ?_⟩, ?_⟩
      · rw [step, h]; exact hl
      · rw [step, h]; rfl
    · right
      refine ⟨?_, by rw [step, h]; rfl⟩
      rintro b (⟨src', r, hc, hp, hv, hl⟩ | ⟨l', s', r, hc, -⟩)
      · cases hc
        rcases hh with ⟨hn, -⟩ | ⟨r', hp', rfl, hbad⟩
        · rw [hn] at hp; cases hp
        · rw [hp] at hp'; cases hp'
          rw [step, h] at hl
          rcases hbad with hbad | ⟨e', he⟩
          · rw [hv] at hbad; cases hbad
          · dsimp only at hl; rw [he] at hl; cases hl
      · cases hc
  | fit m =>
    right
    refine ⟨no (by simp) (by simp), ?_⟩
    rcases fit_cases ext st m with ⟨r, tr, te, f, b, h1, h2, h3, h4, h5, h⟩ | ⟨hn, e', h⟩ <;> rw [step, h] <;> rfl
  | run m =>
    right
    refine ⟨no (by simp) (by simp), ?_⟩
    rw [step, runFit_eq]
    rcases fit_cases ext st m with ⟨r, tr, te, f, b, h1, h2, h3, h4, h5, h⟩ | ⟨hn, e', h⟩
    · rw [h]
      have := estimate_keeps ext ⟨st.h, { st.o with model := some ⟨f, b, r, none, none⟩ }⟩
      exact dataOf_congr _ _ this.2.2.1 this.2.2.2.1
    · rw [h]
  | estimate =>
    right
    exact ⟨no (by simp) (by simp), dataOf_congr _ _ (estimate_keeps ext st).2.2.1 (estimate_keeps ext st).2.2.2.1⟩
  | curve =>
    right
    exact ⟨no (by simp) (by simp), dataOf_congr _ _ (curve_obj ext st).2.2.1 (curve_obj ext st).2.2.2.1⟩
  | load p =>
    right
    refine ⟨no (by simp) (by simp), ?_⟩
    rcases load_cases ext st p with ⟨e, hr, h⟩ | ⟨f, x, h', hr, -, h⟩ <;> rw [step, h] <;> rfl

theorem train_test (ext : Ext σ D S F E) (st : State σ D E) (c : Call σ S F)
    (h : st.o.train = none ↔ st.o.test = none) :
    (step ext st c).1.o.train = none ↔ (step ext st c).1.o.test = none := by
  cases c with
  | setParams l => rw [step, (setParams_model _ _ _ _).2.1, (setParams_model _ _ _ _).2.2]; exact h
  | setShared l => rw [step, (setParams_model _ _ _ _).2.1, (setParams_model _ _ _ _).2.2]; exact h
  | paramFile l s => rcases paramFile_cases ext st l s with ⟨h', r, d, hc, hl, e⟩ | ⟨_, e⟩ <;> rw [step, e] <;> simp [h]
  | append s => rw [step, append_obj]; exact h
  | setData src => rcases setData_cases ext st src with ⟨r, d, hp, hv, hl, e⟩ | ⟨_, h', e, -⟩ <;> rw [step, e] <;> simp [h]
  | fit m => rcases fit_cases ext st m with ⟨r, tr, te, f, b, h1, h2, h3, h4, h5, e⟩ | ⟨hn, e', e⟩ <;> rw [step, e] <;> simp [h]
  | run m =>
    rw [step, runFit_eq]
    rcases fit_cases ext st m with ⟨r, tr, te, f, b, h1, h2, h3, h4, h5, e⟩ | ⟨hn, e', e⟩
    · rw [e]
      have := estimate_keeps ext ⟨st.h, { st.o with model := some ⟨f, b, r, none, none⟩ }⟩
      dsimp only at this ⊢
      rw [this.2.2.1, this.2.2.2.1]; exact h
    · rw [e]; exact h
  | estimate => rw [step, (estimate_keeps ext st).2.2.1, (estimate_keeps ext st).2.2.2.1]; exact h
  | curve => rw [step, (curve_obj ext st).2.2.1, (curve_obj ext st).2.2.2.1]; exact h
  | load p => rcases load_cases ext st p with ⟨e, hr, e⟩ | ⟨f, x, h', hr, -, e⟩ <;> rw [step, e] <;> simp [h]

/-- C80 (data).  After any history of calls of a new object the training and the test data are those of the last call
that made data, read with the parameters as they are after that call; without such a call there are none.  In particular
training and test data always belong together. -/
theorem C80_data (ext : Ext σ D S F E) (h : Heap σ) (cs : List (Call σ S F)) :
    (∃ b, (exec ext ⟨h, Obj.new⟩ cs).o.train = some b.1 ∧ (exec ext ⟨h, Obj.new⟩ cs).o.test = some b.2 ∧
        LastOf (exec ext ⟨h, Obj.new⟩) (MakesData ext) cs b) ∨
      ((exec ext ⟨h, Obj.new⟩ cs).o.train = none ∧ (exec ext ⟨h, Obj.new⟩ cs).o.test = none ∧
        ∀ pre c post, cs = pre ++ c :: post → ∀ b, ¬ MakesData ext (exec ext ⟨h, Obj.new⟩ pre) c b) := by
  have both : ∀ l : List (Call σ S F), (exec ext ⟨h, Obj.new⟩ l).o.train = none ↔ (exec ext ⟨h, Obj.new⟩ l).o.test = none := by
    intro l
    induction l using List.reverseRecOn with
    | nil => exact Iff.rfl
    | append_singleton l c ih => rw [exec_append]; exact train_test ext _ c ih
  rcases lastOf_exec ext ⟨h, Obj.new⟩ dataOf (MakesData ext) (fun s c => step_data ext s c) cs with
    ⟨b, hb, hl⟩ | ⟨hb, hn⟩
  · left
    refine ⟨b, ?_, ?_, hl⟩ <;>
    · unfold dataOf at hb
      cases h1 : (exec ext ⟨h, Obj.new⟩ cs).o.train <;> cases h2 : (exec ext ⟨h, Obj.new⟩ cs).o.test <;>
        simp_all
      rw [← hb]
  · right
    have hb' : dataOf (exec ext ⟨h, Obj.new⟩ cs) = none := by rw [hb]; rfl
    have hx := both cs
    unfold dataOf at hb'
    cases h1 : (exec ext ⟨h, Obj.new⟩ cs).o.train <;> cases h2 : (exec ext ⟨h, Obj.new⟩ cs).o.test <;> simp_all

end Verif.DevApi
