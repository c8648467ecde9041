import Verif.Spec.CalcCli
import Verif.Props.CalcApi
import Verif.Props.Vasprun

/-!
# C98: the command line for calculating properties
-/

namespace Verif.CalcCli

open Verif.CalcApi Verif.Spec

variable {St V R : Type}

/-! ## Structures -/

theorem poscars_iff (ext : CliExt St V R) (a : Args) (l : List St) :
    readPoscars ext (poscarOf a) = .ok l ↔ GivenCell ext a l := by
  unfold GivenCell poscarOf
  cases hp : a.poscar with
  | some f =>
    simp only [readPoscars]
    cases hx : ext.poscar f with
    | error e => simp [Except.map, hx]
    | ok s => simp [Except.map, hx, eq_comm]
  | none =>
    cases hq : a.poscars with
    | none => simp [readPoscars]
    | some fs => simp [readPoscars, Vasprun.mapM_iff]

theorem files_iff (ext : CliExt St V R) (a : Args) (l : List St) :
    readFiles ext a = .ok l ↔ GivenCells ext a l := by
  unfold GivenCells readFiles poscarsOf
  cases hq : a.poscars with
  | some fs => simp [readPoscars, Vasprun.mapM_iff]
  | none =>
    cases hp : a.poscar with
    | some f =>
      simp only [readPoscars]
      cases hx : ext.poscar f with
      | error e => simp [Except.map, hx]
      | ok s => simp [Except.map, hx, eq_comm]
    | none =>
      cases hv : a.vaspruns with
      | none => simp
      | some fs => simp [Vasprun.mapM_iff]

theorem givenCell_unique {ext : CliExt St V R} {a : Args} {l l' : List St} (h : GivenCell ext a l) (h' : GivenCell ext a l') :
    l = l' := by
  rw [← poscars_iff] at h h'
  rw [h] at h'
  exact Except.ok.inj h'

theorem givenCells_unique {ext : CliExt St V R} {a : Args} {l l' : List St} (h : GivenCells ext a l)
    (h' : GivenCells ext a l') : l = l' := by
  rw [← files_iff] at h h'
  rw [h] at h'
  exact Except.ok.inj h'

theorem load_cell (ext : CliExt St V R) (a : Args) (w : World St V R) :
    (∃ l, GivenCell ext a l ∧ call (ext.api a.pot a.infile) (.load (readPoscars ext (poscarOf a))) w =
      (⟨{ w.obj with structures := some l }, w.files⟩, .ok ())) ∨
    ((∀ l, ¬ GivenCell ext a l) ∧
      ∃ e, call (ext.api a.pot a.infile) (.load (readPoscars ext (poscarOf a))) w = (⟨w.obj, w.files⟩, .error e)) := by
  cases h : readPoscars ext (poscarOf a) with
  | ok l => left; exact ⟨l, (poscars_iff ext a l).1 h, rfl⟩
  | error e =>
    right
    refine ⟨fun l hl => ?_, e, rfl⟩
    rw [← poscars_iff, h] at hl
    cases hl

theorem load_cells (ext : CliExt St V R) (a : Args) (w : World St V R) :
    (∃ l, GivenCells ext a l ∧ call (ext.api a.pot a.infile) (.load (readFiles ext a)) w =
      (⟨{ w.obj with structures := some l }, w.files⟩, .ok ())) ∨
    ((∀ l, ¬ GivenCells ext a l) ∧
      ∃ e, call (ext.api a.pot a.infile) (.load (readFiles ext a)) w = (⟨w.obj, w.files⟩, .error e)) := by
  cases h : readFiles ext a with
  | ok l => left; exact ⟨l, (files_iff ext a l).1 h, rfl⟩
  | error e =>
    right
    refine ⟨fun l hl => ?_, e, rfl⟩
    rw [← files_iff, h] at hl
    cases hl

theorem cellOf_some {c : Calc St V R Arg} {l : List St} (h : c.structures = some l) (u : Option St) :
    CellOf c none u ↔ ∃ x, l.head? = some x ∧ u = some x := by
  unfold CellOf
  rw [h]

/-! ## Calls -/

theorem call_job (e : Ext St V R Arg) (k : Kind) (arg : Arg) (o : Calc St V R Arg) (fs : Name → Option (Content St V R))
    {l : List St} (hl : o.structures = some l) :
    (∃ u r o', l.head? = some u ∧ e.jobInit k (some u) arg = .ok () ∧ Gives e.pot (e.job k (some u) arg) (.ok r) ∧
      o'.structures = some l ∧ jobResult o' k = some r ∧ call e (.job k none arg) ⟨o, fs⟩ = (⟨o', fs⟩, .ok ())) ∨
    ((∀ u r, l.head? = some u → e.jobInit k (some u) arg = .ok () → ¬ Gives e.pot (e.job k (some u) arg) (.ok r)) ∧
      ∃ o' x, call e (.job k none arg) ⟨o, fs⟩ = (⟨o', fs⟩, .error x)) := by
  rcases job_cases e o k none arg with ⟨x, hn, he⟩ | ⟨u, x, hc, hi, he⟩ | ⟨u, x, hc, hi, hg, he⟩ | ⟨u, r, hc, hi, hg, he⟩
  · right
    refine ⟨fun u r hu => absurd ((cellOf_some hl (some u)).2 ⟨u, hu, rfl⟩) (hn _), ?_⟩
    exact ⟨_, x, by simp only [call, step, he]; rfl⟩
  · right
    obtain ⟨y, hy, rfl⟩ := (cellOf_some hl u).1 hc
    refine ⟨fun u r hu hok => ?_, _, x, by simp only [call, step, he]; rfl⟩
    rw [hy] at hu
    cases hu
    rw [hi] at hok
    cases hok
  · right
    obtain ⟨y, hy, rfl⟩ := (cellOf_some hl u).1 hc
    refine ⟨fun u r hu hok hg' => ?_, _, x, by simp only [call, step, he]; rfl⟩
    rw [hy] at hu
    cases hu
    have := gives_unique hg hg'
    cases this
  · left
    obtain ⟨y, hy, rfl⟩ := (cellOf_some hl u).1 hc
    refine ⟨y, r, (job e o k none arg).1, hy, hi, hg, by rw [he]; exact hl, by rw [he]; simp [jobResult], ?_⟩
    simp only [call, step, he]
    rfl

theorem call_opt (e : Ext St V R Arg) (arg m : Arg) (o : Calc St V R Arg) (fs : Name → Option (Content St V R))
    {l : List St} (hl : o.structures = some l) :
    (∃ u l' o', l.head? = some u ∧ (∃ v, OptimizedTo e arg m u v ∧ l' = [v] ∨ NothingToOptimize e arg u ∧ l' = l) ∧
      o'.structures = some l' ∧
      andThen (call e (.optInit none arg)) (call e (.opt m)) ⟨o, fs⟩ = (⟨o', fs⟩, .ok ())) ∨
    ((∀ u, l.head? = some u → (∀ v, ¬ OptimizedTo e arg m u v) ∧ ¬ NothingToOptimize e arg u) ∧
      ∃ o' x, andThen (call e (.optInit none arg)) (call e (.opt m)) ⟨o, fs⟩ = (⟨o', fs⟩, .error x)) := by
  rcases optInit_cases e o none arg with ⟨x, hn, he⟩ | ⟨u, hc, hg, he⟩ | ⟨u, x, hc, hx, hg, he⟩ | ⟨u, hc, hg, he⟩
  · right
    refine ⟨fun u hu => absurd ((cellOf_some hl (some u)).2 ⟨u, hu, rfl⟩) (hn _), ?_⟩
    exact ⟨_, x, by simp only [andThen, call, step, he]; rfl⟩
  · left
    obtain ⟨y, hy, rfl⟩ := (cellOf_some hl u).1 hc
    refine ⟨y, l, (optInit e o none arg).1, hy, ⟨y, .inr ⟨hg, rfl⟩⟩, by rw [he]; exact hl, ?_⟩
    simp only [andThen, call, step, he]
    simp only [Except.map]
    unfold opt
    rfl
  · right
    obtain ⟨y, hy, rfl⟩ := (cellOf_some hl u).1 hc
    refine ⟨fun u hu => ?_, _, x, by simp only [andThen, call, step, he]; rfl⟩
    rw [hy] at hu
    cases hu
    constructor
    · rintro v ⟨h1, -⟩
      cases gives_unique hg h1
    · intro h1
      exact hx (Except.error.inj (gives_unique hg h1))
  · obtain ⟨y, hy, rfl⟩ := (cellOf_some hl u).1 hc
    have hstep : ∀ q, andThen (call e (.optInit none arg)) q ⟨o, fs⟩ =
        q ⟨{ o with last := (runProg e.pot o.last (e.optInit (some y) arg)).1, opt := some (some y, arg, [], none) }, fs⟩ := by
      intro q
      simp only [andThen, call, step, he]
      rfl
    rw [hstep]
    rcases opt_cases e { o with last := (runProg e.pot o.last (e.optInit (some y) arg)).1, opt := some (some y, arg, [], none) } m with
      ⟨h1, -⟩ | ⟨u, a0, as, old, x, h1, h2, h3⟩ | ⟨u, a0, as, old, x, h1, h2, h3⟩
    · cases h1
    · cases h1
      right
      refine ⟨fun u hu => ?_, _, x, by simp only [call, step, h3]; rfl⟩
      rw [hy] at hu
      cases hu
      constructor
      · rintro v ⟨-, o2, h4, -⟩
        cases gives_unique h2 h4
      · intro h4
        cases gives_unique hg h4
    · cases h1
      left
      refine ⟨y, [x.final], (opt e { o with
        last := (runProg e.pot o.last (e.optInit (some y) arg)).1, opt := some (some y, arg, [], none) } m).1, hy,
        ⟨x.final, .inl ⟨⟨hg, x, h2, rfl⟩, rfl⟩⟩, by rw [h3], by simp only [call, step, h3]; rfl⟩

/-! ## Single calculations -/

/-- Writing of one file. -/
def upd (f : Name → Option (Content St V R)) (n : Name) (c : Content St V R) : Name → Option (Content St V R) :=
  fun n' => if n' = n then some c else f n'

theorem right_unique (ext : CliExt St V R) (a : Args) (n : Name) (c c' : Content St V R) (h : Right ext a n c)
    (h' : Right ext a n c') : c = c' := by
  cases n with
  | properties =>
    obtain ⟨-, -, l, vs, h1, h2, rfl⟩ := h
    obtain ⟨-, -, l', vs', h1', h2', rfl⟩ := h'
    cases givenCells_unique h1 h1'
    rw [valuesOf_unique h2 h2']
  | relaxed =>
    obtain ⟨-, l, u, v, h1, h2, rfl, h3⟩ := h
    obtain ⟨-, l', u', v', h1', h2', rfl, h3'⟩ := h'
    cases givenCell_unique h1 h1'
    rw [h2] at h2'
    cases h2'
    rcases h3 with ⟨g1, o, g2, rfl⟩ | ⟨g1, -, rfl⟩ <;> rcases h3' with ⟨g1', o', g2', rfl⟩ | ⟨g1', -, rfl⟩
    · cases gives_unique g2 g2'; rfl
    · cases gives_unique g1 g1'
    · cases gives_unique g1 g1'
    · rfl
  | poscar i =>
    obtain ⟨-, l, u, v, h1, h2, rfl, -, -, h3⟩ := h
    obtain ⟨-, l', u', v', h1', h2', rfl, -, -, h3'⟩ := h'
    cases givenCell_unique h1 h1'
    rw [h3] at h3'
    cases h3'
    rfl
  | fc =>
    obtain ⟨-, l, u, v, r, h1, h2, rfl, h3, -, h4⟩ := h
    obtain ⟨-, l', u', v', r', h1', h2', rfl, h3', -, h4'⟩ := h'
    cases givenCell_unique h1 h1'
    rw [h2] at h2'
    cases h2'
    have hv : v = v' := by
      rcases h3 with ⟨g, rfl⟩ | ⟨g, h3⟩ <;> rcases h3' with ⟨g', rfl⟩ | ⟨g', h3'⟩
      · rfl
      · rw [g] at g'; cases g'
      · rw [g] at g'; cases g'
      · rcases h3 with ⟨g1, o, g2, rfl⟩ | ⟨g1, rfl⟩ <;> rcases h3' with ⟨g1', o', g2', rfl⟩ | ⟨g1', rfl⟩
        · cases gives_unique g2 g2'; rfl
        · cases gives_unique g1 g1'
        · cases gives_unique g1 g1'
        · rfl
    subst hv
    cases gives_unique h4 h4'
    rfl
  | features =>
    obtain ⟨-, l, r, h1, h2, rfl⟩ := h
    obtain ⟨-, l', r', h1', h2', rfl⟩ := h'
    cases givenCells_unique h1 h1'
    rw [h2] at h2'
    cases h2'
    rfl
  | precision =>
    obtain ⟨-, l, r, h1, h2, rfl⟩ := h
    obtain ⟨-, l', r', h1', h2', rfl⟩ := h'
    cases givenCells_unique h1 h1'
    rw [h2] at h2'
    cases h2'
    rfl
  | _ =>
    obtain ⟨-, l, u, r, h1, h2, rfl, -, h3⟩ := h
    obtain ⟨-, l', u', r', h1', h2', rfl, -, h3'⟩ := h'
    cases givenCell_unique h1 h1'
    rw [h2] at h2'
    cases h2'
    cases gives_unique h3 h3'
    rfl

/-- What a calculation does to the files: everything it has to, or as much as it can. -/
def Does (ext : CliExt St V R) (a : Args) (m : Mode) (act : Act St V R) : Prop :=
  ∀ w, ((act w).2 = .ok () ↔ CanRun ext a m) ∧ (∀ n, modeOf n ≠ m → (act w).1.files n = w.files n) ∧
    (∀ n, modeOf n = m → ∀ c, Right ext a n c → (n = .qha → ∃ c', Right ext a .phonon c') → (act w).1.files n = some c) ∧
    (∀ n, modeOf n = m → ¬ ((∃ c, Right ext a n c) ∧ (n = .qha → ∃ c', Right ext a .phonon c')) →
      (act w).1.files n = w.files n)

/-- A calculation with one file. -/
theorem does_one {ext : CliExt St V R} {a : Args} {m : Mode} {act : Act St V R} (n0 : Name) (hn : n0 ≠ .qha)
    (hm : ∀ n, modeOf n = m ↔ n = n0) (hp : CanRun ext a m ↔ ∃ c, Right ext a n0 c)
    (h : ∀ w, (∃ c o, Right ext a n0 c ∧ act w = (⟨o, upd w.files n0 c⟩, .ok ())) ∨
      ((∀ c, ¬ Right ext a n0 c) ∧ ∃ o e, act w = (⟨o, w.files⟩, .error e))) : Does ext a m act := by
  intro w
  rcases h w with ⟨c, o, hc, he⟩ | ⟨hc, o, e, he⟩
  · rw [he]
    refine ⟨⟨fun _ => hp.2 ⟨c, hc⟩, fun _ => rfl⟩, ?_, ?_, ?_⟩
    · intro n hnm
      have : n ≠ n0 := fun hh => hnm ((hm n).2 hh)
      simp [upd, this]
    · intro n hnm c' hc' _
      obtain rfl := (hm n).1 hnm
      rw [right_unique ext a n c' c hc' hc]
      simp [upd]
    · intro n hnm hno
      obtain rfl := (hm n).1 hnm
      exact absurd ⟨⟨c, hc⟩, fun hh => absurd hh hn⟩ hno
  · rw [he]
    refine ⟨⟨fun hh => (by cases hh), fun hh => ?_⟩, fun _ _ => rfl, ?_, fun _ _ _ => rfl⟩
    · obtain ⟨c, hc'⟩ := hp.1 hh
      exact absurd hc' (hc c)
    · intro n hnm c' hc'
      obtain rfl := (hm n).1 hnm
      exact absurd hc' (hc c')

theorem properties_does (ext : CliExt St V R) (a : Args) (ha : a.properties = true) :
    Does ext a .properties (properties ext a) := by
  apply does_one .properties (by simp) (by intro n; cases n <;> simp [modeOf]) Iff.rfl
  intro w
  unfold properties
  rcases load_cells ext a w with ⟨l, hl, h1⟩ | ⟨hl, e, h1⟩
  · rw [andThen, h1]
    simp only []
    by_cases hp : a.pot = none
    · right
      refine ⟨fun c hc => hc.2.1 hp, { w.obj with structures := some l }, .attributeError, ?_⟩
      simp only [andThen, hp, Option.isNone_none, if_true]
    · have hp' : a.pot.isNone = false := by
        cases hq : a.pot with
        | none => exact absurd hq hp
        | some p => rfl
      simp only [andThen, hp', Bool.false_eq_true, if_false]
      rcases eval_cases (ext.api a.pot a.infile) { w.obj with structures := some l } none with
        ⟨h2, -⟩ | ⟨l', vs, h2, h3, h4⟩ | ⟨l', x, h2, h3, h4⟩
      · cases h2
      · cases h2
        left
        refine ⟨.values l vs, { w.obj with structures := some l, last := some ⟨vs, l⟩ }, ⟨ha, hp, l, vs, hl, h3, rfl⟩, ?_⟩
        simp only [call, step, h4]
        rfl
      · cases h2
        right
        refine ⟨?_, { w.obj with structures := some l }, x, by simp only [call, step, h4]; rfl⟩
        rintro c ⟨-, -, l', vs, g1, g2, -⟩
        cases givenCells_unique hl g1
        exact not_both g2 h3
  · right
    refine ⟨?_, _, e, by rw [andThen, h1]⟩
    rintro c ⟨-, -, l, vs, g, -⟩
    exact hl l g

/-- One of the calculations that run in one call. -/
theorem job_does (ext : CliExt St V R) (a : Args) (k : Kind) (arg : Arg) (n0 : Name) (w : World St V R) :
    (∃ l u r o, GivenCell ext a l ∧ l.head? = some u ∧ (ext.api a.pot a.infile).jobInit k (some u) arg = .ok () ∧
      Gives (ext.api a.pot a.infile).pot ((ext.api a.pot a.infile).job k (some u) arg) (.ok r) ∧
      andThen (call (ext.api a.pot a.infile) (.load (readPoscars ext (poscarOf a))))
        (andThen (call (ext.api a.pot a.infile) (.job k none arg))
          (putSome n0 fun w => (jobResult w.obj k).map .result)) w = (⟨o, upd w.files n0 (.result r)⟩, .ok ())) ∨
    ((∀ l u r, GivenCell ext a l → l.head? = some u → (ext.api a.pot a.infile).jobInit k (some u) arg = .ok () →
      ¬ Gives (ext.api a.pot a.infile).pot ((ext.api a.pot a.infile).job k (some u) arg) (.ok r)) ∧ ∃ o e,
      andThen (call (ext.api a.pot a.infile) (.load (readPoscars ext (poscarOf a))))
        (andThen (call (ext.api a.pot a.infile) (.job k none arg))
          (putSome n0 fun w => (jobResult w.obj k).map .result)) w = (⟨o, w.files⟩, .error e)) := by
  rcases load_cell ext a w with ⟨l, hl, h1⟩ | ⟨hl, e, h1⟩
  · rw [andThen, h1]
    simp only []
    rcases call_job (ext.api a.pot a.infile) k arg { w.obj with structures := some l } w.files (l := l) rfl with
      ⟨u, r, o', h2, h3, h4, h5, h6, h7⟩ | ⟨h2, o', x, h3⟩
    · left
      refine ⟨l, u, r, o', hl, h2, h3, h4, ?_⟩
      rw [andThen, h7]
      simp only [putSome, h6, Option.map_some]
      rfl
    · right
      refine ⟨?_, o', x, by rw [andThen, h3]⟩
      intro l' u r g1 g2 g3
      cases givenCell_unique hl g1
      exact h2 u r g2 g3
  · right
    exact ⟨fun l u r g => absurd g (hl l), _, e, by rw [andThen, h1]⟩

theorem eos_does (ext : CliExt St V R) (a : Args) (ha : a.eos = true) : Does ext a .eos (eosMode ext a) := by
  apply does_one .eos (by simp) (by intro n; cases n <;> simp [modeOf]) Iff.rfl
  intro w
  have hnum : Arg.eos (7 / 10) 2 (3 / 100) true true = Arg.eos 0.7 2 0.03 true true := by norm_num
  unfold eosMode
  rcases job_does ext a .eos (.eos (7 / 10) 2 (3 / 100) true true) .eos w with
    ⟨l, u, r, o, h1, h2, h3, h4, h5⟩ | ⟨h1, o, e, h2⟩
  · left
    exact ⟨.result r, o, ⟨ha, l, u, r, h1, h2, rfl, hnum ▸ h3, hnum ▸ h4⟩, h5⟩
  · right
    refine ⟨?_, o, e, h2⟩
    rintro c ⟨-, l, u, r, g1, g2, -, g3, g4⟩
    rw [← hnum] at g3 g4
    exact h1 l u r g1 g2 g3 g4

theorem elastic_does (ext : CliExt St V R) (a : Args) (ha : a.elastic = true) :
    Does ext a .elastic (elasticMode ext a) := by
  apply does_one .elastic (by simp) (by intro n; cases n <;> simp [modeOf]) Iff.rfl
  intro w
  unfold elasticMode
  rcases job_does ext a .elastic .elastic .elastic w with
    ⟨l, u, r, o, h1, h2, h3, h4, h5⟩ | ⟨h1, o, e, h2⟩
  · left
    exact ⟨.result r, o, ⟨ha, l, u, r, h1, h2, rfl, h3, h4⟩, h5⟩
  · right
    refine ⟨?_, o, e, h2⟩
    rintro c ⟨-, l, u, r, g1, g2, -, g3, g4⟩
    exact h1 l u r g1 g2 g3 g4

theorem andThen_assoc (x y z : Act St V R) : andThen (andThen x y) z = andThen x (andThen y z) := by
  funext w
  unfold andThen
  rcases x w with ⟨w', e | u⟩ <;> rfl

theorem putAll (o : Calc St V R Arg) : ∀ (l : List St) (k : ℕ) (fs : Name → Option (Content St V R)),
    (l.zipIdx k).foldl (fun (r : World St V R × Except Err Unit) p => put (.poscar p.2) (.structure_ p.1) r.1) (⟨o, fs⟩, .ok ()) =
      (⟨o, fun n => match n with
        | .poscar i => if k ≤ i ∧ i < k + l.length then (l[i - k]?).map .structure_ else fs (.poscar i)
        | n => fs n⟩, .ok ())
  | [], k, fs => by
    simp only [List.zipIdx_nil, List.foldl_nil, Prod.mk.injEq, World.mk.injEq, true_and, and_true]
    funext n
    cases n <;> simp only [List.length_nil, Nat.add_zero]
    rw [if_neg (by omega)]
  | s :: l, k, fs => by
    rw [List.zipIdx_cons, List.foldl_cons]
    refine Eq.trans (putAll o l (k + 1) (fun n' => if n' = .poscar k then some (.structure_ s) else fs n')) ?_
    simp only [Prod.mk.injEq, World.mk.injEq, true_and, and_true]
    funext n
    cases n with
    | poscar i =>
      simp only [List.length_cons, Name.poscar.injEq]
      by_cases h1 : i = k
      · subst h1
        rw [if_neg (by omega), if_pos rfl, if_pos (by omega)]
        simp
      · by_cases h2 : k + 1 ≤ i ∧ i < k + 1 + l.length
        · rw [if_pos h2, if_pos (by omega)]
          have : i - k = (i - (k + 1)) + 1 := by omega
          rw [this, List.getElem?_cons_succ]
        · rw [if_neg h2, if_neg h1, if_neg (by omega)]
    | _ => simp

theorem savePoscars_many (o : Calc St V R Arg) (fs : Name → Option (Content St V R)) {l : List St} (h : o.structures = some l)
    (hl : l.length ≠ 1) : savePoscars ⟨o, fs⟩ =
      (⟨o, fun n => match n with
        | .poscar i => if 0 ≤ i ∧ i < 0 + l.length then (l[i - 0]?).map .structure_ else fs (.poscar i)
        | n => fs n⟩, .ok ()) := by
  rw [← putAll]
  unfold savePoscars
  simp only [h]
  cases l with
  | nil => rfl
  | cons s t =>
    cases t with
    | nil => exact absurd rfl hl
    | cons s' t => rfl

theorem geometry_does (ext : CliExt St V R) (a : Args) (ha : a.geometry = true) :
    Does ext a .geometry (geometry ext a) := by
  intro w
  have hq : ∀ n, modeOf n = .geometry → n ≠ .qha := by intro n hn hh; subst hh; cases hn
  unfold geometry
  rcases load_cell ext a w with ⟨l, hl, h1⟩ | ⟨hl, e, h1⟩
  · rw [andThen, h1]
    simp only []
    rw [← andThen_assoc]
    rcases call_opt (ext.api a.pot a.infile) (optOptions a) (.minimize a.method a.gtol) { w.obj with structures := some l } w.files
      (l := l) rfl with ⟨u, l', o', h2, ⟨v, h3⟩, h4, h5⟩ | ⟨h2, o', x, h3⟩
    · unfold optOptions at h5
      rw [andThen, h5]
      simp only []
      rcases h3 with ⟨h3, rfl⟩ | ⟨h3, hE⟩
      · simp only [savePoscars, h4, put]
        have hr : Right ext a .relaxed (.structure_ v) := ⟨ha, l, u, v, hl, h2, rfl, .inl h3⟩
        have hnp : ∀ i c, ¬ Right ext a (.poscar i) c := by
          rintro i c ⟨-, l2, u2, v2, g1, g2, -, g3, -⟩
          cases givenCell_unique hl g1
          rw [h2] at g2
          cases g2
          cases gives_unique h3.1 g3
        refine ⟨⟨fun _ => .inl ⟨_, hr⟩, fun _ => trivial⟩, ?_, ?_, ?_⟩
        · intro n hn
          rw [if_neg (by rintro rfl; exact hn rfl)]
        · intro n hn c hc _
          cases n <;> simp [modeOf] at hn
          · rw [right_unique ext a _ _ _ hc hr, if_pos rfl]
          · exact absurd hc (hnp _ _)
        · intro n hn hno
          cases n <;> simp [modeOf] at hn
          · exact absurd ⟨⟨_, hr⟩, fun hh => by cases hh⟩ hno
          · rw [if_neg (by simp)]
      · obtain rfl : l = l' := hE.symm
        by_cases hlen : ∃ s, l = [s]
        · obtain ⟨s, rfl⟩ := hlen
          cases h2
          simp only [savePoscars, h4, put]
          have hr : Right ext a .relaxed (.structure_ u) := ⟨ha, [u], u, u, hl, rfl, rfl, .inr ⟨h3, rfl, rfl⟩⟩
          have hnp : ∀ i c, ¬ Right ext a (.poscar i) c := by
            rintro i c ⟨-, l2, u2, v2, g1, g2, -, g3, g4, -⟩
            cases givenCell_unique hl g1
            exact g4 rfl
          refine ⟨⟨fun _ => .inl ⟨_, hr⟩, fun _ => trivial⟩, ?_, ?_, ?_⟩
          · intro n hn
            rw [if_neg (by rintro rfl; exact hn rfl)]
          · intro n hn c hc _
            cases n <;> simp [modeOf] at hn
            · rw [right_unique ext a _ _ _ hc hr, if_pos rfl]
            · exact absurd hc (hnp _ _)
          · intro n hn hno
            cases n <;> simp [modeOf] at hn
            · exact absurd ⟨⟨_, hr⟩, fun hh => by cases hh⟩ hno
            · rw [if_neg (by simp)]
        · have hlen1 : l.length ≠ 1 := fun hh => hlen (List.length_eq_one_iff.1 hh)
          have hrel : ∀ c, ¬ Right ext a .relaxed c := by
            rintro c ⟨-, l2, u2, v2, g1, g2, -, g3⟩
            cases givenCell_unique hl g1
            rw [h2] at g2
            cases g2
            rcases g3 with g3 | ⟨-, g3, -⟩
            · cases gives_unique h3 g3.1
            · exact hlen ⟨_, g3⟩
          have hr : ∀ i c, Right ext a (.poscar i) c ↔ ∃ s, l[i]? = some s ∧ c = .structure_ s := by
            intro i c
            constructor
            · rintro ⟨-, l2, u2, v2, g1, g2, g3, -, -, g4⟩
              cases givenCell_unique hl g1
              exact ⟨v2, g4, g3⟩
            · rintro ⟨s, g1, g2⟩
              exact ⟨ha, l, u, s, hl, h2, g2, h3, hlen1, g1⟩
          have h0 : l[0]? = some u := by rw [← h2]; cases l <;> rfl
          rw [savePoscars_many o' w.files h4 hlen1]
          refine ⟨⟨fun _ => .inr ⟨_, (hr 0 _).2 ⟨u, h0, rfl⟩⟩, fun _ => rfl⟩, ?_, ?_, ?_⟩
          · intro n hn
            cases n <;> simp [modeOf] at hn <;> rfl
          · intro n hn c hc _
            cases n <;> simp [modeOf] at hn
            · exact absurd hc (hrel c)
            · rename_i i _
              obtain ⟨s, g1, rfl⟩ := (hr i c).1 hc
              have : i < l.length := (List.getElem?_eq_some_iff.1 g1).1
              simp only [Nat.sub_zero]
              rw [if_pos (by omega), g1]
              rfl
          · intro n hn hno
            cases n <;> simp [modeOf] at hn
            · rfl
            · rename_i i
              have : ¬ i < l.length := by
                intro hi
                exact hno ⟨⟨_, (hr i _).2 ⟨_, List.getElem?_eq_getElem hi, rfl⟩⟩, fun hh => by cases hh⟩
              simp only []
              rw [if_neg (by omega)]
    · unfold optOptions at h3
      rw [andThen, h3]
      have hrel : ∀ c, ¬ Right ext a .relaxed c := by
        rintro c ⟨-, l2, u2, v2, g1, g2, -, g3⟩
        cases givenCell_unique hl g1
        rcases g3 with g3 | ⟨g3, -⟩
        · exact (h2 u2 g2).1 _ g3
        · exact (h2 u2 g2).2 g3
      have hpos : ∀ i c, ¬ Right ext a (.poscar i) c := by
        rintro i c ⟨-, l2, u2, v2, g1, g2, -, g3, -⟩
        cases givenCell_unique hl g1
        exact (h2 u2 g2).2 g3
      refine ⟨⟨fun hh => (by cases hh), ?_⟩, fun _ _ => rfl, ?_, fun _ _ _ => rfl⟩
      · rintro (⟨c, hc⟩ | ⟨c, hc⟩)
        · exact absurd hc (hrel c)
        · exact absurd hc (hpos _ c)
      · intro n hn c hc
        cases n <;> simp [modeOf] at hn
        · exact absurd hc (hrel c)
        · exact absurd hc (hpos _ c)
  · rw [andThen, h1]
    have hrel : ∀ c, ¬ Right ext a .relaxed c := by
      rintro c ⟨-, l2, u2, v2, g1, -⟩
      exact hl _ g1
    have hpos : ∀ i c, ¬ Right ext a (.poscar i) c := by
      rintro i c ⟨-, l2, u2, v2, g1, -⟩
      exact hl _ g1
    refine ⟨⟨fun hh => (by cases hh), ?_⟩, fun _ _ => rfl, ?_, fun _ _ _ => rfl⟩
    · rintro (⟨c, hc⟩ | ⟨c, hc⟩)
      · exact absurd hc (hrel c)
      · exact absurd hc (hpos _ c)
    · intro n hn c hc
      cases n <;> simp [modeOf] at hn
      · exact absurd hc (hrel c)
      · exact absurd hc (hpos _ c)

theorem runFc_cases (ext : CliExt St V R) (a : Args) (o : Calc St V R Arg) (fs : Name → Option (Content St V R))
    {l : List St} (hl : o.structures = some l) :
    (∃ v r o', l.head? = some v ∧ ext.fcInit (some v) (fcArg a) = .ok () ∧
      Gives (ext.api a.pot a.infile).pot (ext.fc (some v) (fcArg a)) (.ok r) ∧
      runFc ext a ⟨o, fs⟩ = (⟨o', upd fs .fc (.result r)⟩, .ok ())) ∨
    ((∀ v r, l.head? = some v → ext.fcInit (some v) (fcArg a) = .ok () →
      ¬ Gives (ext.api a.pot a.infile).pot (ext.fc (some v) (fcArg a)) (.ok r)) ∧
      ∃ o' e, runFc ext a ⟨o, fs⟩ = (⟨o', fs⟩, .error e)) := by
  unfold runFc first
  simp only [hl]
  cases l with
  | nil => right; exact ⟨fun v r hv => (by cases hv), o, .indexError, rfl⟩
  | cons v l =>
    simp only [List.head?_cons]
    cases hi : ext.fcInit (some v) (fcArg a) with
    | error e =>
      right
      refine ⟨fun v' r hv hok => ?_, { o with structures := some (v :: l), unitcell := some v }, e, rfl⟩
      cases hv
      rw [hi] at hok
      cases hok
    | ok x =>
      simp only []
      have hg := runProg_gives (ext.api a.pot a.infile).pot (ext.fc (some v) (fcArg a)) o.last
      generalize hq : runProg (ext.api a.pot a.infile).pot o.last (ext.fc (some v) (fcArg a)) = q at hg ⊢
      obtain ⟨last', r⟩ := q
      cases r with
      | error e =>
        right
        refine ⟨fun v' r hv hok hg' => ?_, { o with structures := some (v :: l), unitcell := some v, last := last' }, e, rfl⟩
        cases hv
        cases gives_unique hg hg'
      | ok r =>
        left
        exact ⟨v, r, { o with structures := some (v :: l), unitcell := some v, last := last' }, rfl, hi, hg, rfl⟩

theorem fc_does (ext : CliExt St V R) (a : Args) (ha : a.forceConstants = true) :
    Does ext a .forceConstants (fcMode ext a) := by
  apply does_one .fc (by simp) (by intro n; cases n <;> simp [modeOf]) Iff.rfl
  intro w
  have hnum : Arg.minimize "BFGS" (1 / 10000) = Arg.minimize "BFGS" 0.0001 := by norm_num
  unfold fcMode
  rcases load_cell ext a w with ⟨l, hl, h1⟩ | ⟨hl, e, h1⟩
  · rw [andThen, h1]
    simp only []
    by_cases hgeo : a.geometry = true
    · have hwhen : when a.geometry (relaxFc ext a) = relaxFc ext a := by funext w; simp [when, hgeo]
      rw [hwhen]
      unfold relaxFc
      rw [hnum]
      rcases call_opt (ext.api a.pot a.infile) (.relax true false false true 0) (.minimize "BFGS" 0.0001)
        { w.obj with structures := some l } w.files (l := l) rfl with ⟨u, l', o', h2, ⟨v, h3⟩, h4, h5⟩ | ⟨h2, o', x, h3⟩
      · rw [andThen, h5]
        simp only []
        have hcell : ∀ v', l'.head? = some v' →
            (OptimizedTo (ext.api a.pot a.infile) (.relax true false false true 0) (.minimize "BFGS" 0.0001) u v' ∨
              NothingToOptimize (ext.api a.pot a.infile) (.relax true false false true 0) u ∧ v' = u) := by
          intro v' hv'
          rcases h3 with ⟨h3, rfl⟩ | ⟨h3, rfl⟩
          · cases hv'
            exact .inl h3
          · rw [h2] at hv'
            cases hv'
            exact .inr ⟨h3, rfl⟩
        have hcell' : ∀ v', (OptimizedTo (ext.api a.pot a.infile) (.relax true false false true 0) (.minimize "BFGS" 0.0001) u v' ∨
              NothingToOptimize (ext.api a.pot a.infile) (.relax true false false true 0) u ∧ v' = u) → l'.head? = some v' := by
          intro v' hv'
          rcases h3 with ⟨h3, rfl⟩ | ⟨h3, rfl⟩
          · obtain ⟨g1, o1, g2, rfl⟩ := h3
            rcases hv' with ⟨k1, o2, k2, rfl⟩ | ⟨k1, rfl⟩
            · cases gives_unique g2 k2
              rfl
            · cases gives_unique g1 k1
          · rcases hv' with ⟨k1, o2, k2, rfl⟩ | ⟨k1, rfl⟩
            · cases gives_unique h3 k1
            · exact h2
        rcases runFc_cases ext a o' w.files h4 with ⟨v', r, o2, g1, g2, g3, g4⟩ | ⟨g1, o2, e, g2⟩
        · left
          exact ⟨.result r, o2, ⟨ha, l, u, v', r, hl, h2, rfl, .inr ⟨hgeo, hcell v' g1⟩, g2, g3⟩, g4⟩
        · right
          refine ⟨?_, o2, e, g2⟩
          rintro c ⟨-, l2, u2, v2, r, k1, k2, -, k3, k4, k5⟩
          cases givenCell_unique hl k1
          rw [h2] at k2
          cases k2
          rcases k3 with ⟨k3, -⟩ | ⟨-, k3⟩
          · rw [hgeo] at k3
            cases k3
          · exact g1 v2 r (hcell' v2 k3) k4 k5
      · right
        refine ⟨?_, o', x, by rw [andThen, h3]⟩
        rintro c ⟨-, l2, u2, v2, r, k1, k2, -, k3, -⟩
        cases givenCell_unique hl k1
        rcases k3 with ⟨k3, -⟩ | ⟨-, k3 | ⟨k3, -⟩⟩
        · rw [hgeo] at k3
          cases k3
        · exact (h2 u2 k2).1 _ k3
        · exact (h2 u2 k2).2 k3
    · have hwhen : ∀ w : World St V R, when a.geometry (relaxFc ext a) w = (w, .ok ()) := by intro w; simp [when, hgeo]
      rw [andThen, hwhen]
      simp only []
      have hgeo' : a.geometry = false := by simpa using hgeo
      rcases runFc_cases ext a { w.obj with structures := some l } w.files (l := l) rfl with
        ⟨v', r, o2, g1, g2, g3, g4⟩ | ⟨g1, o2, e, g2⟩
      · left
        exact ⟨.result r, o2, ⟨ha, l, v', v', r, hl, g1, rfl, .inl ⟨hgeo', rfl⟩, g2, g3⟩, g4⟩
      · right
        refine ⟨?_, o2, e, g2⟩
        rintro c ⟨-, l2, u2, v2, r, k1, k2, -, k3, k4, k5⟩
        cases givenCell_unique hl k1
        rcases k3 with ⟨-, rfl⟩ | ⟨k3, -⟩
        · exact g1 v2 r k2 k4 k5
        · exact absurd k3 hgeo
  · right
    refine ⟨?_, _, e, by rw [andThen, h1]⟩
    rintro c ⟨-, l2, u2, v2, r, k1, -⟩
    exact hl _ k1

theorem phonon_does (ext : CliExt St V R) (a : Args) (ha : a.phonon = true) : Does ext a .phonon (phononMode ext a) := by
  have hnum : Arg.qha a.supercell a.disp a.mesh a.tmin a.tmax a.tstep (8 / 10) (12 / 10) (2 / 100) =
      Arg.qha a.supercell a.disp a.mesh a.tmin a.tmax a.tstep 0.8 1.2 0.02 := by norm_num
  intro w
  have fail : ∀ o e, phononMode ext a w = (⟨o, w.files⟩, .error e) → (∀ c, ¬ Right ext a .phonon c) →
      ((phononMode ext a w).2 = .ok () ↔ CanRun ext a .phonon) ∧
      (∀ n, modeOf n ≠ .phonon → (phononMode ext a w).1.files n = w.files n) ∧
      (∀ n, modeOf n = .phonon → ∀ c, Right ext a n c → (n = .qha → ∃ c', Right ext a .phonon c') →
        (phononMode ext a w).1.files n = some c) ∧
      (∀ n, modeOf n = .phonon → ¬ ((∃ c, Right ext a n c) ∧ (n = .qha → ∃ c', Right ext a .phonon c')) →
        (phononMode ext a w).1.files n = w.files n) := by
    intro o e he hno
    rw [he]
    refine ⟨⟨fun hh => (by cases hh), ?_⟩, fun _ _ => rfl, ?_, fun _ _ _ => rfl⟩
    · rintro ⟨⟨c, hc⟩, -⟩
      exact absurd hc (hno c)
    · intro n hn c hc hq
      cases n <;> simp [modeOf] at hn
      · exact absurd hc (hno c)
      · obtain ⟨c', hc'⟩ := hq rfl
        exact absurd hc' (hno c')
  rcases load_cell ext a w with ⟨l, hl, h1⟩ | ⟨hl, e, h1⟩
  · rcases phononInit_cases (ext.api a.pot a.infile) { w.obj with structures := some l } none (.cell a.supercell) with
      ⟨x, hn, he⟩ | ⟨u, x, hc, hi, he⟩ | ⟨u, hc, hi, he⟩
    · apply fail { w.obj with structures := some l } x
      · unfold phononMode
        rw [andThen, h1]
        simp only [andThen, call, step, he]
        rfl
      · rintro c ⟨-, l2, u2, r, k1, k2, -⟩
        cases givenCell_unique hl k1
        exact hn (some u2) ⟨u2, k2, rfl⟩
    · obtain ⟨y, hy, rfl⟩ : ∃ x, l.head? = some x ∧ u = some x := hc
      apply fail { w.obj with structures := some l, unitcell := some y } x
      · unfold phononMode
        rw [andThen, h1]
        simp only [andThen, call, step, he]
        rfl
      · rintro c ⟨-, l2, u2, r, k1, k2, -, k3, -⟩
        cases givenCell_unique hl k1
        rw [hy] at k2
        cases k2
        rw [hi] at k3
        cases k3
    · obtain ⟨y, hy, rfl⟩ : ∃ x, l.head? = some x ∧ u = some x := hc
      rcases phonon_cases (ext.api a.pot a.infile)
        { w.obj with structures := some l, unitcell := some y, phonon := some (some y, .cell a.supercell, none) }
        (.phonon a.disp a.mesh a.tmin a.tmax a.tstep a.pdos) with ⟨g1, -⟩ | ⟨u, a0, old, x, g1, g2, g3⟩ | ⟨u, a0, old, r, g1, g2, g3⟩
      · cases g1
      · cases g1
        apply fail { w.obj with
          structures := some l, unitcell := some y, phonon := some (some y, .cell a.supercell, none),
          last := (runProg (ext.api a.pot a.infile).pot w.obj.last ((ext.api a.pot a.infile).phonon (some y) (.cell a.supercell)
            (.phonon a.disp a.mesh a.tmin a.tmax a.tstep a.pdos))).1 } x
        · unfold phononMode
          rw [andThen, h1]
          simp only [andThen, call, step, he]
          simp only [Except.map]
          erw [g3]
        · rintro c ⟨-, l2, u2, r, k1, k2, -, -, k3⟩
          cases givenCell_unique hl k1
          rw [hy] at k2
          cases k2
          cases gives_unique g2 k3
      · cases g1
        have hr : Right ext a .phonon (.result r) := ⟨ha, l, y, r, hl, hy, rfl, hi, g2⟩
        have hmode : ∃ o : Calc St V R Arg, o.structures = some l ∧ phononMode ext a w =
            andThen (call (ext.api a.pot a.infile) (.job .qha none
              (.qha a.supercell a.disp a.mesh a.tmin a.tmax a.tstep (8 / 10) (12 / 10) (2 / 100))))
            (putSome .qha fun w => (jobResult w.obj .qha).map .result) ⟨o, upd w.files .phonon (.result r)⟩ := by
          refine ⟨{ w.obj with
            structures := some l, unitcell := some y, phonon := some (some y, .cell a.supercell, some r),
            last := (runProg (ext.api a.pot a.infile).pot w.obj.last ((ext.api a.pot a.infile).phonon (some y) (.cell a.supercell)
              (.phonon a.disp a.mesh a.tmin a.tmax a.tstep a.pdos))).1 }, rfl, ?_⟩
          unfold phononMode
          rw [andThen, h1]
          simp only []
          have e1 : call (ext.api a.pot a.infile) (.phononInit none (.cell a.supercell)) ⟨{ w.obj with structures := some l }, w.files⟩ =
            (⟨{ w.obj with structures := some l, unitcell := some y, phonon := some (some y, .cell a.supercell, none) }, w.files⟩,
              .ok ()) := by
            simp only [call, step, he]
            rfl
          have e2 : call (ext.api a.pot a.infile) (.phonon (.phonon a.disp a.mesh a.tmin a.tmax a.tstep a.pdos))
            ⟨{ w.obj with structures := some l, unitcell := some y, phonon := some (some y, .cell a.supercell, none) }, w.files⟩ =
            (⟨{ w.obj with
              structures := some l, unitcell := some y, phonon := some (some y, .cell a.supercell, some r),
              last := (runProg (ext.api a.pot a.infile).pot w.obj.last ((ext.api a.pot a.infile).phonon (some y)
                (.cell a.supercell) (.phonon a.disp a.mesh a.tmin a.tmax a.tstep a.pdos))).1 }, w.files⟩, .ok ()) := by
            simp only [call, step, g3]
            rfl
          rw [andThen, e1]
          simp only []
          rw [andThen, e2]
          rfl
        obtain ⟨o, ho, hmode⟩ := hmode
        rw [hmode, hnum]
        rcases call_job (ext.api a.pot a.infile) .qha (.qha a.supercell a.disp a.mesh a.tmin a.tmax a.tstep 0.8 1.2 0.02) o
          (upd w.files .phonon (.result r)) ho with ⟨u, r2, o', q1, q2, q3, q4, q5, q6⟩ | ⟨q1, o', x, q2⟩
        · rw [andThen, q6]
          simp only [putSome, q5, Option.map_some]
          have hr2 : Right ext a .qha (.result r2) := ⟨ha, l, u, r2, hl, q1, rfl, q2, q3⟩
          refine ⟨⟨fun _ => ⟨⟨_, hr⟩, ⟨_, hr2⟩⟩, fun _ => rfl⟩, ?_, ?_, ?_⟩
          · intro n hn
            cases n <;> simp [modeOf] at hn <;> rfl
          · intro n hn c hc _
            cases n <;> simp [modeOf] at hn
            · rw [right_unique ext a _ _ _ hc hr]
              rfl
            · rw [right_unique ext a _ _ _ hc hr2]
              rfl
          · intro n hn hno
            cases n <;> simp [modeOf] at hn
            · exact absurd ⟨⟨_, hr⟩, fun _ => ⟨_, hr⟩⟩ hno
            · exact absurd ⟨⟨_, hr2⟩, fun _ => ⟨_, hr⟩⟩ hno
        · rw [andThen, q2]
          have hr2 : ∀ c, ¬ Right ext a .qha c := by
            rintro c ⟨-, l2, u2, r2, k1, k2, -, k3, k4⟩
            cases givenCell_unique hl k1
            exact q1 u2 r2 k2 k3 k4
          refine ⟨⟨fun hh => (by cases hh), ?_⟩, ?_, ?_, ?_⟩
          · rintro ⟨-, c, hc⟩
            exact absurd hc (hr2 c)
          · intro n hn
            cases n <;> simp [modeOf] at hn <;> rfl
          · intro n hn c hc _
            cases n <;> simp [modeOf] at hn
            · rw [right_unique ext a _ _ _ hc hr]
              rfl
            · exact absurd hc (hr2 c)
          · intro n hn hno
            cases n <;> simp [modeOf] at hn
            · exact absurd ⟨⟨_, hr⟩, fun _ => ⟨_, hr⟩⟩ hno
            · rfl
  · apply fail w.obj e
    · unfold phononMode
      rw [andThen, h1]
    · rintro c ⟨-, l2, u2, r, k1, -⟩
      exact hl _ k1

theorem features_does (ext : CliExt St V R) (a : Args) (ha : a.features = true ∨ a.precision = true) :
    Does ext a .features (featuresMode ext a) := by
  intro w
  have fail : ∀ o e, featuresMode ext a w = (⟨o, w.files⟩, .error e) → (∀ c, ¬ Right ext a .features c) →
      (∀ c, ¬ Right ext a .precision c) →
      ((featuresMode ext a w).2 = .ok () ↔ CanRun ext a .features) ∧
      (∀ n, modeOf n ≠ .features → (featuresMode ext a w).1.files n = w.files n) ∧
      (∀ n, modeOf n = .features → ∀ c, Right ext a n c → (n = .qha → ∃ c', Right ext a .phonon c') →
        (featuresMode ext a w).1.files n = some c) ∧
      (∀ n, modeOf n = .features → ¬ ((∃ c, Right ext a n c) ∧ (n = .qha → ∃ c', Right ext a .phonon c')) →
        (featuresMode ext a w).1.files n = w.files n) := by
    intro o e he hno hno2
    rw [he]
    refine ⟨⟨fun hh => (by cases hh), ?_⟩, fun _ _ => rfl, ?_, fun _ _ _ => rfl⟩
    · rintro ⟨h1, h2⟩
      rcases ha with ha | ha
      · obtain ⟨c, hc⟩ := h1 ha
        exact absurd hc (hno c)
      · obtain ⟨c, hc⟩ := h2 ha
        exact absurd hc (hno2 c)
    · intro n hn c hc hq
      cases n <;> simp [modeOf] at hn
      · exact absurd hc (hno c)
      · exact absurd hc (hno2 c)
  rcases load_cells ext a w with ⟨l, hl, h1⟩ | ⟨hl, e, h1⟩
  · cases hf : (ext.api a.pot a.infile).feat l with
    | error e =>
      apply fail { w.obj with structures := some l } e
      · unfold featuresMode
        rw [andThen, h1]
        simp only [andThen, call, step, CalcApi.features, setStructs, hf]
        rfl
      · rintro c ⟨-, l2, r, k1, k2, -⟩
        cases givenCells_unique hl k1
        rw [hf] at k2
        cases k2
      · rintro c ⟨-, l2, r, k1, k2, -⟩
        cases givenCells_unique hl k1
        rw [hf] at k2
        cases k2
    | ok r =>
      have e1 : call (ext.api a.pot a.infile) (.features none) ⟨{ w.obj with structures := some l }, w.files⟩ =
          (⟨{ w.obj with structures := some l, features := some r }, w.files⟩, .ok ()) := by
        simp only [call, step, CalcApi.features, setStructs, hf]
        rfl
      have hr : a.features = true → Right ext a .features (.result r) := fun h => ⟨h, l, r, hl, hf, rfl⟩
      have hr2 : a.precision = true → Right ext a .precision (.result (ext.precision r)) := fun h => ⟨h, l, r, hl, hf, rfl⟩
      have hrun : featuresMode ext a w = (⟨{ w.obj with structures := some l, features := some r },
          fun n => if n = .precision ∧ a.precision = true then some (.result (ext.precision r))
            else if n = .features ∧ a.features = true then some (.result r) else w.files n⟩, .ok ()) := by
        unfold featuresMode
        rw [andThen, h1]
        simp only []
        rw [andThen, e1]
        cases h3 : a.features <;> cases h4 : a.precision <;>
          simp [andThen, when, putSome, put]
      rw [hrun]
      refine ⟨⟨fun _ => ⟨fun h => ⟨_, hr h⟩, fun h => ⟨_, hr2 h⟩⟩, fun _ => rfl⟩, ?_, ?_, ?_⟩
      · intro n hn
        cases n <;> simp [modeOf] at hn <;> simp
      · intro n hn c hc _
        cases n <;> simp [modeOf] at hn
        · have h := hc.1
          rw [right_unique ext a _ _ _ hc (hr h)]
          simp [h]
        · have h := hc.1
          rw [right_unique ext a _ _ _ hc (hr2 h)]
          simp [h]
      · intro n hn hno
        cases n <;> simp [modeOf] at hn
        · by_cases h : a.features = true
          · exact absurd ⟨⟨_, hr h⟩, fun hh => by cases hh⟩ hno
          · simp [h]
        · by_cases h : a.precision = true
          · exact absurd ⟨⟨_, hr2 h⟩, fun hh => by cases hh⟩ hno
          · simp [h]
  · apply fail w.obj e
    · unfold featuresMode
      rw [andThen, h1]
    · rintro c ⟨-, l2, r, k1, -⟩
      exact hl _ k1
    · rintro c ⟨-, l2, r, k1, -⟩
      exact hl _ k1

/-! ## All calculations -/

/-- What calculations from a rank on do. -/
def DoesFrom (ext : CliExt St V R) (a : Args) (k : ℕ) (act : Act St V R) : Prop :=
  ∀ w, ((act w).2 = .ok () ↔ ∀ m, Asked a m → k ≤ rank m → CanRun ext a m) ∧
    (∀ n, rank (modeOf n) < k → (act w).1.files n = w.files n) ∧
    (∀ n, k ≤ rank (modeOf n) → (∀ m, Asked a m → k ≤ rank m → rank m < rank (modeOf n) → CanRun ext a m) →
      ∀ c, Right ext a n c → (n = .qha → ∃ c', Right ext a .phonon c') → (act w).1.files n = some c) ∧
    (∀ n, k ≤ rank (modeOf n) → ¬ ((∀ m, Asked a m → k ≤ rank m → rank m < rank (modeOf n) → CanRun ext a m) ∧
      (∃ c, Right ext a n c) ∧ (n = .qha → ∃ c', Right ext a .phonon c')) → (act w).1.files n = w.files n)

theorem rank_inj {m m' : Mode} (h : rank m = rank m') : m = m' := by
  cases m <;> cases m' <;> first | rfl | cases h

theorem asked_of_right {ext : CliExt St V R} {a : Args} {n : Name} {c : Content St V R} (h : Right ext a n c) :
    Asked a (modeOf n) := by
  cases n <;> first | exact h.1 | exact .inl h.1 | exact .inr h.1

/-- One calculation more at the front. -/
theorem does_cons {ext : CliExt St V R} {a : Args} {m : Mode} {b : Bool} {act rest : Act St V R} (hb : b = true ↔ Asked a m)
    (h1 : Asked a m → Does ext a m act) (h2 : DoesFrom ext a (rank m + 1) rest) :
    DoesFrom ext a (rank m) (andThen (when b act) rest) := by
  intro w
  by_cases ham : Asked a m
  · have hwhen : when b act = act := by funext w; simp [when, hb.2 ham]
    rw [hwhen]
    obtain ⟨d1, d2, d3, d4⟩ := h1 ham w
    rcases hact : act w with ⟨w', r⟩
    rw [hact] at d1 d2 d3 d4
    simp only at d1 d2 d3 d4
    cases r with
    | error e =>
      have hno : ¬ CanRun ext a m := fun h => by cases d1.2 h
      have he : andThen act rest w = (w', .error e) := by rw [andThen, hact]
      rw [he]
      refine ⟨⟨fun hh => (by cases hh), fun hh => absurd (hh m ham (Nat.le_refl _)) hno⟩, ?_, ?_, ?_⟩
      · intro n hn
        exact d2 n (by rintro rfl; exact Nat.lt_irrefl _ hn)
      · intro n hn hall c hc hq
        by_cases hnm : modeOf n = m
        · exact d3 n hnm c hc hq
        · exact absurd (hall m ham (Nat.le_refl _) (Nat.lt_of_le_of_ne hn fun hh => hnm (rank_inj hh.symm))) hno
      · intro n hn hneg
        by_cases hnm : modeOf n = m
        · apply d4 n hnm
          rintro ⟨k1, k2⟩
          apply hneg
          refine ⟨?_, k1, k2⟩
          intro m' _ g1 g2
          rw [hnm] at g2
          omega
        · exact d2 n hnm
    | ok u =>
      have hyes : CanRun ext a m := d1.1 rfl
      have he : andThen act rest w = rest w' := by rw [andThen, hact]
      rw [he]
      obtain ⟨f1, f2, f3, f4⟩ := h2 w'
      refine ⟨?_, ?_, ?_, ?_⟩
      · rw [f1]
        constructor
        · intro hh m' g1 g2
          by_cases hmm : m' = m
          · rw [hmm]
            exact hyes
          · exact hh m' g1 (Nat.lt_of_le_of_ne g2 fun k => hmm (rank_inj k.symm))
        · intro hh m' g1 g2
          exact hh m' g1 (by omega)
      · intro n hn
        rw [f2 n (by omega)]
        exact d2 n (by rintro rfl; exact Nat.lt_irrefl _ hn)
      · intro n hn hall c hc hq
        by_cases hnm : modeOf n = m
        · rw [f2 n (by rw [hnm]; omega)]
          exact d3 n hnm c hc hq
        · exact f3 n (Nat.lt_of_le_of_ne hn fun hh => hnm (rank_inj hh.symm))
            (fun m' g1 g2 g3 => hall m' g1 (by omega) g3) c hc hq
      · intro n hn hneg
        by_cases hnm : modeOf n = m
        · rw [f2 n (by rw [hnm]; omega)]
          apply d4 n hnm
          rintro ⟨k1, k2⟩
          apply hneg
          refine ⟨?_, k1, k2⟩
          intro m' _ g1 g2
          rw [hnm] at g2
          omega
        · rw [f4 n (Nat.lt_of_le_of_ne hn fun hh => hnm (rank_inj hh.symm)), d2 n hnm]
          rintro ⟨k1, k2⟩
          apply hneg
          refine ⟨?_, k2⟩
          intro m' g1 g2 g3
          by_cases hmm : m' = m
          · rw [hmm]
            exact hyes
          · exact k1 m' g1 (Nat.lt_of_le_of_ne g2 fun k => hmm (rank_inj k.symm)) g3
  · have hwhen : andThen (when b act) rest w = rest w := by
      have : b = false := by simpa using fun h => ham (hb.1 h)
      simp [andThen, when, this]
    rw [hwhen]
    obtain ⟨f1, f2, f3, f4⟩ := h2 w
    refine ⟨?_, ?_, ?_, ?_⟩
    · rw [f1]
      constructor
      · intro hh m' g1 g2
        exact hh m' g1 (Nat.lt_of_le_of_ne g2 fun k => ham (by rw [rank_inj k]; exact g1))
      · intro hh m' g1 g2
        exact hh m' g1 (by omega)
    · intro n hn
      exact f2 n (by omega)
    · intro n hn hall c hc hq
      by_cases hnm : modeOf n = m
      · exact absurd (hnm ▸ asked_of_right hc) ham
      · exact f3 n (Nat.lt_of_le_of_ne hn fun hh => hnm (rank_inj hh.symm))
          (fun m' g1 g2 g3 => hall m' g1 (by omega) g3) c hc hq
    · intro n hn hneg
      by_cases hnm : modeOf n = m
      · exact f2 n (by rw [hnm]; omega)
      · apply f4 n (Nat.lt_of_le_of_ne hn fun hh => hnm (rank_inj hh.symm))
        rintro ⟨k1, k2⟩
        apply hneg
        refine ⟨?_, k2⟩
        intro m' g1 g2 g3
        exact k1 m' g1 (Nat.lt_of_le_of_ne g2 fun k => ham (by rw [rank_inj k]; exact g1)) g3

theorem does_nil (ext : CliExt St V R) (a : Args) : DoesFrom ext a 7 fun w => (w, .ok ()) := by
  intro w
  have : ∀ m : Mode, rank m < 7 := by intro m; cases m <;> decide
  refine ⟨⟨fun _ m _ h => ?_, fun _ => rfl⟩, fun _ _ => rfl, fun n h => ?_, fun _ _ _ => rfl⟩
  · exact absurd (this m) (by omega)
  · exact absurd (this (modeOf n)) (by omega)

theorem andThen_nil (x : Act St V R) : andThen x (fun w => (w, .ok ())) = x := by
  funext w
  unfold andThen
  rcases x w with ⟨w', e | u⟩ <;> rfl

theorem run_does (ext : CliExt St V R) (a : Args) : DoesFrom ext a 0 (runCalculations ext a) := by
  unfold runCalculations
  rw [← andThen_nil (when (a.features || a.precision) (featuresMode ext a))]
  refine does_cons (m := .properties) Iff.rfl (properties_does ext a) ?_
  refine does_cons (m := .geometry) Iff.rfl (geometry_does ext a) ?_
  refine does_cons (m := .eos) Iff.rfl (eos_does ext a) ?_
  refine does_cons (m := .elastic) Iff.rfl (elastic_does ext a) ?_
  refine does_cons (m := .forceConstants) Iff.rfl (fc_does ext a) ?_
  refine does_cons (m := .phonon) Iff.rfl (phonon_does ext a) ?_
  exact does_cons (m := .features) (by simp [Asked]) (features_does ext a) (does_nil ext a)

/-- **C98.** The command succeeds exactly when a potential or an input file is given and everything that is asked for can
be computed. -/
theorem C98_success (ext : CliExt St V R) (a : Args) (files : Name → Option (Content St V R)) :
    (run ext a files).2 = .ok () ↔ (a.pot ≠ none ∨ a.infile ≠ none) ∧ ∀ m, Asked a m → CanRun ext a m := by
  unfold run
  by_cases h : (a.pot.isNone && a.infile.isNone) = true
  · rw [if_pos h]
    simp only [Bool.and_eq_true, Option.isNone_iff_eq_none] at h
    simp [h.1, h.2]
  · rw [if_neg h, (run_does ext a _).1]
    simp only [Bool.and_eq_true, Option.isNone_iff_eq_none, not_and_or] at h
    simp [h]

/-- **C98.** A file is written exactly when its calculation is asked for and can be done, and everything that is asked for
before it can be done.  It then contains what it has to contain; all other files stay as they were. -/
theorem C98_files (ext : CliExt St V R) (a : Args) (files : Name → Option (Content St V R))
    (hin : a.pot ≠ none ∨ a.infile ≠ none) (n : Name) :
    (Reached ext a n → ∀ c, Right ext a n c → (run ext a files).1.files n = some c) ∧
    (¬ (Reached ext a n ∧ ∃ c, Right ext a n c) → (run ext a files).1.files n = files n) := by
  have h : ¬ (a.pot.isNone && a.infile.isNone) = true := by
    simp only [Bool.and_eq_true, Option.isNone_iff_eq_none]
    rintro ⟨h1, h2⟩
    rcases hin with h | h
    · exact h h1
    · exact h h2
  unfold run
  rw [if_neg h]
  obtain ⟨-, -, h3, h4⟩ := run_does ext a ⟨Calc.new, files⟩
  constructor
  · rintro ⟨g1, g2⟩ c hc
    exact h3 n (Nat.zero_le _) (fun m q1 _ q2 => g1 m q1 q2) c hc g2
  · intro hno
    apply h4 n (Nat.zero_le _)
    rintro ⟨g1, g2, g3⟩
    exact hno ⟨⟨fun m q1 q2 => g1 m q1 (Nat.zero_le _) q2, g3⟩, g2⟩

/-- **C98.** What a file has to contain is unique: it depends on nothing but the options and the files of structures. -/
theorem C98_unique (ext : CliExt St V R) (a : Args) (n : Name) (c c' : Content St V R) (h : Right ext a n c)
    (h' : Right ext a n c') : c = c' := right_unique ext a n c c' h h'

/-- **C98.** Without a potential and an input file nothing is written, and the command fails. -/
theorem C98_refused (ext : CliExt St V R) (a : Args) (files : Name → Option (Content St V R)) (h1 : a.pot = none)
    (h2 : a.infile = none) : (run ext a files).2 = .error .runtimeError ∧ (run ext a files).1.files = files := by
  unfold run
  simp [h1, h2]

/-! ## Violations -/

/-- A potential for which structures are numbers: an optimization adds one if atoms move; results are the number of the cell. -/
def numbers : CliExt ℕ Unit ℕ where
  poscar := fun _ => .ok 0
  vasprun := fun _ => .ok 0
  api := fun _ _ =>
    { pot := fun _ => .ok ()
      feat := fun l => .ok l.length
      jobInit := fun _ _ _ => .ok ()
      job := fun _ u _ => .ret (.ok (u.getD 0))
      phononInit := fun _ _ => .ok ()
      phonon := fun u _ _ => .ret (.ok (u.getD 0))
      optInit := fun _ _ => .ret (.ok ())
      opt := fun u a _ => match a with
        | .relax _ cell _ true _ => .ret (.ok ⟨u.getD 0 + (if cell then 2 else 1), 0, 1, true⟩)
        | _ => .ret (.ok ⟨u.getD 0, 0, 1, true⟩) }
  fcInit := fun _ _ => .ok ()
  fc := fun u _ => .ret (.ok (u.getD 0))
  precision := fun r => r

/-- **C98.** Violated: `--geometry_optimization` ("is performed for initial structure") together with another calculation does
not change the structure of that calculation: with `--elastic` and `--phonon` the results are those of the structure in the file,
and with `--force_constants` they are those of a third structure, which is neither in the file nor in `POSCAR_eqm`. -/
theorem C98_relaxed_violation :
    ∃ (ext : CliExt ℕ Unit ℕ) (a : Args), a.geometry = true ∧ a.elastic = true ∧ a.phonon = true ∧ a.forceConstants = true ∧
      (run ext a fun _ => none).2 = .ok () ∧
      (∃ s, (run ext a fun _ => none).1.files .relaxed = some (.structure_ s) ∧ s ≠ 0) ∧
      (∀ f, ext.poscar f = .ok 0) ∧
      (∀ p i u x, (ext.api p i).job .elastic u x = .ret (.ok (u.getD 0))) ∧
      (∀ p i u x y, (ext.api p i).phonon u x y = .ret (.ok (u.getD 0))) ∧ (∀ u x, ext.fc u x = .ret (.ok (u.getD 0))) ∧
      (run ext a fun _ => none).1.files .elastic = some (.result 0) ∧
      (run ext a fun _ => none).1.files .phonon = some (.result 0) ∧
      (run ext a fun _ => none).1.files .relaxed = some (.structure_ 2) ∧
      (run ext a fun _ => none).1.files .fc = some (.result 1) :=
  ⟨numbers,
    { pot := some ["polymlp.yaml"], poscar := some "POSCAR", geometry := true, elastic := true, phonon := true, forceConstants := true },
    rfl, rfl, rfl, rfl, rfl, ⟨2, rfl, by decide⟩, fun _ => rfl, fun _ _ _ _ => rfl,
    fun _ _ _ _ _ => rfl, fun _ _ => rfl, rfl, rfl, rfl, rfl⟩

/-- **C98.** Violated: atoms that are fixed with `--fix_atom` move before force constants are computed, also if the symmetry,
the method and the tolerance of the optimization are given. -/
theorem C98_fixed_violation :
    ∃ (ext : CliExt ℕ Unit ℕ) (a : Args), a.geometry = true ∧ a.fixAtom = true ∧ a.forceConstants = true ∧
      (run ext a fun _ => none).2 = .ok () ∧
      (run ext a fun _ => none).1.files .relaxed = some (.structure_ 0) ∧ (∀ u x, ext.fc u x = .ret (.ok (u.getD 0))) ∧
      (run ext a fun _ => none).1.files .fc = some (.result 1) :=
  ⟨numbers, { pot := some ["polymlp.yaml"], poscar := some "POSCAR", geometry := true, fixAtom := true, forceConstants := true },
    rfl, rfl, rfl, rfl, rfl, fun _ _ => rfl, rfl⟩

/-- **C98.** Violated: structures given with `--str_yaml` are never read: the option changes nothing, and alone it is refused. -/
theorem C98_yaml_violation (ext : CliExt St V R) (a : Args) (files : Name → Option (Content St V R)) (f : String) :
    run ext { a with strYaml := some f } files = run ext a files ∧
    (a.pot ≠ none → a.properties = true → a.poscar = none → a.poscars = none → a.vaspruns = none →
      (run ext { a with strYaml := some f } files).2 = .error .runtimeError) := by
  refine ⟨rfl, ?_⟩
  intro h1 h2 h3 h4 h5
  have hr : readFiles ext a = .error .runtimeError := by simp [readFiles, poscarsOf, h3, h4, h5]
  change (run ext a files).2 = _
  unfold run
  have h : ¬ (a.pot.isNone && a.infile.isNone) = true := by
    simp only [Bool.and_eq_true, Option.isNone_iff_eq_none]
    exact fun h => h1 h.1
  rw [if_neg h]
  simp only [runCalculations, andThen, when, h2, if_true, properties, call, step, hr, Except.map]

-- both files of a calculation with structures from two files
example : (run numbers { pot := some ["polymlp.yaml"], poscars := some ["POSCAR1", "POSCAR2"], properties := true, eos := true }
    fun _ => none).2 = .ok () := rfl

example : (run numbers { pot := some ["polymlp.yaml"], poscars := some ["POSCAR1", "POSCAR2"], properties := true, eos := true }
    fun _ => none).1.files .properties = some (.values [0, 0] [(), ()]) := rfl

-- a potential without forces: elastic constants are there, phonons are not, and features come too late
example : ∃ ext : CliExt ℕ Unit ℕ,
    let w := run ext { pot := some ["polymlp.yaml"], poscar := some "POSCAR", elastic := true, phonon := true, features := true }
      (fun _ => none)
    w.2 = .error .valueError ∧ w.1.files .elastic = some (.result 0) ∧ w.1.files .phonon = none ∧ w.1.files .features = none :=
  ⟨{ numbers with api := fun p i => { numbers.api p i with phonon := fun _ _ _ => .ret (.error .valueError) } },
    rfl, rfl, rfl, rfl⟩

end Verif.CalcCli
