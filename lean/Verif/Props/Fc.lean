import Mathlib.Data.List.Induction
import Mathlib.Tactic.NormNum
import Verif.Lemmas.History
import Verif.Spec.Fc

/-!
# C82: force constants from a potential
-/

namespace Verif.Fc

open Spec

variable {St FC : Type}

theorem mapM_get {α β : Type} (g : α → Except Err β) : ∀ (ss : List α) (fs : List β), ss.mapM g = .ok fs →
    fs.length = ss.length ∧ ∀ (i : ℕ) (s : α), ss[i]? = some s → ∃ f, fs[i]? = some f ∧ g s = .ok f
  | [], fs, h => by
    cases h; exact ⟨rfl, by intro i s h; simp at h⟩
  | s :: ss, fs, h => by
    rw [List.mapM_cons] at h
    cases hs : g s with
    | error e => rw [hs] at h; cases h
    | ok v =>
      rw [hs] at h
      cases ht : ss.mapM g with
      | error e => rw [ht] at h; cases h
      | ok vs =>
        rw [ht] at h
        cases h
        obtain ⟨h1, h2⟩ := mapM_get g ss vs ht
        refine ⟨by simp [h1], ?_⟩
        intro i x hx
        cases i with
        | zero => simp at hx; subst hx; exact ⟨v, by simp, hs⟩
        | succ i => simp at hx; simpa using h2 i x (by simpa using hx)

theorem structsOf_get (ext : Ext St FC) (d : Arr) (i : ℕ) (h : i < d.n) :
    (structsOf ext d)[i]? = some (ext.displace (d.at_ i)) := by
  simp [structsOf, h]

theorem structsOf_length (ext : Ext St FC) (d : Arr) : (structsOf ext d).length = d.n := by simp [structsOf]

theorem computeForces_ok (ext : Ext St FC) (o : Obj St FC) (d f : Arr) (hs : o.structs = some (some (structsOf ext d)))
    (h : computeForces ext o = .ok f) : ForcesFor ext d f := by
  unfold computeForces at h
  rw [hs] at h
  dsimp only at h
  cases hm : (structsOf ext d).mapM ext.force with
  | error e => rw [hm] at h; cases h
  | ok fs =>
    rw [hm] at h
    dsimp only at h
    cases h0 : ext.force ext.base with
    | error e => rw [h0] at h; cases h
    | ok f0 =>
      rw [h0] at h
      dsimp only at h
      split_ifs at h
      cases h
      obtain ⟨h1, h2⟩ := mapM_get ext.force _ fs hm
      refine ⟨⟨rfl, rfl⟩, by simpa [structsOf_length] using h1, f0, h0, ?_⟩
      intro i hi
      obtain ⟨g, hg, hf⟩ := h2 i _ (structsOf_get ext d i hi)
      refine ⟨g, hf, ?_⟩
      intro x a
      dsimp only
      rw [hg]

theorem atomFirst_swap (a : Arr) : AtomFirst a a.swap := ⟨rfl, rfl, rfl, fun _ _ _ => rfl⟩

theorem atomFirst_unique {a b : Arr} (h : AtomFirst a b) : b = a.swap := by
  obtain ⟨h1, h2, h3, h4⟩ := h
  obtain ⟨n, r, c, f⟩ := b
  simp only at h1 h2 h3 h4
  subst h1 h2 h3
  unfold Arr.swap
  congr
  funext i k x
  exact h4 i x k

theorem setDisps_cases (ext : Ext St FC) (o : Obj St FC) (d : Arr) :
    (HasShape ext d ∧ setDisps ext o d = .ok { o with disps := some d, structs := some (some (structsOf ext d)) }) ∨
      (¬ HasShape ext d ∧ setDisps ext o d = .error .runtimeError) := by
  unfold setDisps HasShape
  by_cases h : d.r = 3 ∧ d.c = ext.nAtoms
  · left; exact ⟨h, by rw [if_neg]; rintro (h1 | h1); exacts [h1 h.1, h1 h.2]⟩
  · right; exact ⟨h, by rw [if_pos]; by_contra hn; rw [not_or, not_not, not_not] at hn; exact h hn⟩

theorem setForces_cases (ext : Ext St FC) (o : Obj St FC) (f : Arr) :
    (HasShape ext f ∧ setForces ext o f = .ok { o with forces := some f }) ∨
      (¬ HasShape ext f ∧ setForces ext o f = .error .runtimeError) := by
  unfold setForces HasShape
  by_cases h : f.r = 3 ∧ f.c = ext.nAtoms
  · left; exact ⟨h, by rw [if_neg]; rintro (h1 | h1); exacts [h1 h.1, h1 h.2]⟩
  · right; exact ⟨h, by rw [if_pos]; by_contra hn; rw [not_or, not_not, not_not] at hn; exact h hn⟩

/-- The loop over the orders leaves everything but the force constants. -/
theorem store_frame (fc : ℕ → Option FC) : ∀ (ks : List ℕ) (o : Obj St FC),
    (store fc ks o).1.disps = o.disps ∧ (store fc ks o).1.structs = o.structs ∧ (store fc ks o).1.forces = o.forces
  | [], o => ⟨rfl, rfl, rfl⟩
  | k :: ks, o => by
    unfold store
    split_ifs
    · cases fc 2 with
      | none => exact ⟨rfl, rfl, rfl⟩
      | some x => exact store_frame fc ks _
    · cases fc 3 with
      | none => exact ⟨rfl, rfl, rfl⟩
      | some x => exact store_frame fc ks _
    · cases fc 4 with
      | none => exact ⟨rfl, rfl, rfl⟩
      | some x => exact store_frame fc ks _
    · exact store_frame fc ks o

/-- The loop over the orders stores those that are asked for. -/
theorem store_ok (fc : ℕ → Option FC) : ∀ (ks : List ℕ) (o : Obj St FC), (∀ k ∈ ks, ∃ b, fc k = some b) →
    (store fc ks o).2 = .ok () ∧
      ∀ k, k = 2 ∨ k = 3 ∨ k = 4 → reportedFc (store fc ks o).1 k = if k ∈ ks then fc k else reportedFc o k
  | [], o, _ => ⟨rfl, by intro k _; simp [store]⟩
  | j :: ks, o, h => by
    have ht : ∀ k ∈ ks, ∃ b, fc k = some b := fun k hk => h k (by simp [hk])
    obtain ⟨b, hb⟩ := h j (by simp)
    unfold store
    by_cases h2 : j = 2
    · subst h2
      rw [if_pos rfl, hb]
      dsimp only
      refine ⟨(store_ok fc ks _ ht).1, ?_⟩
      intro k hk
      rw [(store_ok fc ks _ ht).2 k hk]
      rcases hk with rfl | rfl | rfl <;> simp [reportedFc, hb]
    · rw [if_neg h2]
      by_cases h3 : j = 3
      · subst h3
        rw [if_pos rfl, hb]
        dsimp only
        refine ⟨(store_ok fc ks _ ht).1, ?_⟩
        intro k hk
        rw [(store_ok fc ks _ ht).2 k hk]
        rcases hk with rfl | rfl | rfl <;> simp [reportedFc, hb]
      · rw [if_neg h3]
        by_cases h4 : j = 4
        · subst h4
          rw [if_pos rfl, hb]
          dsimp only
          refine ⟨(store_ok fc ks _ ht).1, ?_⟩
          intro k hk
          rw [(store_ok fc ks _ ht).2 k hk]
          rcases hk with rfl | rfl | rfl <;> simp [reportedFc, hb]
        · rw [if_neg h4]
          refine ⟨(store_ok fc ks _ ht).1, ?_⟩
          intro k hk
          rw [(store_ok fc ks _ ht).2 k hk]
          have hne : k ≠ j := by rintro rfl; rcases hk with rfl | rfl | rfl <;> simp_all
          simp [hne]

/-- The cases of `run_fc`. -/
theorem runFc_cases (ext : Ext St FC) (hc : SolvesAll ext) (o : Obj St FC) (orders : List ℕ) :
    (∃ d f fc, o.disps = some d ∧ o.forces = some f ∧ SolvedBy ext d f orders fc ∧
      (∀ k ∈ orders, ∃ b, fc k = some b) ∧ runFc ext o orders = store fc orders o) ∨
    (∃ e, runFc ext o orders = (o, .error e)) := by
  unfold runFc
  cases hf : o.forces with
  | none => right; exact ⟨_, rfl⟩
  | some f =>
    cases hd : o.disps with
    | none => right; exact ⟨_, rfl⟩
    | some d =>
      dsimp only
      cases hs : ext.solve f.swap d.swap orders with
      | error e => right; exact ⟨e, rfl⟩
      | ok fc =>
        left
        exact ⟨d, f, fc, rfl, rfl, ⟨_, _, atomFirst_swap f, atomFirst_swap d, hs⟩, hc _ _ _ _ hs, rfl⟩

/-- The cases of `run`. -/
theorem run_cases (ext : Ext St FC) (o : Obj St FC) (disps forces : Option Arr) (orders : List ℕ) :
    (∃ o1 f, ((disps = none ∧ o1 = o) ∨ ∃ d, disps = some d ∧ HasShape ext d ∧
        o1 = { o with disps := some d, structs := some (some (structsOf ext d)) }) ∧
      HasShape ext f ∧ (forces = some f ∨ forces = none ∧ computeForces ext o1 = .ok f) ∧
      run ext o disps forces orders = runFc ext { o1 with forces := some f } orders) ∨
    (∃ e o1, ((disps = none ∧ o1 = o) ∨ (∃ d, disps = some d ∧ HasShape ext d ∧
        o1 = { o with disps := some d, structs := some (some (structsOf ext d)) }) ∨
        (∃ d, disps = some d ∧ ¬ HasShape ext d ∧ o1 = o ∧ e = .runtimeError)) ∧
      run ext o disps forces orders = (o1, .error e)) := by
  have key : ∀ o1 : Obj St FC,
      (∃ f, HasShape ext f ∧ (forces = some f ∨ forces = none ∧ computeForces ext o1 = .ok f) ∧
        takeForces ext o1 forces = .ok { o1 with forces := some f }) ∨ (∃ e, takeForces ext o1 forces = .error e) := by
    intro o1
    unfold takeForces
    cases forces with
    | some f =>
      rcases setForces_cases ext o1 f with ⟨h, he⟩ | ⟨h, he⟩
      · left; exact ⟨f, h, .inl rfl, he⟩
      · right; exact ⟨_, he⟩
    | none =>
      cases hc : computeForces ext o1 with
      | error e => right; exact ⟨e, rfl⟩
      | ok f =>
        rcases setForces_cases ext o1 f with ⟨h, he⟩ | ⟨h, he⟩
        · left; exact ⟨f, h, .inr ⟨rfl, rfl⟩, he⟩
        · right; exact ⟨_, he⟩
  unfold run
  cases disps with
  | none =>
    unfold takeDisps
    dsimp only
    rcases key o with ⟨f, h1, h2, h3⟩ | ⟨e, h⟩
    · left; exact ⟨o, f, .inl ⟨rfl, rfl⟩, h1, h2, by rw [h3]⟩
    · right; exact ⟨e, o, .inl ⟨rfl, rfl⟩, by rw [h]⟩
  | some d =>
    unfold takeDisps
    dsimp only
    rcases setDisps_cases ext o d with ⟨hd, he⟩ | ⟨hd, he⟩
    · rw [he]
      dsimp only
      rcases key { o with disps := some d, structs := some (some (structsOf ext d)) } with ⟨f, h1, h2, h3⟩ | ⟨e, h⟩
      · left; exact ⟨_, f, .inr ⟨d, rfl, hd, rfl⟩, h1, h2, by rw [h3]⟩
      · right; exact ⟨e, _, .inr (.inl ⟨d, rfl, hd, rfl⟩), by rw [h]⟩
    · right
      exact ⟨_, o, .inr (.inr ⟨d, rfl, hd, rfl, rfl⟩), by rw [he]⟩

/-! ## Properties -/

/-- C82 (shapes).  Displacements and forces that do not have the shape `(n, 3, n_atom)` are refused with a RuntimeError,
and the object stays as it was; all others are taken. -/
theorem C82_shape (ext : Ext St FC) (o : Obj St FC) (a : Arr) :
    (HasShape ext a → (step ext o (.disps a)).2 = .ok () ∧ (step ext o (.disps a)).1.disps = some a ∧
      (step ext o (.forces a)).2 = .ok () ∧ (step ext o (.forces a)).1.forces = some a) ∧
    (¬ HasShape ext a → step ext o (.disps a) = (o, .error .runtimeError) ∧
      step ext o (.forces a) = (o, .error .runtimeError) ∧
      ∀ f orders, step ext o (.run (some a) f orders) = (o, .error .runtimeError)) := by
  constructor
  · intro h
    rcases setDisps_cases ext o a with ⟨-, h1⟩ | ⟨h1, -⟩
    · rcases setForces_cases ext o a with ⟨-, h2⟩ | ⟨h2, -⟩
      · simp only [step, h1, h2, lift]; exact ⟨trivial, trivial, trivial, trivial⟩
      · exact (h2 h).elim
    · exact (h1 h).elim
  · intro h
    rcases setDisps_cases ext o a with ⟨h1, -⟩ | ⟨-, h1⟩
    · exact (h h1).elim
    · rcases setForces_cases ext o a with ⟨h2, -⟩ | ⟨-, h2⟩
      · exact (h h2).elim
      · refine ⟨by simp only [step, h1, lift], by simp only [step, h2, lift], ?_⟩
        intro f orders
        simp only [step, run, takeDisps, h1]

/-- C82 (given displacements).  If displacements are given and the run succeeds, the force constants of the orders asked
for are those that the solver finds for exactly these displacements and the differences between the forces of the
displaced supercells and of the supercell, in the same order; given forces are used instead of the computed ones. -/
theorem C82_run (ext : Ext St FC) (hc : SolvesAll ext) (o : Obj St FC) (d : Arr) (forces : Option Arr) (orders : List ℕ)
    (h : (step ext o (.run (some d) forces orders)).2 = .ok ()) :
    ∃ f fc, (forces = some f ∨ forces = none ∧ ForcesFor ext d f) ∧
      (step ext o (.run (some d) forces orders)).1.disps = some d ∧
      (step ext o (.run (some d) forces orders)).1.forces = some f ∧ SolvedBy ext d f orders fc ∧
      ∀ k ∈ orders, k = 2 ∨ k = 3 ∨ k = 4 →
        reportedFc (step ext o (.run (some d) forces orders)).1 k = fc k ∧ ∃ b, fc k = some b := by
  change (run ext o (some d) forces orders).2 = _ at h
  change ∃ f fc, _ ∧ (run ext o (some d) forces orders).1.disps = _ ∧ (run ext o (some d) forces orders).1.forces = _ ∧ _ ∧
    ∀ k ∈ orders, _ → reportedFc (run ext o (some d) forces orders).1 k = _ ∧ _
  rcases run_cases ext o (some d) forces orders with ⟨o1, f, h1, h2, h3, he⟩ | ⟨e, o1, -, he⟩
  · rcases h1 with ⟨h1, -⟩ | ⟨d', h1, hd, ho1⟩
    · cases h1
    · cases h1
      rw [he] at h ⊢
      rcases runFc_cases ext hc { o1 with forces := some f } orders with ⟨d2, f2, fc, hd2, hf2, hs, hk, hr⟩ | ⟨e, hr⟩
      · rw [hr] at h ⊢
        have hfr := store_frame fc orders { o1 with forces := some f }
        have hd3 : d2 = d := by rw [ho1] at hd2; cases hd2; rfl
        have hf3 : f2 = f := by cases hf2; rfl
        subst hd3 hf3
        refine ⟨f2, fc, ?_, ?_, ?_, hs, ?_⟩
        · rcases h3 with h3 | ⟨h3, h4⟩
          · exact .inl h3
          · exact .inr ⟨h3, computeForces_ok ext o1 d2 f2 (by rw [ho1]) h4⟩
        · rw [hfr.1]; exact hd2
        · rw [hfr.2.2]
        · intro k hk' hk2
          rw [(store_ok fc orders _ hk).2 k hk2, if_pos hk']
          exact ⟨rfl, hk k hk'⟩
      · rw [hr] at h; cases h
  · rw [he] at h; cases h

/-- The structures are those of the displacements. -/
def Matched (ext : Ext St FC) (o : Obj St FC) : Prop :=
  (o.disps = none ∧ o.structs = none) ∨ ∃ d, o.disps = some d ∧ o.structs = some (some (structsOf ext d))

theorem runFc_frame (ext : Ext St FC) (o : Obj St FC) (orders : List ℕ) :
    (runFc ext o orders).1.disps = o.disps ∧ (runFc ext o orders).1.structs = o.structs := by
  unfold runFc
  cases o.forces with
  | none => exact ⟨rfl, rfl⟩
  | some f =>
    cases hd : o.disps with
    | none => exact ⟨hd, rfl⟩
    | some d =>
      dsimp only
      cases ext.solve f.swap d.swap orders with
      | error e => exact ⟨hd, rfl⟩
      | ok fc => exact ⟨by rw [(store_frame fc orders o).1, hd], (store_frame fc orders o).2.1⟩

theorem matched_runFc (ext : Ext St FC) (o : Obj St FC) (orders : List ℕ) (h : Matched ext o) :
    Matched ext (runFc ext o orders).1 := by
  unfold Matched
  rw [(runFc_frame ext o orders).1, (runFc_frame ext o orders).2]
  exact h

theorem matched_step (ext : Ext St FC) (o : Obj St FC) (x : Call St) (hx : ∀ s, x ≠ .structs s) (h : Matched ext o) :
    Matched ext (step ext o x).1 := by
  cases x with
  | disps d =>
    rcases setDisps_cases ext o d with ⟨-, he⟩ | ⟨-, he⟩ <;> simp only [step, he, lift]
    · exact .inr ⟨d, rfl, rfl⟩
    · exact h
  | forces f =>
    rcases setForces_cases ext o f with ⟨-, he⟩ | ⟨-, he⟩ <;> simp only [step, he, lift]
    · exact h
    · exact h
  | structs s => exact (hx s rfl).elim
  | sample d =>
    by_cases hd : d.n = 0
    · simp only [step, sample, if_pos hd, lift]; exact h
    · simp only [step, sample, if_neg hd, lift]; exact .inr ⟨d, rfl, rfl⟩
  | runFc orders => exact matched_runFc ext o orders h
  | run d f orders =>
    change Matched ext (run ext o d f orders).1
    rcases run_cases ext o d f orders with ⟨o1, f', h1, -, -, he⟩ | ⟨e, o1, h1, he⟩
    · rw [he]
      apply matched_runFc
      rcases h1 with ⟨-, rfl⟩ | ⟨d', -, -, rfl⟩
      · exact h
      · exact .inr ⟨d', rfl, rfl⟩
    · rw [he]
      rcases h1 with ⟨-, rfl⟩ | ⟨d', -, -, rfl⟩ | ⟨d', -, -, rfl, -⟩
      · exact h
      · exact .inr ⟨d', rfl, rfl⟩
      · exact h

theorem exec_snoc (ext : Ext St FC) (o : Obj St FC) (cs : List (Call St)) (x : Call St) :
    exec ext o (cs ++ [x]) = (step ext (exec ext o cs) x).1 := by unfold exec; rw [List.foldl_append]; rfl

theorem matched_exec (ext : Ext St FC) (cs : List (Call St)) (hx : ∀ x ∈ cs, ∀ s, x ≠ Call.structs s) :
    Matched ext (exec ext (ofSupercell : Obj St FC) cs) := by
  induction cs using List.reverseRecOn with
  | nil => exact .inl ⟨rfl, rfl⟩
  | append_singleton l x ih =>
    rw [exec_snoc]
    exact matched_step ext _ x (hx x (by simp)) (ih fun y hy => hx y (by simp [hy]))

/-- C82 (displacements that are set).  After any history of an object made with a supercell, in which structures were not
set directly, a run without arguments that succeeds uses the displacements that are set, with the forces of exactly these
displacements. -/
theorem C82_sampled (ext : Ext St FC) (hc : SolvesAll ext) (cs : List (Call St)) (hx : ∀ x ∈ cs, ∀ s, x ≠ Call.structs s)
    (orders : List ℕ) (h : (step ext (exec ext ofSupercell cs) (.run none none orders)).2 = .ok ()) :
    ∃ d f fc, (exec ext ofSupercell cs).disps = some d ∧ ForcesFor ext d f ∧ SolvedBy ext d f orders fc ∧
      ∀ k ∈ orders, k = 2 ∨ k = 3 ∨ k = 4 →
        reportedFc (step ext (exec ext ofSupercell cs) (.run none none orders)).1 k = fc k ∧ ∃ b, fc k = some b := by
  have hm := matched_exec ext cs hx
  generalize exec ext ofSupercell cs = o at hm h ⊢
  change (run ext o none none orders).2 = _ at h
  change ∃ d f fc, _ ∧ _ ∧ _ ∧ ∀ k ∈ orders, _ → reportedFc (run ext o none none orders).1 k = _ ∧ _
  rcases run_cases ext o none none orders with ⟨o1, f, h1, h2, h3, he⟩ | ⟨e, o1, -, he⟩
  · rcases h1 with ⟨-, rfl⟩ | ⟨d', h1, -⟩
    · rw [he] at h ⊢
      rcases runFc_cases ext hc { o1 with forces := some f } orders with ⟨d2, f2, fc, hd2, hf2, hs, hk, hr⟩ | ⟨e, hr⟩
      · rw [hr] at h ⊢
        cases hf2
        rcases h3 with h3 | ⟨-, h4⟩
        · cases h3
        · rcases hm with ⟨hm, -⟩ | ⟨d, hm, hm2⟩
          · dsimp only at hd2; rw [hm] at hd2; cases hd2
          · dsimp only at hd2; rw [hm] at hd2
            have hdd : d2 = d := by cases hd2; rfl
            subst hdd
            refine ⟨d2, f, fc, hm, computeForces_ok ext o1 d2 f hm2 h4, hs, ?_⟩
            intro k hk' hk2
            rw [(store_ok fc orders _ hk).2 k hk2, if_pos hk']
            exact ⟨rfl, hk k hk'⟩
      · rw [hr] at h; cases h
    · cases h1
  · rw [he] at h; cases h

theorem solvedBy_unique {ext : Ext St FC} {d f : Arr} {orders : List ℕ} {fc fc' : ℕ → Option FC}
    (h : SolvedBy ext d f orders fc) (h' : SolvedBy ext d f orders fc') : fc = fc' := by
  obtain ⟨a, b, h1, h2, h3⟩ := h
  obtain ⟨a', b', h1', h2', h3'⟩ := h'
  rw [atomFirst_unique h1, atomFirst_unique h2] at h3
  rw [atomFirst_unique h1', atomFirst_unique h2', h3] at h3'
  cases h3'; rfl

/-- A solution for given data. -/
theorem finds_runFc (ext : Ext St FC) (hc : SolvesAll ext) (o o0 : Obj St FC) (x : Call St) (orders : List ℕ) (k : ℕ)
    (hk : k = 2 ∨ k = 3 ∨ k = 4) (hx : x = .runFc orders ∨ ∃ d0 f0, x = .run d0 f0 orders)
    (hs : step ext o x = runFc ext o0 orders) (hr : reportedFc o0 k = reportedFc o k) :
    (∃ b, Finds ext k o x b ∧ reportedFc (step ext o x).1 k = some b) ∨
      ((∀ b, ¬ Finds ext k o x b) ∧ reportedFc (step ext o x).1 k = reportedFc o k) := by
  have hord : ∀ orders', (x = .runFc orders' ∨ ∃ d0 f0, x = .run d0 f0 orders') → orders' = orders := by
    intro orders' h'
    rcases hx with rfl | ⟨d0, f0, rfl⟩ <;> rcases h' with h | ⟨d1, f1, h⟩ <;> cases h <;> rfl
  rcases runFc_cases ext hc o0 orders with ⟨d, f, fc, hd, hf, hsol, hall, he⟩ | ⟨e, he⟩
  · have hfr := store_frame fc orders o0
    have hst := store_ok fc orders o0 hall
    by_cases hko : k ∈ orders
    · left
      obtain ⟨b, hb⟩ := hall k hko
      refine ⟨b, ⟨orders, d, f, fc, hx, hko, ?_, ?_, ?_, hsol, hb⟩, ?_⟩
      · rw [hs, he]; exact hst.1
      · rw [hs, he, hfr.1]; exact hd
      · rw [hs, he, hfr.2.2]; exact hf
      · rw [hs, he, hst.2 k hk, if_pos hko, hb]
    · right
      refine ⟨?_, by rw [hs, he, hst.2 k hk, if_neg hko, hr]⟩
      rintro b ⟨orders', d', f', fc', hx', hko', -⟩
      rw [hord orders' hx'] at hko'
      exact hko hko'
  · right
    refine ⟨?_, by rw [hs, he]; exact hr⟩
    rintro b ⟨orders', d', f', fc', -, -, hok, -⟩
    rw [hs, he] at hok; cases hok

theorem step_fc (ext : Ext St FC) (hc : SolvesAll ext) (k : ℕ) (hk : k = 2 ∨ k = 3 ∨ k = 4) (o : Obj St FC) (x : Call St) :
    (∃ b, Finds ext k o x b ∧ reportedFc (step ext o x).1 k = some b) ∨
      ((∀ b, ¬ Finds ext k o x b) ∧ reportedFc (step ext o x).1 k = reportedFc o k) := by
  have key : ∀ y : Call St, (∀ os, y ≠ .runFc os) → (∀ d f os, y ≠ .run d f os) →
      reportedFc (step ext o y).1 k = reportedFc o k →
      (∃ b, Finds ext k o y b ∧ reportedFc (step ext o y).1 k = some b) ∨
      ((∀ b, ¬ Finds ext k o y b) ∧ reportedFc (step ext o y).1 k = reportedFc o k) := by
    intro y h1 h2 h
    right
    refine ⟨?_, h⟩
    rintro b ⟨os, d, f, fc, hy | ⟨d0, f0, hy⟩, -⟩
    · exact h1 os hy
    · exact h2 d0 f0 os hy
  cases x with
  | disps d =>
    refine key _ (by simp) (by simp) ?_
    rcases setDisps_cases ext o d with ⟨-, he⟩ | ⟨-, he⟩ <;> simp only [step, he, lift] <;> rfl
  | forces f =>
    refine key _ (by simp) (by simp) ?_
    rcases setForces_cases ext o f with ⟨-, he⟩ | ⟨-, he⟩ <;> simp only [step, he, lift] <;> rfl
  | structs s => exact key _ (by simp) (by simp) rfl
  | sample d =>
    refine key _ (by simp) (by simp) ?_
    by_cases hd : d.n = 0
    · simp only [step, sample, if_pos hd, lift]
    · simp only [step, sample, if_neg hd, lift]; rfl
  | runFc orders => exact finds_runFc ext hc o o _ orders k hk (.inl rfl) rfl rfl
  | run d f orders =>
    rcases run_cases ext o d f orders with ⟨o1, f', h1, -, -, he⟩ | ⟨e, o1, h1, he⟩
    · refine finds_runFc ext hc o _ _ orders k hk (.inr ⟨d, f, rfl⟩) he ?_
      rcases h1 with ⟨-, rfl⟩ | ⟨d', -, -, rfl⟩ <;> rfl
    · right
      have hs : step ext o (.run d f orders) = (o1, .error e) := he
      rw [hs]
      constructor
      · rintro b ⟨orders', d', f', fc', -, -, hok, -⟩
        rw [hs] at hok; cases hok
      · rcases h1 with ⟨-, rfl⟩ | ⟨d', -, -, rfl⟩ | ⟨d', -, -, rfl, -⟩ <;> rfl

/-- C82 (force constants).  After every history the force constants of an order are those of the last successful run that
was asked for this order, from the displacements and forces of that run; None if there was none.  They are what is
saved. -/
theorem C82_fc (ext : Ext St FC) (hc : SolvesAll ext) (k : ℕ) (hk : k = 2 ∨ k = 3 ∨ k = 4) (o : Obj St FC)
    (ho : reportedFc o k = none) (cs : List (Call St)) :
    ((∃ b, reportedFc (exec ext o cs) k = some b ∧ LastOf (exec ext o) (Finds ext k) cs b) ∨
      (reportedFc (exec ext o cs) k = none ∧ ∀ q y t, cs = q ++ y :: t → ∀ b, ¬ Finds ext k (exec ext o q) y b)) ∧
    saveFc (exec ext o cs) = (reportedFc (exec ext o cs) 2, reportedFc (exec ext o cs) 3) := by
  refine ⟨?_, rfl⟩
  have := lastOf_foldl (fun o x => (step ext o x).1) o (fun o => reportedFc o k) (Finds ext k) (step_fc ext hc k hk) cs
  rw [ho] at this
  exact this

/-! ## What fails -/

/-- A harmonic supercell of one atom: structures are displacements, the force is -2 times the displacement plus 5, and
the "solver" shows the first entries of its arguments. -/
def demo : Ext ℚ (ℚ × ℚ) where
  nAtoms := 1
  base := 0
  displace := fun d => d 0 0
  force := fun s => .ok fun _ _ => -2 * s + 5
  size := fun _ => 1
  solve := fun f d orders => .ok fun k => if k ∈ orders then some (f.at_ 0 0 0, d.at_ 0 0 0) else none

/-- One sample with all components equal. -/
def one (x : ℚ) : Arr := ⟨1, 3, 1, fun _ _ _ => x⟩

theorem demo_solvesAll : SolvesAll demo := by
  intro f d orders fc h k hk
  cases h
  exact ⟨_, if_pos hk⟩

/-- C82 fails: `PypolymlpCalc.run_fc` ignores the displacements and forces that it is given.  Without earlier
displacements it fails, with earlier ones it gives their force constants. -/
theorem C82_given_violation :
    (calcRunFc demo (some ofSupercell) (some (one 1)) (some (one 7)) (one 4) [2]).2 = .error .attributeError ∧
    ∃ o, calcRunFc demo (some (exec demo ofSupercell [.sample (one 3)])) (some (one 1)) (some (one 7)) (one 4) [2] =
      (some o, .ok ()) ∧ o.fc2 = some (-6, 3) := by
  refine ⟨by decide +kernel, _, rfl, by decide +kernel⟩

/-- C82 fails: displacements of a phono3py.yaml file are read and then dropped; the run computes forces and fails. -/
theorem C82_yaml_violation :
    (ofYaml demo (one 3)).disps = none ∧
    (step demo (ofYaml demo (one 3)) (.run none none [2])).2 = .error .attributeError := by decide +kernel

/-- C82 fails: without displacements or forces an AttributeError is raised instead of the RuntimeError that the code
constructs. -/
theorem C82_missing_violation :
    (step demo ofSupercell (.runFc [2])).2 = .error .attributeError ∧
    (step demo ofSupercell (.run none none [2])).2 = .error .attributeError ∧
    (step demo ofSupercell (.run none (some (one 7)) [2])).2 = .error .attributeError := by decide +kernel

/-- C82 fails: after structures were set, their forces are fitted to the displacements of others; after displacements
were set, `run_fc` fits the old forces to them. -/
theorem C82_mixed_violation :
    (exec demo ofSupercell [.sample (one 3), .structs (some [8]), .run none none [2]]).fc2 = some (-16, 3) ∧
    (exec demo ofSupercell [.run (some (one 3)) none [2], .disps (one 8), .runFc [2]]).fc2 = some (-6, 8) := by
  decide +kernel

/-- C82 fails: force constants of different displacements are saved together, and those of order 4 are never saved. -/
theorem C82_save_violation :
    saveFc (exec demo ofSupercell [.run (some (one 3)) none [2, 3], .run (some (one 8)) none [2]]) =
      (some (-16, 8), some (-6, 3)) ∧
    (exec demo ofSupercell [.run (some (one 3)) none [4]]).fc4 = some (-6, 3) ∧
    saveFc (exec demo ofSupercell [.run (some (one 3)) none [4]]) = (none, none) := by decide +kernel

/-! The hypotheses are met. -/

example : HasShape demo (one 3) := ⟨rfl, rfl⟩
example : ¬ HasShape demo ⟨1, 1, 3, fun _ _ _ => 0⟩ := by simp [HasShape]
example : (step demo ofSupercell (.run (some (one 3)) none [2, 3])).2 = .ok () := rfl
example : (step demo (exec demo ofSupercell [.sample (one 3), .sample (one 4)]) (.run none none [2])).2 = .ok () := rfl
example : ForcesFor demo (one 3) (one (-6)) :=
  ⟨⟨rfl, rfl⟩, rfl, fun _ _ => 5, by simp [demo], fun i _ => ⟨fun _ _ => -1, by simp [demo, one]; norm_num, by
    intro x a; simp [one]; norm_num⟩⟩
example : reportedFc (exec demo ofSupercell [.run (some (one 3)) none [2, 3], .sample (one 8)]) 3 = some (-6, 3) := by
  decide +kernel

end Verif.Fc
