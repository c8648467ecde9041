import Verif.Props.DevApi

/-!
# C80: shared parameters of the object for developing potentials
-/

namespace Verif.DevApi

open Verif.Spec

variable {σ D S F E : Type}

/-! ## Flags -/

theorem view_setAll (h : Heap σ) (r : ℕ) (f : Single σ → Single σ) :
    view (setAll h r f) r = ⟨f (common h r), (view h r).parts.map f⟩ := by
  have hr : ((setAll h r f).objs r).refs = (h.objs r).refs := by simp [setAll]
  have hc : common (setAll h r f) r = f (common h r) := by
    unfold common
    rw [hr]
    rcases hrefs : (h.objs r).refs with _ | ⟨i, _ | ⟨j, t⟩⟩
    · simp [setAll]
    · simp [setAll, hrefs]
    · simp [setAll]
  have hp : ((setAll h r f).objs r).refs.map (setAll h r f).singles = ((h.objs r).refs.map h.singles).map f := by
    rw [hr, List.map_map]
    apply List.map_congr_left
    intro i hi
    simp [setAll, hi]
  unfold view
  rw [hc, hp]

/-- How a change of parameters changes the flags. -/
def Acts (a b : View σ) (kf ks : Bool) : Prop :=
  ∃ g : Single σ → Single σ, b = ⟨g a.common, a.parts.map g⟩ ∧
    ∀ s, (g s).force = (s.force && kf) ∧ (g s).stress = (s.stress && ks)

theorem Acts.trans {a b c : View σ} {x y x' y' : Bool} (h1 : Acts a b x y) (h2 : Acts b c x' y') :
    Acts a c (x && x') (y && y') := by
  obtain ⟨g, rfl, hg⟩ := h1
  obtain ⟨g', rfl, hg'⟩ := h2
  refine ⟨g' ∘ g, by simp, fun s => ?_⟩
  simp [(hg' (g s)).1, (hg' (g s)).2, (hg s).1, (hg s).2, Bool.and_assoc]

theorem Acts.id (a : View σ) : Acts a a true true := ⟨fun s => s, by simp, fun s => by simp⟩

theorem acts_noForce (h : Heap σ) (r : ℕ) : Acts (view h r) (view (noForce h r) r) false true :=
  ⟨fun s => { s with force := false }, view_setAll h r _, fun s => by simp⟩

theorem acts_noStress (h : Heap σ) (r : ℕ) : Acts (view h r) (view (noStress h r) r) true false :=
  ⟨fun s => { s with stress := false }, view_setAll h r _, fun s => by simp⟩

theorem acts_noSpins (h : Heap σ) (r : ℕ) : Acts (view h r) (view (noSpins h r) r) true true :=
  ⟨fun s => { s with spins := none }, view_setAll h r _, fun s => by simp⟩

theorem acts_disable (h : Heap σ) (r : ℕ) (f s : Bool) :
    Acts (view h r) (view (disableFlags h r f s) r) f (f && s) := by
  cases f <;> cases s <;> simp only [disableFlags, if_true, if_false, Bool.true_eq_false]
  · exact ((acts_noForce h r).trans (acts_noStress _ r)).trans (acts_noStress _ r)
  · exact (acts_noForce h r).trans (acts_noStress _ r)
  · exact acts_noStress h r
  · exact Acts.id _

theorem acts_prepare (h : Heap σ) (r : ℕ) (src : Source S) :
    Acts (view h r) (view (prepare h r src) r) (KeepsForce src) (KeepsStress src) := by
  cases src with
  | files t s =>
    have h1 : Acts (view h r) (view (setAll h r fun s => { s with dtype := t }) r) true true :=
      ⟨fun s => { s with dtype := t }, view_setAll h r _, fun s => by simp⟩
    have hd : (common (setAll h r fun s => { s with dtype := t }) r).dtype = t := by
      have := congrArg View.common (view_setAll h r fun s => { s with dtype := t })
      change common (setAll h r fun s => { s with dtype := t }) r = _ at this
      rw [this]
    simp only [prepare, setDType, setTags, hd]
    cases t
    · exact h1
    · exact (h1.trans (acts_noStress _ r)).trans (acts_noSpins _ r)
    · exact h1.trans (acts_noSpins _ r)
    · exact (h1.trans (acts_noStress _ r)).trans (acts_noSpins _ r)
    · exact ((h1.trans (acts_noForce _ r)).trans (acts_noStress _ r)).trans (acts_noSpins _ r)
  | structures f s f' s' x =>
    have := (acts_disable h r f s).trans (acts_disable _ r f' s')
    simpa [prepare, KeepsForce, KeepsStress, Bool.and_assoc] using this
  | displacements ok s =>
    cases ok
    · exact acts_noStress h r
    · exact ((acts_noStress h r).trans (acts_disable _ r true false)).trans (acts_disable _ r true false)

theorem step_same (ext : Ext σ D S F E) (st : State σ D E) (c : Call σ S F) (r : ℕ) (hr : st.o.params = some r)
    (hc : SameParams c) : (step ext st c).1.o.params = some r ∧
      Acts (view st.h r) (view (step ext st c).1.h r) ((sources [c]).all KeepsForce) ((sources [c]).all KeepsStress) := by
  cases c with
  | setParams l => exact hc.elim
  | setShared l => exact hc.elim
  | paramFile l s => exact hc.elim
  | append s => exact hc.elim
  | load p => exact hc.elim
  | setData src =>
    refine ⟨by rw [step, (setData_model ext st src).2]; exact hr, ?_⟩
    have : (sources ([.setData src] : List (Call σ S F))) = [src] := rfl
    rw [this]
    simp only [List.all_cons, List.all_nil, Bool.and_true]
    rcases setData_cases ext st src with ⟨r', d, hp, hv, hl, h⟩ | ⟨e, h', h, hh⟩
    · rw [hr] at hp; cases hp
      rw [step, h]; exact acts_prepare st.h r src
    · rcases hh with ⟨hn, -⟩ | ⟨r', hp, rfl, -⟩
      · rw [hr] at hn; cases hn
      · rw [hr] at hp; cases hp
        rw [step, h]; exact acts_prepare st.h r src
  | fit m =>
    rcases fit_cases ext st m with ⟨_, tr, te, f, b, h1, h2, h3, h4, h5, h⟩ | ⟨hn, e', h⟩ <;> rw [step, h] <;>
      exact ⟨hr, Acts.id _⟩
  | run m =>
    rw [step, runFit_eq]
    rcases fit_cases ext st m with ⟨r', tr, te, f, b, h1, h2, h3, h4, h5, h⟩ | ⟨hn, e', h⟩
    · rw [h]
      have := estimate_keeps ext ⟨st.h, { st.o with model := some ⟨f, b, r', none, none⟩ }⟩
      dsimp only at this ⊢
      rw [this.1, this.2.1]
      exact ⟨hr, Acts.id _⟩
    · rw [h]; exact ⟨hr, Acts.id _⟩
  | estimate => rw [step, (estimate_keeps ext st).1, (estimate_keeps ext st).2.1]; exact ⟨hr, Acts.id _⟩
  | curve => rw [step, (curve_obj ext st).1, (curve_obj ext st).2.1]; exact ⟨hr, Acts.id _⟩

theorem sources_append (a b : List (Call σ S F)) : sources (a ++ b) = sources a ++ sources b := by
  induction a with
  | nil => rfl
  | cons c a ih => cases c <;> simp [sources, ih]

/-- C80 (flags).  As long as no parameters are set, appended or loaded, forces are in use exactly if they were and all data
that were given since, also by calls that failed, have them; the same for stresses; and this holds for every component of
a hybrid model. -/
theorem C80_flags (ext : Ext σ D S F E) (st : State σ D E) (r : ℕ) (hr : st.o.params = some r)
    (cs : List (Call σ S F)) (hcs : ∀ c ∈ cs, SameParams c) :
    (exec ext st cs).o.params = some r ∧
    (view (exec ext st cs).h r).common.force = ((view st.h r).common.force && (sources cs).all KeepsForce) ∧
    (view (exec ext st cs).h r).common.stress = ((view st.h r).common.stress && (sources cs).all KeepsStress) ∧
    (view (exec ext st cs).h r).parts.map (fun p => (p.force, p.stress)) =
      (view st.h r).parts.map (fun p => (p.force && (sources cs).all KeepsForce, p.stress && (sources cs).all KeepsStress)) := by
  have key : (exec ext st cs).o.params = some r ∧
      Acts (view st.h r) (view (exec ext st cs).h r) ((sources cs).all KeepsForce) ((sources cs).all KeepsStress) := by
    induction cs using List.reverseRecOn with
    | nil => exact ⟨hr, Acts.id _⟩
    | append_singleton l c ih =>
      obtain ⟨h1, h2⟩ := ih (fun c hc => hcs c (by simp [hc]))
      obtain ⟨h3, h4⟩ := step_same ext (exec ext st l) c r h1 (hcs c (by simp))
      rw [exec_append, sources_append, List.all_append, List.all_append]
      exact ⟨h3, h2.trans h4⟩
  obtain ⟨h1, g, hg, hgs⟩ := key
  refine ⟨h1, ?_, ?_, ?_⟩
  · rw [hg]; exact (hgs _).1
  · rw [hg]; exact (hgs _).2
  · rw [hg]
    simp only [List.map_map]
    apply List.map_congr_left
    intro p _
    simp [(hgs p).1, (hgs p).2]

/-! ## Frames -/

/-- What a change of the heap leaves alone: everything but the parameter objects `R` and their components; components are
added only as new objects, and new parameter objects have new components. -/
structure Frame (R : ℕ → Prop) (h h' : Heap σ) : Prop where
  nS : h.nS ≤ h'.nS
  nO : h.nO ≤ h'.nO
  objs : ∀ k, k < h.nO → ¬ R k → h'.objs k = h.objs k
  singles : ∀ i, i < h.nS → (∀ k, R k → i ∉ (h.objs k).refs) → h'.singles i = h.singles i
  old : ∀ k, k < h.nO → ∀ i ∈ (h'.objs k).refs, i ∈ (h.objs k).refs ∨ (h.nS ≤ i ∧ i < h'.nS)
  new : ∀ k, h.nO ≤ k → k < h'.nO → ∀ i ∈ (h'.objs k).refs, h.nS ≤ i ∧ i < h'.nS

theorem Frame.refl (R : ℕ → Prop) (h : Heap σ) : Frame R h h :=
  ⟨le_rfl, le_rfl, fun _ _ _ => rfl, fun _ _ _ => rfl, fun _ _ i hi => .inl hi, fun k h1 h2 => absurd h2 (by omega)⟩

theorem Frame.trans {R R' : ℕ → Prop} {a b c : Heap σ} (hR : ∀ k, R k → k < a.nO)
    (hRR : ∀ k, R' k → R k ∨ (a.nO ≤ k ∧ k < b.nO)) (h1 : Frame R a b) (h2 : Frame R' b c) : Frame R a c := by
  refine ⟨h1.nS.trans h2.nS, h1.nO.trans h2.nO, ?_, ?_, ?_, ?_⟩
  · intro k hk hn
    rw [h2.objs k (lt_of_lt_of_le hk h1.nO) ?_, h1.objs k hk hn]
    intro hk'
    rcases hRR k hk' with h | h
    · exact hn h
    · omega
  · intro i hi hn
    rw [h2.singles i (lt_of_lt_of_le hi h1.nS) ?_, h1.singles i hi hn]
    intro k hk hmem
    rcases hRR k hk with h | h
    · rcases h1.old k (hR k h) i hmem with h' | h'
      · exact hn k h h'
      · omega
    · have := h1.new k h.1 h.2 i hmem
      omega
  · intro k hk i hi
    rcases h2.old k (lt_of_lt_of_le hk h1.nO) i hi with h | h
    · rcases h1.old k hk i h with h' | h'
      · exact .inl h'
      · exact .inr ⟨h'.1, lt_of_lt_of_le h'.2 h2.nS⟩
    · exact .inr ⟨h1.nS.trans h.1, h.2⟩
  · intro k hk hk' i hi
    by_cases hb : k < b.nO
    · rcases h2.old k hb i hi with h | h
      · have := h1.new k hk hb i h
        exact ⟨this.1, lt_of_lt_of_le this.2 h2.nS⟩
      · exact ⟨h1.nS.trans h.1, h.2⟩
    · have := h2.new k (by omega) hk' i hi
      exact ⟨h1.nS.trans this.1, this.2⟩

/-- Nothing but flags changes in objects that exist. -/
structure Keep (h h' : Heap σ) : Prop where
  nS : h.nS ≤ h'.nS
  nO : h.nO ≤ h'.nO
  refs : ∀ k, k < h.nO → (h'.objs k).refs = (h.objs k).refs
  spec : ∀ i, i < h.nS → (h'.singles i).spec = (h.singles i).spec

theorem Keep.refl (h : Heap σ) : Keep h h := ⟨le_rfl, le_rfl, fun _ _ => rfl, fun _ _ => rfl⟩

theorem Keep.trans {a b c : Heap σ} (h1 : Keep a b) (h2 : Keep b c) : Keep a c :=
  ⟨h1.nS.trans h2.nS, h1.nO.trans h2.nO,
    fun k hk => (h2.refs k (lt_of_lt_of_le hk h1.nO)).trans (h1.refs k hk),
    fun i hi => (h2.spec i (lt_of_lt_of_le hi h1.nS)).trans (h1.spec i hi)⟩

theorem frame_setAll (h : Heap σ) (r : ℕ) (f : Single σ → Single σ) : Frame (fun k => k = r) h (setAll h r f) := by
  refine ⟨le_rfl, le_rfl, ?_, ?_, ?_, fun k h1 h2 => absurd h2 (by simp [setAll]; omega)⟩
  · intro k _ hk; simp [setAll, hk]
  · intro i _ hi; simp [setAll, hi r rfl]
  · intro k _ i hi
    left
    by_cases hk : k = r
    · subst hk; simpa [setAll] using hi
    · simpa [setAll, hk] using hi

theorem keep_setAll (h : Heap σ) (r : ℕ) (f : Single σ → Single σ) (hf : ∀ s, (f s).spec = s.spec) :
    Keep h (setAll h r f) := by
  refine ⟨le_rfl, le_rfl, ?_, ?_⟩
  · intro k _
    by_cases hk : k = r
    · subst hk; simp [setAll]
    · simp [setAll, hk]
  · intro i _
    by_cases hi : i ∈ (h.objs r).refs
    · simp [setAll, hi, hf]
    · simp [setAll, hi]

/-- Both, for one parameter object that exists. -/
def FK (r : ℕ) (h h' : Heap σ) : Prop := Frame (fun k => k = r) h h' ∧ Keep h h' ∧ h'.nS = h.nS ∧ h'.nO = h.nO

theorem FK.refl (r : ℕ) (h : Heap σ) : FK r h h := ⟨Frame.refl _ h, Keep.refl h, rfl, rfl⟩

theorem FK.trans {r : ℕ} {a b c : Heap σ} (hr : r < a.nO) (h1 : FK r a b) (h2 : FK r b c) : FK r a c :=
  ⟨h1.1.trans (by rintro k rfl; exact hr) (fun k hk => .inl hk) h2.1, h1.2.1.trans h2.2.1, by rw [h2.2.2.1, h1.2.2.1],
    by rw [h2.2.2.2, h1.2.2.2]⟩

theorem fk_setAll (h : Heap σ) (r : ℕ) (f : Single σ → Single σ) (hf : ∀ s, (f s).spec = s.spec) :
    FK r h (setAll h r f) := ⟨frame_setAll h r f, keep_setAll h r f hf, rfl, rfl⟩

theorem fk_setTags (h : Heap σ) (r : ℕ) (hr : r < h.nO) : FK r h (setTags h r) := by
  have a : ∀ h : Heap σ, FK r h (noForce h r) := fun h => fk_setAll h r _ fun _ => rfl
  have b : ∀ h : Heap σ, FK r h (noStress h r) := fun h => fk_setAll h r _ fun _ => rfl
  have c : ∀ h : Heap σ, FK r h (noSpins h r) := fun h => fk_setAll h r _ fun _ => rfl
  unfold setTags
  cases (common h r).dtype
  · exact FK.refl r h
  · exact (b h).trans hr (c _)
  · exact c h
  · exact (b h).trans hr (c _)
  · exact ((a h).trans hr (b _)).trans hr (c _)

theorem fk_disable (h : Heap σ) (r : ℕ) (hr : r < h.nO) (f s : Bool) : FK r h (disableFlags h r f s) := by
  have a : ∀ h : Heap σ, FK r h (noForce h r) := fun h => fk_setAll h r _ fun _ => rfl
  have b : ∀ h : Heap σ, FK r h (noStress h r) := fun h => fk_setAll h r _ fun _ => rfl
  cases f <;> cases s <;> simp only [disableFlags, if_true, if_false, Bool.true_eq_false]
  · exact ((a h).trans hr (b _)).trans hr (b _)
  · exact (a h).trans hr (b _)
  · exact b h
  · exact FK.refl r h

theorem fk_prepare (h : Heap σ) (r : ℕ) (hr : r < h.nO) (src : Source S) : FK r h (prepare h r src) := by
  have b : ∀ h : Heap σ, FK r h (noStress h r) := fun h => fk_setAll h r _ fun _ => rfl
  cases src with
  | files t s =>
    exact (fk_setAll h r (fun s => { s with dtype := t }) fun _ => rfl).trans hr (fk_setTags _ r hr)
  | structures f s f' s' x =>
    have h1 := fk_disable h r hr f s
    exact h1.trans hr (fk_disable _ r (by rw [h1.2.2.2]; exact hr) f' s')
  | displacements ok s =>
    cases ok
    · exact b h
    · have h1 := (b h).trans hr (fk_disable _ r (by exact hr) true false)
      exact h1.trans hr (fk_disable _ r (by rw [h1.2.2.2]; exact hr) true false)

theorem alloc_singles (h : Heap σ) (l : List (Single σ)) (i : ℕ) (hi : i < h.nS) :
    (alloc h l).1.singles i = h.singles i := by
  simp [alloc, show ¬ h.nS ≤ i by omega]

theorem mem_alloc (h : Heap σ) (l : List (Single σ)) (i : ℕ) (hi : i ∈ (alloc h l).2) :
    h.nS ≤ i ∧ i < (alloc h l).1.nS := by
  simp only [alloc, List.mem_map, List.mem_range] at hi ⊢
  obtain ⟨a, ha, rfl⟩ := hi
  omega

theorem construct_frame (ext : Ext σ D S F E) (h : Heap σ) (l : List (Single σ)) :
    Frame (fun _ => False) h (construct ext (alloc h l).1 (alloc h l).2).1 ∧
    Keep h (construct ext (alloc h l).1 (alloc h l).2).1 ∧
    ∀ r, (construct ext (alloc h l).1 (alloc h l).2).2 = .ok r →
      r = h.nO ∧ r < (construct ext (alloc h l).1 (alloc h l).2).1.nO := by
  have fa : Frame (fun _ => False) h (alloc h l).1 ∧ Keep h (alloc h l).1 := by
    refine ⟨⟨by simp [alloc], le_rfl, fun _ _ _ => rfl, fun i hi _ => alloc_singles h l i hi, fun k _ i hi => .inl hi,
      fun k h1 h2 => absurd h2 (by simp [alloc]; omega)⟩, ⟨by simp [alloc], le_rfl, fun _ _ => rfl, fun i hi => ?_⟩⟩
    rw [alloc_singles h l i hi]
  have hm := mem_alloc h l
  generalize hrefs : (alloc h l).2 = refs at hm ⊢
  cases refs with
  | nil => exact ⟨fa.1, fa.2, by intro r hr; cases hr⟩
  | cons i rest =>
    simp only [construct]
    by_cases hc : check ext ((i :: rest).map (alloc h l).1.singles) = false
    · rw [if_pos hc]; exact ⟨fa.1, fa.2, by intro r hr; cases hr⟩
    · rw [if_neg hc]
      have hno : (alloc h l).1.nO = h.nO := rfl
      generalize hb : ({ (alloc h l).1 with
          objs := fun k => if k = (alloc h l).1.nO then ⟨i :: rest, mergeCommon ext ((alloc h l).1.singles i) ((i :: rest).map (alloc h l).1.singles)⟩ else (alloc h l).1.objs k
          nO := (alloc h l).1.nO + 1 } : Heap σ) = b
      have hbO : b.nO = h.nO + 1 := by rw [← hb]; rfl
      have hbS : b.nS = (alloc h l).1.nS := by rw [← hb]
      have hobj : ∀ k, k ≠ h.nO → b.objs k = h.objs k := by
        intro k hk; rw [← hb]; simp only [hno, if_neg hk]; rfl
      have hobj' : (b.objs h.nO).refs = i :: rest := by rw [← hb]; simp [hno]
      have hs : ∀ j, j < h.nS → b.singles j = h.singles j := by
        intro j hj; rw [← hb]; exact alloc_singles h l j hj
      have f1 : Frame (fun _ => False) h b := by
        refine ⟨by rw [hbS]; exact fa.1.nS, by omega, fun k hk _ => hobj k (by omega), fun j hj _ => hs j hj, ?_, ?_⟩
        · intro k hk j hj
          left; rw [hobj k (by omega)] at hj; exact hj
        · intro k h1 h2 j hj
          have : k = h.nO := by omega
          subst this
          rw [hobj'] at hj
          rw [hbS]
          exact hm j hj
      have k1 : Keep h b := ⟨f1.nS, f1.nO, fun k hk => by rw [hobj k (by omega)], fun j hj => by rw [hs j hj]⟩
      have ft := fk_setTags b h.nO (by omega)
      rw [hno]
      refine ⟨f1.trans (by intro k hk; exact hk.elim) (fun k hk => .inr (by subst hk; omega)) ft.1, k1.trans ft.2.1, ?_⟩
      intro r hr
      simp only [Except.ok.injEq] at hr
      rw [ft.2.2.2]
      omega

theorem appendPart_frame (ext : Ext σ D S F E) (h : Heap σ) (r : ℕ) (hr : r < h.nO) (s : Single σ) :
    Frame (fun k => k = r) h (appendPart ext h r s).1 := by
  have hm := mem_alloc h [s]
  unfold appendPart
  dsimp only
  generalize hb : ({ (alloc h [s]).1 with
    objs := fun k => if k = r then ⟨(h.objs r).refs ++ (alloc h [s]).2, mergeCommon ext ((((h.objs r).refs ++ (alloc h [s]).2).map (alloc h [s]).1.singles).headD s) (((h.objs r).refs ++ (alloc h [s]).2).map (alloc h [s]).1.singles)⟩ else (alloc h [s]).1.objs k } : Heap σ) = b
  have f1 : Frame (fun k => k = r) h b := by
    rw [← hb]
    refine ⟨by simp [alloc], le_rfl, ?_, ?_, ?_, fun k h1 h2 => absurd h2 (by simp [alloc]; omega)⟩
    · intro k _ hk; simp only [if_neg hk]; rfl
    · intro i hi _; exact alloc_singles h [s] i hi
    · intro k _ i hi
      by_cases hk : k = r
      · subst hk
        simp only [if_true, List.mem_append] at hi
        rcases hi with hi | hi
        · exact .inl hi
        · exact .inr (hm i hi)
      · simp only [if_neg hk] at hi
        exact .inl hi
  have hbO : b.nO = h.nO := by rw [← hb]; rfl
  by_cases hc : check ext (((h.objs r).refs ++ (alloc h [s]).2).map (alloc h [s]).1.singles) = false
  · rw [if_pos hc]; exact f1
  · rw [if_neg hc]
    exact f1.trans (by rintro k rfl; exact hr) (fun k hk => .inl hk) (fk_setTags b r (by omega)).1

/-! ## Calls and frames -/

theorem estimate_uses (ext : Ext σ D S F E) (st : State σ D E) (k : ℕ) :
    Uses (estimate ext st).1.o k ↔ Uses st.o k := by
  have h := estimate_keeps ext st
  have hm := congrArg (Option.map fun (x : Fit × List (List ℚ) × ℕ) => x.2.2) h.2.2.2.2
  simp only [Option.map_map, Function.comp_def] at hm
  unfold Uses
  rw [h.2.1]
  refine or_congr Iff.rfl ?_
  constructor
  · rintro ⟨m, h1, rfl⟩
    rw [h1] at hm
    cases h2 : st.o.model with
    | none => rw [h2] at hm; cases hm
    | some m' => rw [h2] at hm; exact ⟨m', rfl, by simpa using hm.symm⟩
  · rintro ⟨m, h1, rfl⟩
    rw [h1] at hm
    cases h2 : (estimate ext st).1.o.model with
    | none => rw [h2] at hm; cases hm
    | some m' => rw [h2] at hm; exact ⟨m', rfl, by simpa using hm⟩

theorem step_frame (ext : Ext σ D S F E) (st : State σ D E) (c : Call σ S F) (hc : OwnParams c)
    (hr : ∀ k, st.o.params = some k → k < st.h.nO) :
    Frame (fun k => st.o.params = some k) st.h (step ext st c).1.h ∧
    ∀ k, Uses (step ext st c).1.o k → Uses st.o k ∨ (st.h.nO ≤ k ∧ k < (step ext st c).1.h.nO) := by
  have weak : ∀ {h' : Heap σ}, Frame (fun _ => False) st.h h' → Frame (fun k => st.o.params = some k) st.h h' :=
    fun f => (Frame.refl (fun k => st.o.params = some k) st.h).trans hr (fun k hk => hk.elim) f
  have at' : ∀ {r : ℕ} {h' : Heap σ}, st.o.params = some r → Frame (fun k => k = r) st.h h' →
      Frame (fun k => st.o.params = some k) st.h h' :=
    fun hp f => (Frame.refl (fun k => st.o.params = some k) st.h).trans hr (fun k hk => .inl (by rw [hp, hk])) f
  have rfl' : Frame (fun k => st.o.params = some k) st.h st.h := Frame.refl _ _
  cases c with
  | setParams l =>
    have hf := construct_frame ext st.h l
    simp only [step, setParams]
    rcases hcons : construct ext (alloc st.h l).1 (alloc st.h l).2 with ⟨h', r⟩
    rw [hcons] at hf
    cases r with
    | error e => exact ⟨weak hf.1, fun k hk => .inl hk⟩
    | ok r =>
      refine ⟨weak hf.1, ?_⟩
      rintro k (hk | hk)
      · cases hk
        have := hf.2.2 r rfl
        right; exact ⟨this.1.ge, this.2⟩
      · exact .inl (.inr hk)
  | setShared l => exact hc.elim
  | paramFile l s =>
    have hf := construct_frame ext st.h l
    rcases paramFile_cases ext st l s with ⟨h', r, d, hcons, hl, h⟩ | ⟨e, h⟩
    · rw [hcons] at hf
      rw [step, h]
      refine ⟨weak hf.1, ?_⟩
      rintro k (hk | hk)
      · cases hk
        have := hf.2.2 r rfl
        right; exact ⟨this.1.ge, this.2⟩
      · exact .inl (.inr hk)
    · rw [step, h]
      exact ⟨weak hf.1, fun k hk => .inl hk⟩
  | append s =>
    simp only [step, append]
    cases hp : st.o.params with
    | none => exact ⟨Frame.refl _ _, fun k hk => .inl hk⟩
    | some r =>
      have := at' hp (appendPart_frame ext st.h r (hr r hp) s)
      rw [hp] at this
      exact ⟨this, fun k hk => .inl hk⟩
  | setData src =>
    rcases setData_cases ext st src with ⟨r', d, hp, hv, hl, h⟩ | ⟨e, h', h, hh⟩
    · rw [step, h]
      exact ⟨at' hp (fk_prepare st.h r' (hr r' hp) src).1, fun k hk => .inl hk⟩
    · rw [step, h]
      refine ⟨?_, fun k hk => .inl hk⟩
      rcases hh with ⟨hn, rfl, -⟩ | ⟨r', hp, rfl, -⟩
      · exact rfl'
      · exact at' hp (fk_prepare st.h r' (hr r' hp) src).1
  | fit m =>
    rcases fit_cases ext st m with ⟨r', tr, te, f, b, h1, h2, h3, h4, h5, h⟩ | ⟨hn, e', h⟩ <;> rw [step, h]
    · refine ⟨rfl', ?_⟩
      rintro k (hk | ⟨m', hm, rfl⟩)
      · exact .inl (.inl hk)
      · cases hm; exact .inl (.inl h1)
    · exact ⟨rfl', fun k hk => .inl hk⟩
  | run m =>
    rw [step, runFit_eq]
    rcases fit_cases ext st m with ⟨r', tr, te, f, b, h1, h2, h3, h4, h5, h⟩ | ⟨hn, e', h⟩
    · rw [h]
      have := estimate_keeps ext ⟨st.h, { st.o with model := some ⟨f, b, r', none, none⟩ }⟩
      dsimp only at this ⊢
      rw [this.1]
      refine ⟨rfl', ?_⟩
      intro k hk
      rw [estimate_uses] at hk
      rcases hk with hk | ⟨m', hm, rfl⟩
      · exact .inl (.inl hk)
      · cases hm; exact .inl (.inl h1)
    · rw [h]; exact ⟨rfl', fun k hk => .inl hk⟩
  | estimate =>
    rw [step, (estimate_keeps ext st).1]
    exact ⟨rfl', fun k hk => .inl ((estimate_uses ext st k).mp hk)⟩
  | curve =>
    rw [step, (curve_obj ext st).1]
    refine ⟨rfl', ?_⟩
    rintro k (hk | hk)
    · left; left; rw [← hk, (curve_obj ext st).2.1]
    · left; right; rw [(curve_obj ext st).2.2.2.2] at hk; exact hk
  | load p =>
    rcases load_cases ext st p with ⟨e, hr', h⟩ | ⟨f, x, h', hr', hcons, h⟩
    · rw [step, h]; exact ⟨rfl', fun k hk => .inl hk⟩
    · have hf := construct_frame ext st.h [f]
      rw [hcons] at hf
      rw [step, h]
      refine ⟨weak hf.1, ?_⟩
      have := hf.2.2 _ rfl
      rintro k (hk | ⟨m', hm, rfl⟩)
      · cases hk; exact .inr ⟨le_rfl, this.2⟩
      · cases hm; exact .inr ⟨le_rfl, this.2⟩

/-! ## Several objects -/

/-- Objects do not share parameters. -/
def Apart (p : Heap σ × (ℕ → Obj D E)) : Prop :=
  (∀ i k, Uses (p.2 i) k → k < p.1.nO ∧ ∀ a ∈ (p.1.objs k).refs, a < p.1.nS) ∧
  ∀ i j, i ≠ j → ∀ k k', Uses (p.2 i) k → Uses (p.2 j) k' → k ≠ k' ∧
    ∀ a ∈ (p.1.objs k).refs, a ∉ (p.1.objs k').refs

/-- A call of object `i` changes nothing that other objects use. -/
theorem apart_view (ext : Ext σ D S F E) (p : Heap σ × (ℕ → Obj D E)) (hp : Apart p) (i : ℕ) (c : Call σ S F)
    (hc : OwnParams c) (j : ℕ) (hj : j ≠ i) (k : ℕ) (hk : Uses (p.2 j) k) :
    (step ext ⟨p.1, p.2 i⟩ c).1.h.objs k = p.1.objs k ∧
    ∀ a ∈ (p.1.objs k).refs, (step ext ⟨p.1, p.2 i⟩ c).1.h.singles a = p.1.singles a := by
  have hf := (step_frame ext ⟨p.1, p.2 i⟩ c hc fun k hk => (hp.1 i k (.inl hk)).1).1
  refine ⟨hf.objs k (hp.1 j k hk).1 ?_, ?_⟩
  · intro hik
    exact (hp.2 i j hj.symm k k (.inl hik) hk).1 rfl
  · intro a ha
    refine hf.singles a ((hp.1 j k hk).2 a ha) ?_
    intro k' hk' hmem
    exact (hp.2 i j hj.symm k' k (.inl hk') hk).2 a hmem ha

theorem apart_step (ext : Ext σ D S F E) (p : Heap σ × (ℕ → Obj D E)) (hp : Apart p) (c : ℕ × Call σ S F)
    (hc : OwnParams c.2) :
    Apart ((step ext ⟨p.1, p.2 c.1⟩ c.2).1.h, fun j => if j = c.1 then (step ext ⟨p.1, p.2 c.1⟩ c.2).1.o else p.2 j) := by
  obtain ⟨i, c⟩ := c
  obtain ⟨hf, hu⟩ := step_frame ext ⟨p.1, p.2 i⟩ c hc fun k hk => (hp.1 i k (.inl hk)).1
  have hv := apart_view ext p hp i c hc
  dsimp only at hf hu hv ⊢
  generalize (step ext ⟨p.1, p.2 i⟩ c).1 = s at hf hu hv
  -- what object `j` uses afterwards
  have own : ∀ k, Uses s.o k → (Uses (p.2 i) k ∧ ∀ a ∈ (s.h.objs k).refs, a ∈ (p.1.objs k).refs ∨ (p.1.nS ≤ a ∧ a < s.h.nS)) ∨
      (p.1.nO ≤ k ∧ k < s.h.nO ∧ ∀ a ∈ (s.h.objs k).refs, p.1.nS ≤ a ∧ a < s.h.nS) := by
    intro k hk
    rcases hu k hk with h | h
    · exact .inl ⟨h, fun a ha => hf.old k (hp.1 i k h).1 a ha⟩
    · exact .inr ⟨h.1, h.2, fun a ha => hf.new k h.1 h.2 a ha⟩
  have disj : ∀ j, j ≠ i → ∀ k k', Uses s.o k → Uses (p.2 j) k' → k ≠ k' ∧ ∀ a ∈ (s.h.objs k).refs, a ∉ (s.h.objs k').refs := by
    intro j hj k k' hk hk'
    have hk'1 := hp.1 j k' hk'
    rw [(hv j hj k' hk').1]
    rcases own k hk with ⟨h1, h2⟩ | ⟨h1, h2, h3⟩
    · have := hp.2 i j hj.symm k k' h1 hk'
      refine ⟨this.1, ?_⟩
      intro a ha hmem
      rcases h2 a ha with h | h
      · exact this.2 a h hmem
      · have := hk'1.2 a hmem
        omega
    · refine ⟨by omega, ?_⟩
      intro a ha hmem
      have := h3 a ha
      have := hk'1.2 a hmem
      omega
  constructor
  · intro j k hk
    by_cases hj : j = i
    · subst hj
      simp only [if_true] at hk
      rcases own k hk with ⟨h1, h2⟩ | ⟨h1, h2, h3⟩
      · refine ⟨lt_of_lt_of_le (hp.1 j k h1).1 hf.nO, ?_⟩
        intro a ha
        rcases h2 a ha with h | h
        · exact lt_of_lt_of_le ((hp.1 j k h1).2 a h) hf.nS
        · exact h.2
      · exact ⟨h2, fun a ha => (h3 a ha).2⟩
    · simp only [if_neg hj] at hk
      refine ⟨lt_of_lt_of_le (hp.1 j k hk).1 hf.nO, ?_⟩
      dsimp only
      rw [(hv j hj k hk).1]
      exact fun a ha => lt_of_lt_of_le ((hp.1 j k hk).2 a ha) hf.nS
  · intro j j' hjj k k' hk hk'
    dsimp only at hk hk' ⊢
    by_cases hj : j = i
    · subst hj
      have hj' : j' ≠ j := hjj.symm
      rw [if_pos rfl] at hk
      rw [if_neg hj'] at hk'
      exact disj j' hj' k k' hk hk'
    · rw [if_neg hj] at hk
      by_cases hj' : j' = i
      · subst hj'
        rw [if_pos rfl] at hk'
        have := disj j hj k' k hk' hk
        exact ⟨this.1.symm, fun a ha hmem => this.2 a hmem ha⟩
      · rw [if_neg hj'] at hk'
        rw [(hv j hj k hk).1, (hv j' hj' k' hk').1]
        exact hp.2 j j' hjj k k' hk hk'

theorem apart_exec (ext : Ext σ D S F E) (p : Heap σ × (ℕ → Obj D E)) (hp : Apart p) (cs : List (ℕ × Call σ S F))
    (hcs : ∀ c ∈ cs, OwnParams c.2) : Apart (execMany ext p cs) := by
  induction cs generalizing p with
  | nil => exact hp
  | cons c cs ih =>
    exact ih _ (apart_step ext p hp c (hcs c (by simp))) fun c' hc' => hcs c' (by simp [hc'])

theorem apart_new (h : Heap σ) : Apart (h, fun _ => (Obj.new : Obj D E)) := by
  refine ⟨?_, ?_⟩
  · rintro i k (hk | ⟨m, hm, -⟩)
    · cases hk
    · cases hm
  · rintro i j - k k' (hk | ⟨m, hm, -⟩)
    · cases hk
    · cases hm

/-- C80 (several objects).  In a process with any number of objects, after any interleaving of their calls with parameters
of their own, a call of one object does not change what any other object uses: its parameters and the parameters of its
potential are the same before and after. -/
theorem C80_isolated (ext : Ext σ D S F E) (h : Heap σ) (cs : List (ℕ × Call σ S F)) (hcs : ∀ c ∈ cs, OwnParams c.2)
    (i : ℕ) (c : Call σ S F) (hc : OwnParams c) (j : ℕ) (hj : j ≠ i) (k : ℕ)
    (hk : Uses ((execMany ext (h, fun _ => Obj.new) cs).2 j) k) :
    view (execMany ext (h, fun _ => Obj.new) (cs ++ [(i, c)])).1 k =
      view (execMany ext (h, fun _ => Obj.new) cs).1 k := by
  have hp := apart_exec ext _ (apart_new h) cs hcs
  have he : (execMany ext (h, fun _ => Obj.new) (cs ++ [(i, c)])).1 =
      (step ext ⟨(execMany ext (h, fun _ => Obj.new) cs).1, (execMany ext (h, fun _ => Obj.new) cs).2 i⟩ c).1.h := by
    unfold execMany; rw [List.foldl_append]; rfl
  rw [he]
  obtain ⟨h1, h2⟩ := apart_view ext _ hp i c hc j hj k hk
  have hsing : (((execMany ext (h, fun _ => Obj.new) cs).1.objs k).refs.map
      (step ext ⟨(execMany ext (h, fun _ => Obj.new) cs).1, (execMany ext (h, fun _ => Obj.new) cs).2 i⟩ c).1.h.singles) =
      ((execMany ext (h, fun _ => Obj.new) cs).1.objs k).refs.map (execMany ext (h, fun _ => Obj.new) cs).1.singles :=
    List.map_congr_left fun a ha => h2 a ha
  unfold view common
  rw [h1, hsing]
  congr 1
  rcases hrefs : ((execMany ext (h, fun _ => Obj.new) cs).1.objs k).refs with _ | ⟨a, _ | ⟨b, t⟩⟩
  · rfl
  · exact h2 a (by rw [hrefs]; simp)
  · rfl

/-! ## Saved potentials -/

theorem step_keep (ext : Ext σ D S F E) (st : State σ D E) (c : Call σ S F) (hc : KeepsPotential c)
    (hr : ∀ k, st.o.params = some k → k < st.h.nO) :
    Keep st.h (step ext st c).1.h ∧
    (step ext st c).1.o.model.map (fun m => (m.fit, m.scaled, m.params)) =
      st.o.model.map (fun m => (m.fit, m.scaled, m.params)) := by
  cases c with
  | setParams l =>
    have hf := construct_frame ext st.h l
    refine ⟨?_, by rw [step, (setParams_model _ _ _ _).1]⟩
    simp only [step, setParams]
    rcases hcons : construct ext (alloc st.h l).1 (alloc st.h l).2 with ⟨h', r⟩
    rw [hcons] at hf
    cases r <;> exact hf.2.1
  | setShared l => exact hc.elim
  | paramFile l s =>
    have hf := construct_frame ext st.h l
    refine ⟨?_, by rw [step, paramFile_model]⟩
    rcases paramFile_cases ext st l s with ⟨h', r, d, hcons, hl, h⟩ | ⟨e, h⟩
    · rw [hcons] at hf
      rw [step, h]; exact hf.2.1
    · rw [step, h]; exact hf.2.1
  | append s => exact hc.elim
  | setData src =>
    refine ⟨?_, by rw [step, (setData_model _ _ _).1]⟩
    rcases setData_cases ext st src with ⟨r', d, hp, hv, hl, h⟩ | ⟨e, h', h, hh⟩
    · rw [step, h]; exact (fk_prepare st.h r' (hr r' hp) src).2.1
    · rw [step, h]
      rcases hh with ⟨hn, rfl, -⟩ | ⟨r', hp, rfl, -⟩
      · exact Keep.refl _
      · exact (fk_prepare st.h r' (hr r' hp) src).2.1
  | fit m => exact hc.elim
  | run m => exact hc.elim
  | load p => exact hc.elim
  | estimate => rw [step, (estimate_keeps ext st).1]; exact ⟨Keep.refl _, (estimate_keeps ext st).2.2.2.2⟩
  | curve => rw [step, (curve_obj ext st).1, (curve_obj ext st).2.2.2.2]; exact ⟨Keep.refl _, rfl⟩

theorem keepsPotential_own (c : Call σ S F) (hc : KeepsPotential c) : OwnParams c := by
  cases c <;> simp_all [KeepsPotential, OwnParams]

/-- Everything that an object uses exists. -/
def Live (st : State σ D E) : Prop := ∀ k, Uses st.o k → k < st.h.nO ∧ ∀ a ∈ (st.h.objs k).refs, a < st.h.nS

theorem live_step (ext : Ext σ D S F E) (st : State σ D E) (hl : Live st) (c : Call σ S F) (hc : OwnParams c) :
    Live (step ext st c).1 := by
  obtain ⟨hf, hu⟩ := step_frame ext st c hc fun k hk => (hl k (.inl hk)).1
  intro k hk
  rcases hu k hk with h | h
  · refine ⟨lt_of_lt_of_le (hl k h).1 hf.nO, ?_⟩
    intro a ha
    rcases hf.old k (hl k h).1 a ha with h' | h'
    · exact lt_of_lt_of_le ((hl k h).2 a h') hf.nS
    · exact h'.2
  · exact ⟨h.2, fun a ha => (hf.new k h.1 h.2 a ha).2⟩

theorem live_exec (ext : Ext σ D S F E) (st : State σ D E) (hl : Live st) (cs : List (Call σ S F))
    (hcs : ∀ c ∈ cs, OwnParams c) : Live (exec ext st cs) := by
  induction cs generalizing st with
  | nil => exact hl
  | cons c cs ih => exact ih _ (live_step ext st hl c (hcs c (by simp))) fun c' hc' => hcs c' (by simp [hc'])

theorem live_new (h : Heap σ) : Live (⟨h, Obj.new⟩ : State σ D E) := by
  rintro k (hk | ⟨m, hm, -⟩)
  · cases hk
  · cases hm

theorem exec_keep (ext : Ext σ D S F E) (st : State σ D E) (hl : Live st) (cs : List (Call σ S F))
    (hcs : ∀ c ∈ cs, KeepsPotential c) :
    Keep st.h (exec ext st cs).h ∧
    (exec ext st cs).o.model.map (fun m => (m.fit, m.scaled, m.params)) =
      st.o.model.map (fun m => (m.fit, m.scaled, m.params)) := by
  induction cs generalizing st with
  | nil => exact ⟨Keep.refl _, rfl⟩
  | cons c cs ih =>
    have hc := hcs c (by simp)
    have h1 := step_keep ext st c hc fun k hk => (hl k (.inl hk)).1
    have h2 := ih _ (live_step ext st hl c (keepsPotential_own c hc)) fun c' hc' => hcs c' (by simp [hc'])
    rw [exec_cons]
    exact ⟨h1.1.trans h2.1, h2.2.trans h1.2⟩

theorem saveMlps_spec (v : View σ) (f : Fit) (b : List (List ℚ)) (hb : IsScaled f v.parts.length b)
    (hcum : f.cumulative = none ↔ v.parts.length = 1) :
    ∃ files, saveMlps v f = .ok files ∧ files.map (fun x => x.1) = v.parts ∧
      files.map (fun x => List.zipWith (fun a c => a / c) x.2.1 x.2.2) = b := by
  rcases v with ⟨co, ps⟩
  by_cases h1 : ps.length = 1
  · obtain ⟨s, rfl⟩ := List.length_eq_one_iff.mp h1
    have hc := hcum.mpr h1
    unfold IsScaled at hb
    rw [hc] at hb
    exact ⟨[(s, f.coeffs, f.scales)], rfl, rfl, hb.symm⟩
  · cases hc : f.cumulative with
    | none => exact absurd (hcum.mp hc) h1
    | some c =>
      unfold IsScaled at hb
      rw [hc] at hb
      dsimp only at hb hcum
      have hsave : saveMlps ⟨co, ps⟩ f = (List.range ps.length).mapM fun (i : ℕ) =>
          match ps[i]?, (if i = 0 then some 0 else c[i - 1]?), c[i]? with
          | some s, some b, some e => .ok (s, slice f.coeffs b e, slice f.scales b e)
          | _, _, _ => .error .indexError := by
        unfold saveMlps
        rcases ps with _ | ⟨a, _ | ⟨a', t⟩⟩
        · dsimp only; rw [hc]; rfl
        · exact absurd rfl h1
        · dsimp only; rw [hc]; rfl
      cases hx : saveMlps ⟨co, ps⟩ f with
      | error e =>
        exfalso
        have : saveMlps ⟨co, ps⟩ f = .ok ((List.range ps.length).map fun (i : ℕ) =>
            (((ps[i]?).getD co), slice f.coeffs (if i = 0 then 0 else (c[i - 1]?).getD 0) ((c[i]?).getD 0),
              slice f.scales (if i = 0 then 0 else (c[i - 1]?).getD 0) ((c[i]?).getD 0))) := by
          rw [hsave, mapM_range_ok]
          refine ⟨by simp, ?_⟩
          intro i hi
          obtain ⟨lo, hi', g1, g2, g3⟩ := hb.2 i hi
          rw [List.getElem?_map, List.getElem?_range hi, Option.map_some, g2]
          refine ⟨_, ?_, rfl⟩
          rw [List.getElem?_eq_getElem hi]
          rcases g1 with ⟨rfl, rfl⟩ | ⟨g0, g1⟩
          · simp
          · rw [g1]; simp [show i ≠ 0 by omega]
        rw [hx] at this; cases this
      | ok files =>
        refine ⟨files, rfl, ?_, ?_⟩
        · rw [hsave, mapM_range_ok] at hx
          apply List.ext_getElem?
          intro i
          by_cases hi : i < ps.length
          · obtain ⟨y, g1, g2⟩ := hx.2 i hi
            rw [List.getElem?_map, g2]
            rw [List.getElem?_eq_getElem hi] at g1 ⊢
            obtain ⟨lo, hi', q1, q2, q3⟩ := hb.2 i hi
            rw [q2] at g1
            rcases q1 with ⟨rfl, rfl⟩ | ⟨q0, q1⟩
            · simp at g1; rw [← g1]; rfl
            · rw [q1] at g1; simp [show i ≠ 0 by omega] at g1; rw [← g1]; rfl
          · rw [List.getElem?_eq_none (by simp [hx.1]; omega), List.getElem?_eq_none (by dsimp only; omega)]
        · rw [hsave, mapM_range_ok] at hx
          apply List.ext_getElem?
          intro i
          by_cases hi : i < ps.length
          · obtain ⟨y, g1, g2⟩ := hx.2 i hi
            rw [List.getElem?_map, g2]
            rw [List.getElem?_eq_getElem hi] at g1
            obtain ⟨lo, hi', q1, q2, q3⟩ := hb.2 i hi
            rw [q2] at g1
            rw [q3]
            rcases q1 with ⟨rfl, rfl⟩ | ⟨q0, q1⟩
            · simp at g1; rw [← g1]; rfl
            · rw [q1] at g1; simp [show i ≠ 0 by omega] at g1; rw [← g1]; rfl
          · rw [List.getElem?_eq_none (by simp [hx.1]; omega), List.getElem?_eq_none (by omega)]

/-- C80 (saved potentials).  If a fit succeeds, and whatever is then done except another fit, loading or appending
components — new parameters may be set and new data, calls may fail — the files that `save_mlp` writes hold the
components that the fit used, and their coefficients divided by their scales are the reported coefficients.  (Regressions
report the numbers of features of the components exactly for hybrid models.) -/
theorem C80_saved (ext : Ext σ D S F E) (h : Heap σ) (pre post : List (Call σ S F)) (m : Method)
    (hcum : ∀ m v tr te f, ext.regress m v tr te = .ok f → (f.cumulative = none ↔ v.parts.length = 1))
    (hpre : ∀ c ∈ pre, OwnParams c) (hpost : ∀ c ∈ post, KeepsPotential c)
    (hfit : (step ext (exec ext ⟨h, Obj.new⟩ pre) (.fit m)).2 = .ok ()) :
    ∃ r tr te f files b, (exec ext ⟨h, Obj.new⟩ pre).o.params = some r ∧
      (exec ext ⟨h, Obj.new⟩ pre).o.train = some tr ∧ (exec ext ⟨h, Obj.new⟩ pre).o.test = some te ∧
      ext.regress m (view (exec ext ⟨h, Obj.new⟩ pre).h r) tr te = .ok f ∧
      IsScaled f (view (exec ext ⟨h, Obj.new⟩ pre).h r).parts.length b ∧
      saveMlp (exec ext ⟨h, Obj.new⟩ (pre ++ .fit m :: post)) = .ok files ∧
      files.map (fun x => x.1.spec) = (view (exec ext ⟨h, Obj.new⟩ pre).h r).parts.map (fun p => p.spec) ∧
      files.map (fun x => List.zipWith (fun a c => a / c) x.2.1 x.2.2) = b ∧
      coeffs (exec ext ⟨h, Obj.new⟩ (pre ++ .fit m :: post)) = .ok b := by
  rw [exec_append, exec_cons]
  have hl := live_exec ext _ (live_new (D := D) (E := E) h) pre hpre
  generalize exec ext ⟨h, Obj.new⟩ pre = st at hl hfit ⊢
  change (fit ext st m).2 = _ at hfit
  rcases fit_cases ext st m with ⟨r, tr, te, f, b, h1, h2, h3, h4, h5, hf⟩ | ⟨hn, e', hf⟩
  · have hlr := hl r (.inl h1)
    have hl' : Live (step ext st (.fit m)).1 := live_step ext st hl _ trivial
    have hk := exec_keep ext _ hl' post hpost
    rw [step, hf] at hk ⊢
    generalize exec ext ⟨st.h, { st.o with model := some ⟨f, b, r, none, none⟩ }⟩ post = st' at hk ⊢
    obtain ⟨hkeep, hmod⟩ := hk
    cases hm : st'.o.model with
    | none => rw [hm] at hmod; cases hmod
    | some mm =>
      rw [hm] at hmod
      simp only [Option.map_some, Option.some.injEq, Prod.mk.injEq] at hmod
      obtain ⟨e1, e2, e3⟩ := hmod
      have hparts : (view st'.h r).parts.map (fun p => p.spec) = (view st.h r).parts.map (fun p => p.spec) := by
        simp only [view, List.map_map]
        rw [hkeep.refs r hlr.1]
        exact List.map_congr_left fun a ha => hkeep.spec a (hlr.2 a ha)
      have hlen : (view st'.h r).parts.length = (view st.h r).parts.length := by
        have := congrArg List.length hparts; simpa using this
      obtain ⟨files, g1, g2, g3⟩ := saveMlps_spec (view st'.h r) f b (by rw [hlen]; exact h5)
        (by rw [hlen]; exact hcum m _ tr te f h4)
      refine ⟨r, tr, te, f, files, b, h1, h2, h3, h4, h5, ?_, ?_, g3, ?_⟩
      · unfold saveMlp; rw [hm]; dsimp only; rw [e1, e3]; exact g1
      · rw [← hparts, ← g2, List.map_map]; rfl
      · unfold coeffs; rw [hm]; dsimp only; rw [e2]
  · rw [hf] at hfit; cases hfit

/-! ## What a user would also expect -/

/-- Components with forces and stresses. -/
def part (n : ℕ) : Single ℕ := ⟨n, true, true, .vasp, none⟩

/-- Functions for examples: data are numbers, a regression gives as many coefficients as there are features. -/
def demo : Ext ℕ ℕ ℕ ℕ ℕ where
  mergeSpec := List.sum
  consistent := fun l => l.all fun p => p.spec ≤ 5
  load := fun _ s => if s = 0 then .error .valueError else .ok (s, s + 1)
  regress := fun _ v _ _ => .ok ⟨List.replicate (v.parts.map fun p => p.spec).sum 6, List.replicate (v.parts.map fun p => p.spec).sum 2, if v.parts.length = 1 then none else some ((List.range v.parts.length).map fun (i : ℕ) => ((v.parts.take (i + 1)).map fun p => p.spec).sum)⟩
  errors := fun _ _ d => .ok d
  curve := fun _ _ _ => .ok []
  read := fun n => .ok (part n, List.replicate n 1)
  nfeat := id

/-- A heap with components 0, 1, 2, … of the caller. -/
def demoHeap : Heap ℕ := ⟨part, 3, fun _ => ⟨[], part 0⟩, 0⟩

/-- The hypotheses of `C80_saved` and `C80_fit` are met, also with two components, a failing call and new parameters. -/
example : (∀ m v tr te f, demo.regress m v tr te = .ok f → (f.cumulative = none ↔ v.parts.length = 1)) ∧
    (∀ c ∈ ([.setParams [part 1], .append (part 2), .setData (.files .vasp 4)] : List (Call ℕ ℕ ℕ)), OwnParams c) ∧
    (∀ c ∈ ([.setData (.files .vasp 0), .setParams [part 4], .estimate] : List (Call ℕ ℕ ℕ)), KeepsPotential c) ∧
    (step demo (exec demo ⟨demoHeap, Obj.new⟩ [.setParams [part 1], .append (part 2), .setData (.files .vasp 4)])
      (.fit .cg)).2 = .ok () ∧
    coeffs (exec demo ⟨demoHeap, Obj.new⟩ [.setParams [part 1], .append (part 2), .setData (.files .vasp 4), .fit .cg,
      .setData (.files .vasp 0), .setParams [part 4], .estimate]) = .ok [[3], [3, 3]] := by
  refine ⟨?_, by simp [OwnParams], by simp [KeepsPotential], by decide +kernel, by decide +kernel⟩
  intro m v tr te f h
  simp only [demo, Except.ok.injEq] at h
  rw [← h]
  by_cases hl : v.parts.length = 1 <;> simp [hl]

/-- The hypotheses of `C80_flags` and `C80_isolated` are met. -/
example : (exec demo ⟨demoHeap, Obj.new⟩ [.setParams [part 1]]).o.params = some 0 ∧
    (view (exec demo ⟨demoHeap, Obj.new⟩ [.setParams [part 1]]).h 0).common.stress = true ∧
    (∀ c ∈ ([.setData (.files .phono3py 4), .fit .cg] : List (Call ℕ ℕ ℕ)), SameParams c) ∧
    Uses ((execMany demo (demoHeap, fun _ => Obj.new) [(0, .setParams [part 1]), (1, .setParams [part 2])]).2 1) 1 := by
  refine ⟨by decide +kernel, by decide +kernel, by simp [SameParams], .inl (by decide +kernel)⟩

/-- **Violation** (flags): after data without forces, data with forces and stresses are used without them, since the
parameters keep the flags. -/
theorem C80_flags_violation : ∃ (ext : Ext ℕ ℕ ℕ ℕ ℕ) (h : Heap ℕ) (r : ℕ),
    let st := exec ext ⟨h, Obj.new⟩ [.setParams [part 1], .setData (.structures false false false false 4), .setData (.structures true true true true 5)]
    st.o.params = some r ∧ st.o.train = some 5 ∧ (view st.h r).common.force = false ∧
      (view st.h r).common.stress = false :=
  ⟨demo, demoHeap, 0, by decide +kernel⟩

/-- **Violation** (failed calls): a call that fails leaves the old data but switches stresses off. -/
theorem C80_failed_data_violation : ∃ (ext : Ext ℕ ℕ ℕ ℕ ℕ) (h : Heap ℕ) (r : ℕ),
    let st := exec ext ⟨h, Obj.new⟩ [.setParams [part 1], .setData (.structures true true true true 5)]
    let st' := step ext st (.setData (.displacements false 6))
    st.o.params = some r ∧ (view st.h r).common.stress = true ∧ st'.2 = .error .assertionError ∧
      st'.1.o.train = st.o.train ∧ (view st'.1.h r).common.stress = false :=
  ⟨demo, demoHeap, 0, by decide +kernel⟩

/-- **Violation** (shared components): two objects are given the same component; data without forces for the first
switch off the forces of the second. -/
theorem C80_shared_violation : ∃ (ext : Ext ℕ ℕ ℕ ℕ ℕ) (h : Heap ℕ) (r : ℕ),
    let p := execMany ext (h, fun _ => Obj.new) [(0, .setShared [1]), (1, .setShared [1])]
    let p' := execMany ext p [(0, .setData (.structures false false false false 4))]
    (p.2 1).params = some r ∧ (view p.1 r).common.force = true ∧ (view p'.1 r).common.force = false :=
  ⟨demo, demoHeap, 1, by decide +kernel⟩

/-- **Violation** (appending): a component that is refused stays in the model. -/
theorem C80_append_violation : ∃ (ext : Ext ℕ ℕ ℕ ℕ ℕ) (h : Heap ℕ) (r : ℕ),
    let st := exec ext ⟨h, Obj.new⟩ [.setParams [part 1]]
    let st' := step ext st (.append (part 9))
    st.o.params = some r ∧ st'.2 = .error .runtimeError ∧ (view st'.1.h r).parts.map (fun p => p.spec) = [1, 9] :=
  ⟨demo, demoHeap, 0, by decide +kernel⟩

/-- **Violation** (appending after a fit): the potential shares the parameters, so that it can no longer be saved. -/
theorem C80_append_fit_violation : ∃ (ext : Ext ℕ ℕ ℕ ℕ ℕ) (h : Heap ℕ),
    let st := exec ext ⟨h, Obj.new⟩ [.setParams [part 1], .setData (.files .vasp 4), .fit .sequential]
    let st' := step ext st (.append (part 2))
    (saveMlp st).toBool = true ∧ st'.2 = .ok () ∧ coeffs st'.1 = coeffs st ∧ (saveMlp st'.1).toBool = false :=
  ⟨demo, demoHeap, by decide +kernel⟩

/-- **Violation** (number of features): after new parameters were set the number of features is that of the old
potential. -/
theorem C80_features_violation : ∃ (ext : Ext ℕ ℕ ℕ ℕ ℕ) (h : Heap ℕ),
    let st := exec ext ⟨h, Obj.new⟩ [.setParams [part 1], .setData (.files .vasp 4), .fit .sequential, .setParams [part 3]]
    nFeatures ext ⟨st.h, { st.o with model := none }⟩ = .ok 3 ∧ nFeatures ext st = .ok 1 :=
  ⟨demo, demoHeap, by decide +kernel⟩

/-- **Violation** (messages): `save_errors` before `estimate_error` is meant to raise RuntimeError, but raises
AttributeError in every state without errors; `estimate_error` after `load_mlp` without data raises TypeError. -/
theorem C80_messages_violation (ext : Ext σ D S F E) (st : State σ D E) :
    saveErrors st ≠ .error .runtimeError ∧
    ((st.o.model = none ∨ ∃ m, st.o.model = some m ∧ m.errTrain = none) → saveErrors st = .error .attributeError) ∧
    (∀ p, st.o.train = none → (step ext st (.load p)).2 = .ok () →
      (step ext (step ext st (.load p)).1 .estimate).2 = .error .typeError) := by
  refine ⟨?_, ?_, ?_⟩
  · unfold saveErrors
    cases st.o.model with
    | none => simp
    | some m => cases h1 : m.errTrain <;> cases h2 : m.errTest <;> simp [h1, h2]
  · rintro (h | ⟨m, h, h1⟩)
    · unfold saveErrors; rw [h]
    · unfold saveErrors; rw [h]; dsimp only; rw [h1]
  · intro p htr hok
    rcases load_cases ext st p with ⟨e, hr, h⟩ | ⟨f, x, h', hr, -, h⟩
    · rw [step, h] at hok; cases hok
    · rw [step, step, h]
      unfold estimate
      dsimp only
      rw [htr]

theorem longestSpins_spec (l : List (Single σ)) :
    (longestSpins l = none ∧ ∀ p ∈ l, ∀ t, p.spins = some t → t = []) ∨
    ∃ t, longestSpins l = some t ∧ t ≠ [] ∧ (∃ p ∈ l, p.spins = some t) ∧ ∀ p ∈ l, ∀ u, p.spins = some u → u.length ≤ t.length := by
  let f := fun (acc : List Bool) (s : Single σ) => match s.spins with
    | none => acc
    | some t => if t.length > acc.length then t else acc
  have key : ∀ (l : List (Single σ)) (a : List Bool), a.length ≤ (l.foldl f a).length ∧
      (l.foldl f a = a ∨ ∃ p ∈ l, p.spins = some (l.foldl f a)) ∧
      ∀ p ∈ l, ∀ u, p.spins = some u → u.length ≤ (l.foldl f a).length := by
    intro l
    induction l with
    | nil => intro a; simp
    | cons s l ih =>
      intro a
      obtain ⟨h1, h2, h3⟩ := ih (f a s)
      have hs : a.length ≤ (f a s).length ∧ (f a s = a ∨ s.spins = some (f a s)) ∧ ∀ u, s.spins = some u → u.length ≤ (f a s).length := by
        cases e : s.spins with
        | none => simp [f, e]
        | some t =>
          by_cases hc : t.length > a.length
          · simp only [f, e, if_pos hc]
            exact ⟨hc.le, .inr trivial, fun u hu => by cases hu; exact le_rfl⟩
          · simp only [f, e, if_neg hc]
            exact ⟨le_rfl, .inl trivial, fun u hu => by cases hu; omega⟩
      refine ⟨hs.1.trans h1, ?_, ?_⟩
      · rw [List.foldl_cons]
        rcases h2 with h2 | ⟨p, hp, h2⟩
        · rw [h2]
          rcases hs.2.1 with h | h
          · exact .inl h
          · exact .inr ⟨s, List.mem_cons_self, h⟩
        · exact .inr ⟨p, List.mem_cons_of_mem _ hp, h2⟩
      · intro p hp u hu
        rw [List.foldl_cons]
        rcases List.mem_cons.1 hp with rfl | hp
        · exact (hs.2.2 u hu).trans h1
        · exact h3 p hp u hu
  obtain ⟨-, h2, h3⟩ := key l []
  have e : longestSpins l = if (l.foldl f []).length = 0 then none else some (l.foldl f []) := rfl
  rw [e]
  by_cases h0 : (l.foldl f []).length = 0
  · rw [if_pos h0]
    refine .inl ⟨rfl, fun p hp t ht => ?_⟩
    have := h3 p hp t ht
    exact List.length_eq_zero_iff.1 (by omega)
  · rw [if_neg h0]
    refine .inr ⟨_, rfl, fun h => h0 (by rw [h]; rfl), ?_, h3⟩
    rcases h2 with h2 | h2
    · rw [h2] at h0; exact absurd rfl h0
    · exact h2

/-- **C80** the spins of the common parameters of several components of data from VASP: the longest list of the components,
and none if no component has any. -/
theorem C80_spins (ext : Ext σ D S F E) (st : State σ D E) (s : Single σ) (l : List (Single σ)) (hl : l ≠ [])
    (hd : s.dtype = .vasp) (h : (step ext st (.setParams (s :: l))).2 = .ok ()) :
    ∃ r, (step ext st (.setParams (s :: l))).1.o.params = some r ∧
      (((view (step ext st (.setParams (s :: l))).1.h r).common.spins = none ∧ ∀ p ∈ s :: l, ∀ t, p.spins = some t → t = []) ∨
      ∃ t, (view (step ext st (.setParams (s :: l))).1.h r).common.spins = some t ∧ t ≠ [] ∧
        (∃ p ∈ s :: l, p.spins = some t) ∧ ∀ p ∈ s :: l, ∀ u, p.spins = some u → u.length ≤ t.length) := by
  obtain ⟨s2, l, rfl⟩ := List.exists_cons_of_ne_nil hl
  have hmap : (alloc st.h (s :: s2 :: l)).2.map (alloc st.h (s :: s2 :: l)).1.singles = s :: s2 :: l := by
    apply List.ext_getElem?
    intro i
    simp only [alloc, List.map_map, List.getElem?_map]
    by_cases hi : i < (s :: s2 :: l).length
    · rw [List.getElem?_range hi, List.getElem?_eq_getElem hi]
      simp only [Option.map_some, Function.comp, Nat.le_add_right, if_true, Nat.add_sub_cancel_left]
      rw [List.getElem?_eq_getElem hi, Option.getD_some]
    · rw [List.getElem?_eq_none (by simpa using hi), List.getElem?_eq_none (by simpa using hi)]
      rfl
  have hrefs : ∃ i j t, (alloc st.h (s :: s2 :: l)).2 = i :: j :: t := by
    refine ⟨_, _, _, by simp only [alloc, List.length_cons, List.range_succ_eq_map, List.map_cons]; rfl⟩
  obtain ⟨i, j, t, hr⟩ := hrefs
  have hi : (alloc st.h (s :: s2 :: l)).1.singles i = s := by
    rw [hr] at hmap
    simp only [List.map_cons, List.cons.injEq] at hmap
    exact hmap.1
  simp only [step, setParams] at h ⊢
  rw [hr] at hmap h ⊢
  simp only [construct] at h ⊢
  rw [hmap] at h ⊢
  by_cases hc : check ext (s :: s2 :: l) = false
  · rw [if_pos hc] at h
    cases h
  · rw [if_neg hc] at h ⊢
    dsimp only
    refine ⟨_, rfl, ?_⟩
    have ht : ∀ H : Heap σ, (H.objs (alloc st.h (s :: s2 :: l)).1.nO).refs = i :: j :: t →
        (H.objs (alloc st.h (s :: s2 :: l)).1.nO).own.dtype = .vasp → setTags H (alloc st.h (s :: s2 :: l)).1.nO = H := by
      intro H h1 h2
      unfold setTags common
      rw [h1]
      dsimp only
      rw [h2]
    rw [ht _ (by simp) (by simp [mergeCommon, hi, hd])]
    have : (view { (alloc st.h (s :: s2 :: l)).1 with
        objs := fun k => if k = (alloc st.h (s :: s2 :: l)).1.nO then ⟨i :: j :: t, mergeCommon ext
          ((alloc st.h (s :: s2 :: l)).1.singles i) (s :: s2 :: l)⟩ else (alloc st.h (s :: s2 :: l)).1.objs k
        nO := (alloc st.h (s :: s2 :: l)).1.nO + 1 } (alloc st.h (s :: s2 :: l)).1.nO).common.spins = longestSpins (s :: s2 :: l) := by
      simp [view, common, mergeCommon]
    rw [this]
    exact longestSpins_spec _

example : (step demo ⟨demoHeap, Obj.new⟩ (.setParams [part 1, { part 2 with spins := some [true] }])).2.toBool = true := by
  decide +kernel

theorem estimate_ok (ext : Ext σ D S F E) (st : State σ D E) (h : (estimate ext st).2 = .ok ()) :
    ∃ m tr te a b, st.o.model = some m ∧ st.o.train = some tr ∧ st.o.test = some te ∧
      ext.errors (view st.h m.params) m.scaled tr = .ok a ∧ ext.errors (view st.h m.params) m.scaled te = .ok b ∧
      saveErrors (estimate ext st).1 = .ok (a, b) := by
  unfold estimate at h ⊢
  cases hm : st.o.model with
  | none => rw [hm] at h; cases h
  | some m =>
    rw [hm] at h
    cases htr : st.o.train with
    | none => rw [htr] at h; cases h
    | some tr =>
      rw [htr] at h
      dsimp only at h ⊢
      cases ha : ext.errors (view st.h m.params) m.scaled tr with
      | error e => rw [ha] at h; cases h
      | ok a =>
        rw [ha] at h
        dsimp only at h ⊢
        cases hte : st.o.test with
        | none => rw [hte] at h; cases h
        | some te =>
          rw [hte] at h
          dsimp only at h ⊢
          cases hb : ext.errors (view st.h m.params) m.scaled te with
          | error e => rw [hb] at h; cases h
          | ok b => exact ⟨m, tr, te, a, b, rfl, rfl, rfl, ha, hb, rfl⟩

/-- C80: after errors were estimated, those that are saved are the errors of the coefficients that were developed, first for
the training data and then for the test data; the same after `run`, with the coefficients fitted in this call. -/
theorem C80_errors (ext : Ext σ D S F E) (st : State σ D E) :
    ((step ext st .estimate).2 = .ok () → ∃ v c tr te a b, coeffs st = .ok c ∧ st.o.train = some tr ∧ st.o.test = some te ∧
      ext.errors v c tr = .ok a ∧ ext.errors v c te = .ok b ∧ saveErrors (step ext st .estimate).1 = .ok (a, b)) ∧
    ∀ m, (step ext st (.run m)).2 = .ok () → ∃ r f c tr te a b, st.o.params = some r ∧ st.o.train = some tr ∧
      st.o.test = some te ∧ ext.regress m (view st.h r) tr te = .ok f ∧ IsScaled f (view st.h r).parts.length c ∧
      ext.errors (view st.h r) c tr = .ok a ∧ ext.errors (view st.h r) c te = .ok b ∧
      saveErrors (step ext st (.run m)).1 = .ok (a, b) := by
  constructor
  · intro h
    obtain ⟨m, tr, te, a, b, h1, h2, h3, h4, h5, h6⟩ := estimate_ok ext st h
    exact ⟨_, m.scaled, tr, te, a, b, by unfold coeffs; rw [h1], h2, h3, h4, h5, h6⟩
  · intro m h
    simp only [step, runFit] at h ⊢
    rcases fit_cases ext st m with ⟨r, tr, te, f, c, h1, h2, h3, h4, h5, hf⟩ | ⟨-, e, hf⟩
    · rw [hf] at h ⊢
      dsimp only at h ⊢
      obtain ⟨m', tr', te', a, b, g1, g2, g3, g4, g5, g6⟩ := estimate_ok ext _ h
      dsimp only at g1 g2 g3
      rw [h2] at g2
      rw [h3] at g3
      cases g1
      cases g2
      cases g3
      exact ⟨r, f, c, tr, te, a, b, h1, h2, h3, h4, h5, g4, g5, g6⟩
    · rw [hf] at h
      cases h

/-- C80: the number of features is the one of the regression after a fit, the one of the file after loading, and the sum
over the components without a potential. -/
theorem C80_features (ext : Ext σ D S F E) (st : State σ D E) :
    (∀ m, (step ext st (.fit m)).2 = .ok () → ∃ r tr te f, st.o.params = some r ∧ st.o.train = some tr ∧
      st.o.test = some te ∧ ext.regress m (view st.h r) tr te = .ok f ∧
      nFeatures ext (step ext st (.fit m)).1 = .ok f.coeffs.length) ∧
    (∀ p, (step ext st (.load p)).2 = .ok () → ∃ x, ext.read p = .ok x ∧
      nFeatures ext (step ext st (.load p)).1 = .ok x.2.length) ∧
    (∀ r, st.o.model = none → st.o.params = some r →
      nFeatures ext st = .ok (((view st.h r).parts.map fun p => ext.nfeat p.spec).sum)) := by
  refine ⟨?_, ?_, ?_⟩
  · intro m h
    simp only [step] at h ⊢
    rcases fit_cases ext st m with ⟨r, tr, te, f, c, h1, h2, h3, h4, h5, hf⟩ | ⟨-, e, hf⟩
    · rw [hf]
      exact ⟨r, tr, te, f, h1, h2, h3, h4, rfl⟩
    · rw [hf] at h
      cases h
  · intro p h
    simp only [step, loadMlp] at h ⊢
    cases hr : ext.read p with
    | error e => rw [hr] at h; cases h
    | ok x =>
      rw [hr] at h
      dsimp only at h ⊢
      refine ⟨x, rfl, ?_⟩
      cases hc : construct ext (alloc st.h [x.1]).1 (alloc st.h [x.1]).2 with
      | mk h' res =>
        rw [hc] at h
        cases res with
        | error e => cases h
        | ok r => rfl
  · intro r h1 h2
    unfold nFeatures
    rw [h1, h2]

example : (step demo (exec demo ⟨demoHeap, Obj.new⟩ [.setParams [part 1], .setData (.files .vasp 4)]) (.run .sequential)).2.toBool =
    true := by decide +kernel

end Verif.DevApi
