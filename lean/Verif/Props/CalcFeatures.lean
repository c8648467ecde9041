import Verif.Spec.CalcFeatures
import Verif.Lemmas.Rows
import Verif.Lemmas.AtomOrder
import Verif.Props.Spins
import Verif.Props.AtomOrder
import Mathlib.Data.List.Forall2

/-!
C118: features of given structures.
-/

namespace Verif.CalcFeatures
open Verif.AtomOrder Verif.Rows Verif.Spec
variable {K α : Type}

/-! ## Types -/

theorem replaceTypes_unique (st : Structure K) (elems : List String) (hwf : st.WF) (hn : elems.Nodup) :
    replaceTypes st elems =
      ({ st with types := (st.elements.zip st.types).map fun q =>
          if q.1 ∈ elems then elems.idxOf q.1 else q.2 },
        decide (∀ e ∈ st.elements, e ∈ elems)) := by
  obtain ⟨w1, w2, w3⟩ := hwf
  have hfold := foldl_replaceStep st.elements elems.zipIdx st.types 0 w2.symm
  have hm : (elems.zipIdx.map fun p => st.elements.count p.1)
      = elems.map fun e => st.elements.count e := by
    apply List.ext_getElem <;> simp
  rw [hm, Nat.zero_add] at hfold
  unfold replaceTypes
  rw [if_pos hn, hfold]
  refine Prod.ext ?_ ?_
  · dsimp only
    congr 1
    apply List.map_congr_left
    intro q _
    split
    · rename_i h
      have := foldl_idx_mem q.1 elems 0 q.2 hn h
      simpa using this
    · rename_i h
      exact foldl_idx_notMem q.1 elems 0 q.2 h
  · dsimp only
    rw [decide_eq_decide, sum_count_eq _ _ hn, List.length_filter_eq_length_iff]
    simp

theorem zip_map_left {β : Type} (l : List String) (t : List ℕ) (f : String → β) (h : l.length = t.length) :
    ((l.zip t).map fun q => f q.1) = l.map f := by
  have := congrArg (List.map f) (List.map_fst_zip (l₁ := l) (l₂ := t) (by omega))
  rw [List.map_map] at this
  exact this

theorem replaceTypes_known (st : Structure K) (elems : List String) (hwf : st.WF) (hn : elems.Nodup)
    (h : ∀ e ∈ st.elements, e ∈ elems) : replaceTypes st elems = (seenBy elems st, true) := by
  rw [replaceTypes_unique st elems hwf hn]
  refine Prod.ext ?_ (by simpa using h)
  dsimp only [seenBy]
  congr 1
  rw [← zip_map_left st.elements st.types (fun e => elems.idxOf e) hwf.2.1]
  apply List.map_congr_left
  intro q hq
  rw [if_pos (h _ (List.of_mem_zip hq).1)]

theorem updateTypes_all (elems : List String) (f : Structure K → Structure K) (l : List (Structure K))
    (h : ∀ st ∈ l, replaceTypes st elems = (f st, true)) : updateTypes elems l = (l.map f, true) := by
  induction l with
  | nil => rfl
  | cons st l ih =>
    unfold updateTypes
    rw [h st (by simp), ih fun s hs => h s (by simp [hs])]
    simp

theorem updateTypes_fail (elems : List String) (f : Structure K → Structure K) (a b : List (Structure K))
    (st st' : Structure K) (h : ∀ s ∈ a, replaceTypes s elems = (f s, true))
    (hst : replaceTypes st elems = (st', false)) :
    updateTypes elems (a ++ st :: b) = (a.map f ++ st' :: b, false) := by
  induction a with
  | nil => simp [updateTypes, hst]
  | cons s a ih =>
    rw [List.cons_append]
    unfold updateTypes
    rw [h s (by simp), ih fun s hs => h s (by simp [hs])]
    simp

/-! ## Channels -/

theorem maskSelect_used (st : Structure K) (e : String) :
    uniqSorted (maskSelect st.elements e st.types) = usedTypes st e := rfl

/-- The loop over elements. -/
theorem repeated_loop (st : Structure K) (h : st.elements.length = st.types.length) (els : List String)
    (hnd : els.Nodup) (T : List ℕ) (hT : T.length = st.types.length) (c o : ℕ) :
    els.foldl (repeatedStep st) (T, c, o) =
      ((st.elements.zip (st.types.zip T)).map fun q => if q.1 ∈ els then
          o + ((els.takeWhile (· ≠ q.1)).map fun x => (usedTypes st x).length).sum
            + (usedTypes st q.1).idxOf q.2.1 else q.2.2,
        c + (els.map fun e => st.elements.count e).sum,
        o + (els.map fun x => (usedTypes st x).length).sum) := by
  induction els generalizing T c o with
  | nil =>
    simp only [List.foldl_nil, List.not_mem_nil, if_false, List.map_nil, List.sum_nil, Nat.add_zero]
    congr 1
    have h1 : (st.elements.zip (st.types.zip T)).map (·.2) = st.types.zip T :=
      List.map_snd_zip (by simp; omega)
    have h2 : (st.types.zip T).map (·.2) = T := List.map_snd_zip (by omega)
    rw [← h1, List.map_map] at h2
    exact h2.symm
  | cons e els ih =>
    have hne : e ∉ els := (List.nodup_cons.1 hnd).1
    rw [List.foldl_cons]
    have hstep : repeatedStep st (T, c, o) e =
        ((st.elements.zip (st.types.zip T)).map (fun q =>
          if q.1 = e then (usedTypes st e).idxOf q.2.1 + o else q.2.2),
          c + st.elements.count e, o + (usedTypes st e).length) := rfl
    rw [hstep, ih (List.nodup_cons.1 hnd).2 _ (by simp; omega)]
    refine Prod.ext ?_ (Prod.ext ?_ ?_)
    · dsimp only
      apply List.ext_getElem
      · simp
      · intro i h1 h2
        simp only [List.getElem_map, List.getElem_zip]
        by_cases hi : st.elements[i]'(by simp at h1; omega) = e
        · simp only [hi, hne, if_false, List.mem_cons, true_or, if_true]
          simp [Nat.add_comm]
        · have hne' : e ≠ st.elements[i]'(by simp at h1; omega) := fun h => hi h.symm
          simp only [hi, if_false, List.mem_cons, false_or]
          split
          · simp [List.takeWhile_cons, hne', Nat.add_assoc]
          · rfl
    · simp [Nat.add_assoc]
    · simp [Nat.add_assoc]

theorem takeWhile_split (els : List String) (e : String) (h : e ∈ els) :
    ∃ b, els = els.takeWhile (· ≠ e) ++ e :: b ∧ e ∉ els.takeWhile (· ≠ e) := by
  induction els with
  | nil => simp at h
  | cons x els ih =>
    by_cases hx : x = e
    · subst hx
      exact ⟨els, by simp [List.takeWhile_cons], by simp [List.takeWhile_cons]⟩
    · obtain ⟨b, hb, hn⟩ := ih (by simpa [Ne.symm hx] using h)
      refine ⟨b, ?_, ?_⟩
      · rw [List.takeWhile_cons]
        simp only [ne_eq, hx, not_false_eq_true, decide_true, if_true, List.cons_append]
        congr 1
      · rw [List.takeWhile_cons]
        simp only [ne_eq, hx, not_false_eq_true, decide_true, if_true, List.mem_cons, not_or]
        exact ⟨Ne.symm hx, hn⟩

theorem chan_used (st : Structure K) (e : String) (ts : List ℕ) (h : IsChannels st e ts) :
    ts = usedTypes st e :=
  sorted_ext h.1 (uniqSorted_sorted _) fun t => by rw [h.2 t, mem_usedTypes]

theorem nodup_channels_le (els : List String) (m : String → ℕ) (h : (channels els m).Nodup)
    (e : String) (he : e ∈ els) : m e ≤ 1 := by
  have h1 : List.Sublist (List.replicate (m e) e) (channels els m) := by
    unfold channels
    obtain ⟨a, b, rfl⟩ := List.append_of_mem he
    rw [List.flatMap_append, List.flatMap_cons]
    exact (List.sublist_append_left _ _).trans (List.sublist_append_right _ _)
  exact List.nodup_replicate.1 (h.sublist h1)

theorem replaceTypes_channels (st : Structure K) (els : List String) (m : String → ℕ) (hwf : st.WF)
    (hnd : els.Nodup) (hm : ∀ e ∈ els, 1 ≤ m e) (hall : ∀ e ∈ st.elements, e ∈ els)
    (chan : String → List ℕ) (hch : ∀ e ∈ els, IsChannels st e (chan e) ∧ (chan e).length = m e) :
    replaceTypes st (channels els m) = (seenByChannels (channels els m) chan st, true) := by
  obtain ⟨w1, w2, w3⟩ := id hwf
  have hmem : ∀ e ∈ els, e ∈ channels els m := by
    intro e he
    unfold channels
    rw [List.mem_flatMap]
    exact ⟨e, he, List.mem_replicate.2 ⟨by have := hm e he; omega, rfl⟩⟩
  by_cases hn : (channels els m).Nodup
  · rw [replaceTypes_known st _ hwf hn fun e he => hmem e (hall e he)]
    refine Prod.ext ?_ rfl
    dsimp only [seenBy, seenByChannels]
    congr 1
    rw [← zip_map_left st.elements st.types (fun e => (channels els m).idxOf e) w2]
    apply List.map_congr_left
    intro q hq
    have he := hall _ (List.of_mem_zip hq).1
    have hl : (chan q.1).length ≤ 1 := by
      rw [(hch _ he).2]; exact nodup_channels_le els m hn _ he
    have hin : q.2 ∈ chan q.1 := by
      rw [(hch _ he).1.2]
      obtain ⟨i, hi⟩ := List.mem_iff_getElem?.1 hq
      rw [List.getElem?_zip_eq_some] at hi
      exact ⟨i, hi⟩
    have := List.idxOf_lt_length_iff.2 hin
    omega
  · unfold replaceTypes
    rw [if_neg hn, fromkeys_channels els m hm hnd,
      repeated_loop st w2 els hnd _ (by simp)]
    refine Prod.ext ?_ ?_
    · dsimp only [seenByChannels]
      congr 1
      have h1 : (st.elements.zip st.types) =
          (st.elements.zip (st.types.zip (st.types.map fun _ => 0))).map fun q => (q.1, q.2.1) := by
        apply List.ext_getElem
        · simp
        · intro i h1 h2; simp
      rw [h1, List.map_map]
      apply List.map_congr_left
      intro q hq
      have he := hall _ (List.of_mem_zip hq).1
      simp only [Function.comp, he, if_true]
      rw [← chan_used st q.1 _ (hch _ he).1]
      congr 1
      obtain ⟨b, hb, hnb⟩ := takeWhile_split els q.1 he
      conv_rhs => rw [hb]
      rw [idxOf_channels _ _ _ _ (hm _ he) hnb, Nat.zero_add]
      congr 1
      apply List.map_congr_left
      intro x hx
      have hxe : x ∈ els := by rw [hb]; exact List.mem_append_left _ hx
      rw [← chan_used st x _ (hch _ hxe).1, (hch _ hxe).2]
    · dsimp only
      rw [Nat.zero_add, sum_count_eq _ _ hnd]
      simp only [decide_eq_true_eq, List.length_filter_eq_length_iff]
      exact hall

/-! ## Features -/

theorem length_parts (S : List (StFeatures α × Bool)) (f : StFeatures α → List α) (n : StFeatures α → ℕ)
    (h : ∀ q ∈ S, (f q.1).length = n q.1) :
    (S.flatMap fun q => if q.2 then f q.1 else []).length = tot (S.map fun q => (n q.1, q.2)) := by
  unfold tot
  rw [List.length_flatMap, List.map_map]
  congr 1
  apply List.map_congr_left
  intro q hq
  simp only [Function.comp]
  split
  · exact h q hq
  · rfl

theorem featuresX_ok [CommRing K] (E : Env α) (hE : FairEnv E) (P : Pot K α) (hP : Shapes P)
    (h1 : P.par.nModels ≤ 1) (sts : List (Structure K))
    (hs : ∀ st ∈ sts, st.types.length = st.nAtoms.sum) :
    featuresX E P sts = .ok (featureTable P P.par.includeForce sts) := by
  unfold featuresX
  rw [if_neg (by omega)]
  have hix := setIndex_eq [(sts.map fun st => st.nAtoms.sum, P.par.includeForce)]
  simp only [List.map_cons, List.map_nil, List.length_map, List.flatMap_cons, List.flatMap_nil,
    List.append_nil] at hix
  rw [hix]
  simp only [bind, Except.bind, pure, Except.pure]
  congr 1
  let S : List (StFeatures α × Bool) := sts.map fun st => (featuresOf P st, P.par.includeForce)
  have hrows : featureRows S = featureTable P P.par.includeForce sts := by
    unfold featureRows featureTable
    simp only [S, List.map_map, List.flatMap_map, Function.comp_def]
    cases P.par.includeForce <;> simp
  rw [← hrows]
  have hxf : ∀ st ∈ sts, (featuresOf P st).xf.length = 3 * st.nAtoms.sum := by
    intro st hst
    rw [← hs st hst]
    exact (hP _ _ _).2
  have hmap : (sts.map fun st => (3 * st.nAtoms.sum, P.par.includeForce)) =
      S.map fun q => (q.1.xf.length, q.2) := by
    simp only [S, List.map_map]
    apply List.map_congr_left
    intro st hst
    simp [hxf st hst]
  apply fillX_perm S
  · intro i q hq
    simp only [S, List.getElem?_map, Option.map_eq_some_iff] at hq
    obtain ⟨st, hst, rfl⟩ := hq
    rw [hst]
    rfl
  · intro q hq
    simp only [S, List.mem_map] at hq
    obtain ⟨st, _, rfl⟩ := hq
    exact (hP _ _ _).1
  · simp [S]
  · simp [S, Function.comp_def]
  · rw [← hmap]; simp [S, Function.comp_def]
  · rw [hE.1]
    simp only [List.map_map, Function.comp_def, List.length_map]
    rw [hmap]
    have e6 : (S.flatMap fun q => if q.2 then q.1.xs else []).length = tot (S.map fun q => (6, q.2)) :=
      length_parts S (fun q => q.xs) (fun _ => 6) fun q hq => by
        simp only [S, List.mem_map] at hq
        obtain ⟨st, _, rfl⟩ := hq
        exact (hP _ _ _).1
    have e3 : (S.flatMap fun q => if q.2 then q.1.xf else []).length =
        tot (S.map fun q => (q.1.xf.length, q.2)) :=
      length_parts S (fun q => q.xf) (fun q => q.xf.length) fun _ _ => rfl
    have e6' : (S.map fun q => (6, q.2)) = sts.map fun _ => (6, P.par.includeForce) := by
      simp [S, Function.comp_def]
    unfold featureRows
    rw [List.length_append, List.length_append, e6, e3, e6']
    simp only [List.length_map, S]
    omega
  · simpa [S] using hE.2 sts.length

theorem setFlags_ok (p : Par) (force stress : Bool) (h : FlagsAllowed p force stress) :
    setFlags p force stress = ({ p with includeForce := force, includeStress := stress }, true) := by
  unfold setFlags setForce
  rw [if_neg (fun hc => h.1 hc.2 hc.1)]
  dsimp only
  unfold setStress
  rw [if_neg (fun hc => h.2 hc.2 hc.1)]

theorem withFlags_ok [CommRing K] (E : Env α) (hE : FairEnv E) (P : Pot K α) (hP : Shapes P)
    (h1 : P.par.nModels ≤ 1) (force stress : Bool) (hf : FlagsAllowed P.par force stress)
    (l l' : List (Structure K)) (hu : updateTypes P.par.elements l = (l', true))
    (hs : ∀ st ∈ l', st.types.length = st.nAtoms.sum) :
    withFlags E P (some l) force stress =
      ⟨some l', { P.par with includeForce := force, includeStress := stress },
        .ok (featureTable P force l')⟩ := by
  unfold withFlags
  rw [setFlags_ok _ _ _ hf]
  simp only [if_true]
  unfold finish
  dsimp only
  rw [hu]
  simp only [if_true]
  rw [featuresX_ok E hE ⟨{ P.par with includeForce := force, includeStress := stress }, P.feat⟩ hP h1 l' hs]
  rfl

theorem seenBy_shape (elems : List String) (st : Structure K) (h : st.WF) :
    (seenBy elems st).types.length = (seenBy elems st).nAtoms.sum := by
  simp [seenBy, h.2.2]

theorem seenByChannels_shape (elems : List String) (chan : String → List ℕ) (st : Structure K) (h : st.WF) :
    (seenByChannels elems chan st).types.length = (seenByChannels elems chan st).nAtoms.sum := by
  simp only [seenByChannels, List.length_map, List.length_zip, ← h.2.1, h.2.2, min_self]

/-! ## The calculator -/

/-- **C118.** For a potential of one model with different elements, `run_features` returns one row per
structure in the order given (and with `features_force` six stress rows per structure and three force
rows per atom); the rows are the features of the structures whose types are the places of the elements
in the potential, whatever types were given, whatever the memory contained and in whatever order the
structures are visited.  The structures of the caller get these types; nothing else of them changes. -/
theorem C118_features [CommRing K] (E : Env α) (hE : FairEnv E) (c : Calc K α) (hP : Shapes c.pot)
    (h1 : c.pot.par.nModels ≤ 1) (hn : c.pot.par.elements.Nodup) (g : Given K) (l : List (Structure K))
    (hg : givenList g = some l) (hwf : ∀ st ∈ l, st.WF)
    (hel : ∀ st ∈ l, ∀ e ∈ st.elements, e ∈ c.pot.par.elements) (force stress : Bool)
    (hf : FlagsAllowed c.pot.par force stress) :
    runFeatures E c ⟨some g, none, force, stress⟩ =
      (⟨some (l.map (seenBy c.pot.par.elements)),
          some (featureTable c.pot force (l.map (seenBy c.pot.par.elements))),
          ⟨{ c.pot.par with includeForce := force, includeStress := stress }, c.pot.feat⟩⟩,
        .ok (featureTable c.pot force (l.map (seenBy c.pot.par.elements)))) := by
  have hset : setStructures c g = .ok { c with structures := some l } := by
    cases g <;> simp only [givenList, Option.some.injEq, reduceCtorEq] at hg <;> subst hg <;> rfl
  have hu := updateTypes_all c.pot.par.elements (seenBy c.pot.par.elements) l
    fun st hst => replaceTypes_known st _ (hwf st hst) hn (hel st hst)
  have hw := withFlags_ok E hE c.pot hP h1 force stress hf l _ hu (by
    intro st hst
    obtain ⟨s, hs, rfl⟩ := List.mem_map.1 hst
    exact seenBy_shape _ s (hwf s hs))
  unfold runFeatures
  simp only [hset]
  unfold runWith
  simp only [if_neg (show ¬ c.pot.par.nModels > 1 by omega), hw]

/-- The same with a potential given by an input file: the flags of the file do not matter, and the
potential of the calculator is not touched. -/
theorem C118_infile [CommRing K] (E : Env α) (hE : FairEnv E) (c : Calc K α) (P : Pot K α) (hP : Shapes P)
    (h1 : P.par.nModels ≤ 1) (hn : P.par.elements.Nodup) (g : Given K) (l : List (Structure K))
    (hg : givenList g = some l) (hwf : ∀ st ∈ l, st.WF)
    (hel : ∀ st ∈ l, ∀ e ∈ st.elements, e ∈ P.par.elements) (force stress : Bool)
    (hf : FlagsAllowed P.par force stress) :
    runFeatures E c ⟨some g, some (.ok P), force, stress⟩ =
      (⟨some (l.map (seenBy P.par.elements)),
          some (featureTable P force (l.map (seenBy P.par.elements))), c.pot⟩,
        .ok (featureTable P force (l.map (seenBy P.par.elements)))) := by
  have hset : setStructures c g = .ok { c with structures := some l } := by
    cases g <;> simp only [givenList, Option.some.injEq, reduceCtorEq] at hg <;> subst hg <;> rfl
  have hu := updateTypes_all P.par.elements (seenBy P.par.elements) l
    fun st hst => replaceTypes_known st _ (hwf st hst) hn (hel st hst)
  have hw := withFlags_ok E hE P hP h1 force stress hf l _ hu (by
    intro st hst
    obtain ⟨s, hs, rfl⟩ := List.mem_map.1 hst
    exact seenBy_shape _ s (hwf s hs))
  unfold runFeatures
  simp only [hset]
  unfold runWith
  simp only [hw]

/-- Structures with the same atoms have the same features, whatever types they were given. -/
theorem C118_types_irrelevant [CommRing K] (E E' : Env α) (hE : FairEnv E) (hE' : FairEnv E')
    (c : Calc K α) (hP : Shapes c.pot) (h1 : c.pot.par.nModels ≤ 1) (hn : c.pot.par.elements.Nodup)
    (l l' : List (Structure K)) (hsame : List.Forall₂ SameCellAtoms l l')
    (hwf : ∀ st ∈ l, st.WF) (hwf' : ∀ st ∈ l', st.WF)
    (hel : ∀ st ∈ l, ∀ e ∈ st.elements, e ∈ c.pot.par.elements) (force stress : Bool)
    (hf : FlagsAllowed c.pot.par force stress) :
    (runFeatures E c ⟨some (.list l), none, force, stress⟩).2 =
      (runFeatures E' c ⟨some (.list l'), none, force, stress⟩).2 := by
  have hel' : ∀ st ∈ l', ∀ e ∈ st.elements, e ∈ c.pot.par.elements := by
    clear hwf hwf'
    induction hsame with
    | nil => simp
    | cons hab _ ih =>
      intro st hst
      rcases List.mem_cons.1 hst with rfl | hst
      · intro e he
        exact hel _ (List.mem_cons_self ..) e (by rw [hab.2.2]; exact he)
      · exact ih (fun s hs => hel s (by simp [hs])) st hst
  rw [C118_features E hE c hP h1 hn (.list l) l rfl hwf hel force stress hf,
    C118_features E' hE' c hP h1 hn (.list l') l' rfl hwf' hel' force stress hf]
  dsimp only
  congr 1
  have h : List.Forall₂ (fun a b => featuresOf c.pot (seenBy c.pot.par.elements a) =
      featuresOf c.pot (seenBy c.pot.par.elements b)) l l' := by
    refine hsame.imp ?_
    rintro a b ⟨h1, h2, h3⟩
    simp only [featuresOf, seenBy, h1, h2, h3]
  unfold featureTable
  simp only [List.map_map, List.flatMap_map, Function.comp_def]
  clear hsame hwf hwf' hel hel'
  have hm : ∀ {β : Type} (f : StFeatures α → β),
      l.map (fun a => f (featuresOf c.pot (seenBy c.pot.par.elements a))) =
        l'.map fun a => f (featuresOf c.pot (seenBy c.pot.par.elements a)) := by
    intro β f
    induction h with
    | nil => rfl
    | cons h _ ih => simp only [List.map_cons, h, ih]
  have hfm : ∀ (f : StFeatures α → List α),
      l.flatMap (fun a => f (featuresOf c.pot (seenBy c.pot.par.elements a))) =
        l'.flatMap fun a => f (featuresOf c.pot (seenBy c.pot.par.elements a)) := by
    intro f
    rw [List.flatMap_def, List.flatMap_def, hm f]
  rw [hm fun q => q.xe, hfm fun q => q.xs, hfm fun q => q.xf]

/-- A potential with several types for an element (spin channels): if every structure uses, for every
element of the potential, as many different types as the potential has, the smallest of them gets the
first type of the potential for the element, and so on. -/
theorem C118_channels [CommRing K] (E : Env α) (hE : FairEnv E) (c : Calc K α) (hP : Shapes c.pot)
    (h1 : c.pot.par.nModels ≤ 1) (els : List String) (m : String → ℕ) (hnd : els.Nodup)
    (hm : ∀ e ∈ els, 1 ≤ m e)
    (hels : c.pot.par.elements = els.flatMap fun e => List.replicate (m e) e)
    (l : List (Structure K)) (hwf : ∀ st ∈ l, st.WF) (hel : ∀ st ∈ l, ∀ e ∈ st.elements, e ∈ els)
    (chan : Structure K → String → List ℕ)
    (hch : ∀ st ∈ l, ∀ e ∈ els, IsChannels st e (chan st e) ∧ (chan st e).length = m e)
    (force stress : Bool) (hf : FlagsAllowed c.pot.par force stress) :
    let l' := l.map fun st => seenByChannels c.pot.par.elements (chan st) st
    runFeatures E c ⟨some (.list l), none, force, stress⟩ =
      (⟨some l', some (featureTable c.pot force l'),
          ⟨{ c.pot.par with includeForce := force, includeStress := stress }, c.pot.feat⟩⟩,
        .ok (featureTable c.pot force l')) := by
  intro l'
  have hu : updateTypes c.pot.par.elements l = (l', true) :=
    updateTypes_all c.pot.par.elements (fun st => seenByChannels c.pot.par.elements (chan st) st) l
      fun st hst => by
        have := replaceTypes_channels st els m (hwf st hst) hnd hm (hel st hst) (chan st) (hch st hst)
        unfold channels at this
        rw [← hels] at this
        exact this
  have hw := withFlags_ok E hE c.pot hP h1 force stress hf l _ hu (by
    intro st hst
    obtain ⟨s, hs, rfl⟩ := List.mem_map.1 hst
    exact seenByChannels_shape _ _ s (hwf s hs))
  unfold runFeatures
  simp only [setStructures]
  unfold runWith
  simp only [if_neg (show ¬ c.pot.par.nModels > 1 by omega), hw]

/-! ## Calls that fail -/

/-- An unknown element: `RuntimeError`.  The features of the calculator stay, but the structures before
the wrong one have the types of the potential by then, the atoms of the wrong one with known elements
too, and the flags of the potential are those of the call. -/
theorem C118_unknown [CommRing K] (E : Env α) (c : Calc K α)
    (h1 : c.pot.par.nModels ≤ 1) (hn : c.pot.par.elements.Nodup) (a b : List (Structure K))
    (st : Structure K) (hwf : ∀ s ∈ a, s.WF) (hst : st.WF)
    (hel : ∀ s ∈ a, ∀ e ∈ s.elements, e ∈ c.pot.par.elements)
    (hbad : ∃ e ∈ st.elements, e ∉ c.pot.par.elements) (force stress : Bool)
    (hf : FlagsAllowed c.pot.par force stress) :
    runFeatures E c ⟨some (.list (a ++ st :: b)), none, force, stress⟩ =
      (⟨some (a.map (seenBy c.pot.par.elements) ++
            { st with types := (st.elements.zip st.types).map fun q =>
                if q.1 ∈ c.pot.par.elements then c.pot.par.elements.idxOf q.1 else q.2 } :: b),
          c.features, ⟨{ c.pot.par with includeForce := force, includeStress := stress }, c.pot.feat⟩⟩,
        .error .runtimeError) := by
  have hr := replaceTypes_unique st c.pot.par.elements hst hn
  rw [decide_eq_false (by push Not; exact hbad)] at hr
  have hu := updateTypes_fail c.pot.par.elements (seenBy c.pot.par.elements) a b st _
    (fun s hs => replaceTypes_known s _ (hwf s hs) hn (hel s hs)) hr
  unfold runFeatures
  simp only [setStructures]
  unfold runWith withFlags
  simp only [if_neg (show ¬ c.pot.par.nModels > 1 by omega), setFlags_ok _ _ _ hf, if_true]
  unfold finish
  simp only [hu, Bool.false_eq_true, if_false]

/-- Other errors: an argument that is neither a structure nor a list, a hybrid potential, a calculator
that was never given structures, and flags which the kind of data does not have.  Features and
potential function are never changed by them. -/
theorem C118_refused [CommRing K] (E : Env α) (c : Calc K α) (infile : Option (Except Err (Pot K α)))
    (force stress : Bool) :
    runFeatures E c ⟨some .other, infile, force, stress⟩ = (c, .error .runtimeError) ∧
      (∀ (g : Given K) (l : List (Structure K)), givenList g = some l → 1 < c.pot.par.nModels →
        runFeatures E c ⟨some g, none, force, stress⟩ =
          ({ c with structures := some l }, .error .attributeError)) ∧
      (∀ e, runFeatures E c ⟨none, some (.error e), force, stress⟩ = (c, .error e)) ∧
      (c.structures = none → c.pot.par.nModels ≤ 1 → FlagsAllowed c.pot.par force stress →
        (runFeatures E c ⟨none, none, force, stress⟩).2 = .error .typeError ∧
          (runFeatures E c ⟨none, none, force, stress⟩).1.features = c.features) ∧
      (c.pot.par.nModels ≤ 1 → ¬ FlagsAllowed c.pot.par force stress →
        (runFeatures E c ⟨none, none, force, stress⟩).2 = .error .runtimeError ∧
          (runFeatures E c ⟨none, none, force, stress⟩).1.features = c.features ∧
          (runFeatures E c ⟨none, none, force, stress⟩).1.structures = c.structures ∧
          (runFeatures E c ⟨none, none, force, stress⟩).1.pot =
            ⟨{ c.pot.par with includeForce :=
                if c.pot.par.dtype = "electron" ∧ force = true then c.pot.par.includeForce else force },
              c.pot.feat⟩) ∧
      (∀ (P : Pot K α) (l : List (Structure K)), 1 < P.par.nModels →
        (runFeatures E c ⟨some (.list l), some (.ok P), force, stress⟩).2 = .error .runtimeError ∧
          (runFeatures E c ⟨some (.list l), some (.ok P), force, stress⟩).1.features = c.features ∧
          (runFeatures E c ⟨some (.list l), some (.ok P), force, stress⟩).1.pot = c.pot) := by
  refine ⟨rfl, ?_, fun e => rfl, ?_, ?_, ?_⟩
  · intro g l hg h1
    have hset : setStructures c g = .ok { c with structures := some l } := by
      cases g <;> simp only [givenList, Option.some.injEq, reduceCtorEq] at hg <;> subst hg <;> rfl
    unfold runFeatures
    simp only [hset]
    unfold runWith
    simp only [if_pos (show c.pot.par.nModels > 1 from h1)]
  · intro hs h1 hf
    have : withFlags E c.pot none force stress =
        ⟨none, { c.pot.par with includeForce := force, includeStress := stress }, .error .typeError⟩ := by
      unfold withFlags
      rw [setFlags_ok _ _ _ hf]
      rfl
    unfold runFeatures
    dsimp only
    unfold runWith
    simp only [if_neg (show ¬ c.pot.par.nModels > 1 by omega), hs, this, and_self]
  · intro h1 hf
    have hfl : setFlags c.pot.par force stress = ({ c.pot.par with includeForce :=
        if c.pot.par.dtype = "electron" ∧ force = true then c.pot.par.includeForce else force }, false) := by
      unfold setFlags setForce
      by_cases h : c.pot.par.dtype = "electron" ∧ force = true
      · rw [if_pos h, if_pos h]
      · rw [if_neg h, if_neg h]
        dsimp only
        unfold setStress
        by_cases h2 : c.pot.par.dtype ∈ ["phono3py", "sscha", "openmx", "electron"] ∧ stress = true
        · rw [if_pos h2]
        · exact absurd ⟨fun hh he => h ⟨he, hh⟩, fun hh he => h2 ⟨he, hh⟩⟩ hf
    unfold runFeatures
    dsimp only
    unfold runWith withFlags
    simp only [if_neg (show ¬ c.pot.par.nModels > 1 by omega), hfl, Bool.false_eq_true, if_false, and_self]
  · intro P l hP
    have hs : (setFlags P.par force stress).1.nModels = P.par.nModels := by
      unfold setFlags setForce setStress
      split
      · rfl
      · next h =>
        split at h
        · cases h
        · cases h
          split
          · rfl
          · next h =>
            split at h
            · cases h
            · cases h; rfl
    have hw : (withFlags E P (some l) force stress).result = .error .runtimeError := by
      unfold withFlags
      dsimp only
      split
      · unfold finish
        dsimp only
        split
        · unfold featuresX
          rw [if_pos (by dsimp only; rw [hs]; exact hP)]
        · rfl
      · rfl
    unfold runFeatures
    simp only [setStructures]
    unfold runWith
    simp only [hw, and_self]

/-! ## Sequences of calls -/

theorem withFlags_same [CommRing K] (E : Env α) (P : Pot K α) (sts : Option (List (Structure K)))
    (force stress : Bool) :
    (withFlags E P sts force stress).par.elements = P.par.elements ∧
      (withFlags E P sts force stress).par.nModels = P.par.nModels ∧
      (withFlags E P sts force stress).par.dtype = P.par.dtype := by
  have hs : ∀ (p : Par), (setFlags p force stress).1.elements = p.elements ∧
      (setFlags p force stress).1.nModels = p.nModels ∧ (setFlags p force stress).1.dtype = p.dtype := by
    intro p
    unfold setFlags setForce setStress
    split
    · exact ⟨rfl, rfl, rfl⟩
    · rename_i p1 h
      split at h
      · simp at h
      · simp only [Except.ok.injEq] at h
        subst h
        split
        · exact ⟨rfl, rfl, rfl⟩
        · rename_i p2 h
          split at h
          · simp at h
          · simp only [Except.ok.injEq] at h
            subst h
            exact ⟨rfl, rfl, rfl⟩
  unfold withFlags
  dsimp only
  split
  · unfold finish
    split <;> exact hs P.par
  · exact hs P.par

theorem replaceTypes_same (st : Structure K) (elems : List String) :
    SameCellAtoms st (replaceTypes st elems).1 := by
  unfold replaceTypes
  split <;> exact ⟨rfl, rfl, rfl⟩

theorem updateTypes_same (elems : List String) (l : List (Structure K)) :
    List.Forall₂ SameCellAtoms l (updateTypes elems l).1 := by
  induction l with
  | nil => exact .nil
  | cons st l ih =>
    unfold updateTypes
    dsimp only
    split
    · exact .cons (replaceTypes_same st elems) ih
    · exact .cons (replaceTypes_same st elems) (List.forall₂_same.2 fun s _ => ⟨rfl, rfl, rfl⟩)

theorem withFlags_structures [CommRing K] (E : Env α) (P : Pot K α) (l : List (Structure K))
    (force stress : Bool) :
    ∃ l', (withFlags E P (some l) force stress).structures = some l' ∧
      List.Forall₂ SameCellAtoms l l' := by
  unfold withFlags
  dsimp only
  split
  · exact ⟨_, rfl, updateTypes_same _ l⟩
  · exact ⟨l, rfl, List.forall₂_same.2 fun s _ => ⟨rfl, rfl, rfl⟩⟩

theorem runWith_spec [CommRing K] (E : Env α) (c : Calc K α) (infile : Option (Except Err (Pot K α)))
    (force stress : Bool) :
    (∀ x, (runWith E c infile force stress).2 = .ok x →
        (runWith E c infile force stress).1.features = some x) ∧
      (∀ e, (runWith E c infile force stress).2 = .error e →
        (runWith E c infile force stress).1.features = c.features) ∧
      (runWith E c infile force stress).1.pot.feat = c.pot.feat ∧
      (runWith E c infile force stress).1.pot.par.elements = c.pot.par.elements ∧
      (runWith E c infile force stress).1.pot.par.nModels = c.pot.par.nModels ∧
      (∀ l, c.structures = some l → ∃ l', (runWith E c infile force stress).1.structures = some l' ∧
        List.Forall₂ SameCellAtoms l l') := by
  have hrefl : ∀ l : List (Structure K), List.Forall₂ SameCellAtoms l l :=
    fun l => List.forall₂_same.2 fun s _ => ⟨rfl, rfl, rfl⟩
  unfold runWith
  cases infile with
  | none =>
    dsimp only
    split
    · exact ⟨fun x h => by simp at h, fun e _ => rfl, rfl, rfl, rfl, fun l h => ⟨l, h, hrefl l⟩⟩
    · have h := withFlags_same E c.pot c.structures force stress
      have hs := fun l => withFlags_structures E c.pot l force stress
      dsimp only
      cases hr : (withFlags E c.pot c.structures force stress).result with
      | error e =>
        refine ⟨fun x h => by simp at h, fun e _ => rfl, rfl, h.1, h.2.1, ?_⟩
        intro l hl
        rw [hl]
        exact hs l
      | ok x =>
        refine ⟨fun y hy => by simpa using hy, fun e h => by simp at h, rfl, h.1, h.2.1, ?_⟩
        intro l hl
        rw [hl]
        exact hs l
  | some r =>
    cases r with
    | error e => exact ⟨fun x h => by simp at h, fun e _ => rfl, rfl, rfl, rfl, fun l h => ⟨l, h, hrefl l⟩⟩
    | ok P =>
      have hs := fun l => withFlags_structures E P l force stress
      dsimp only
      cases hr : (withFlags E P c.structures force stress).result with
      | error e =>
        refine ⟨fun x h => by simp at h, fun e _ => rfl, rfl, rfl, rfl, ?_⟩
        intro l hl
        rw [hl]
        exact hs l
      | ok x =>
        refine ⟨fun y hy => by simpa using hy, fun e h => by simp at h, rfl, rfl, rfl, ?_⟩
        intro l hl
        rw [hl]
        exact hs l

/-- After any calls, successful or not: `features` is the result of the last successful one; the
potential computes the same features for the same elements; and a structure list given once is kept,
up to the types, until another is given. -/
theorem C118_history [CommRing K] (E : Env α) (c : Calc K α) (qs : List (Call K α)) :
    ((runCalls E c qs).1.features =
        match (runCalls E c qs).2.foldl
          (fun (acc : Option (List α)) r => match r with | .ok x => some x | .error _ => acc) none with
        | some x => some x
        | none => c.features) ∧
      (runCalls E c qs).1.pot.feat = c.pot.feat ∧
      (runCalls E c qs).1.pot.par.elements = c.pot.par.elements ∧
      (∀ l, c.structures = some l → (∀ q ∈ qs, q.structures = none) →
        ∃ l', (runCalls E c qs).1.structures = some l' ∧ List.Forall₂ SameCellAtoms l l') := by
  have hrefl : ∀ l : List (Structure K), List.Forall₂ SameCellAtoms l l :=
    fun l => List.forall₂_same.2 fun s _ => ⟨rfl, rfl, rfl⟩
  have hfold : ∀ (rs : List (Except Err (List α))) (a : Option (List α)),
      rs.foldl (fun (acc : Option (List α)) r => match r with | .ok x => some x | .error _ => acc) a =
        match rs.foldl (fun (acc : Option (List α)) r =>
          match r with | .ok x => some x | .error _ => acc) none with
        | some x => some x
        | none => a := by
    intro rs
    induction rs with
    | nil => intro a; rfl
    | cons r rs ih =>
      intro a
      rw [List.foldl_cons, List.foldl_cons]
      cases r with
      | ok x => simp only []; rw [ih (some x)]; split <;> rfl
      | error e => simp only []; rw [ih a]
  induction qs generalizing c with
  | nil => exact ⟨rfl, rfl, rfl, fun l hl _ => ⟨l, hl, hrefl l⟩⟩
  | cons q qs ih =>
    have hstep : (∀ x, (runFeatures E c q).2 = .ok x → (runFeatures E c q).1.features = some x) ∧
        (∀ e, (runFeatures E c q).2 = .error e → (runFeatures E c q).1.features = c.features) ∧
        (runFeatures E c q).1.pot.feat = c.pot.feat ∧
        (runFeatures E c q).1.pot.par.elements = c.pot.par.elements ∧
        (∀ l, c.structures = some l → q.structures = none →
          ∃ l', (runFeatures E c q).1.structures = some l' ∧ List.Forall₂ SameCellAtoms l l') := by
      unfold runFeatures
      cases hq : q.structures with
      | none =>
        obtain ⟨a1, a2, a3, a4, _, a6⟩ := runWith_spec E c q.infile q.force q.stress
        exact ⟨a1, a2, a3, a4, fun l hl _ => a6 l hl⟩
      | some g =>
        dsimp only
        cases g with
        | other => exact ⟨fun x h => by simp [setStructures] at h, fun e _ => rfl, rfl, rfl, fun l _ h => by simp at h⟩
        | single st =>
          obtain ⟨a1, a2, a3, a4, _, _⟩ :=
            runWith_spec E { c with structures := some [st] } q.infile q.force q.stress
          exact ⟨a1, a2, a3, a4, fun l _ h => by simp at h⟩
        | list ls =>
          obtain ⟨a1, a2, a3, a4, _, _⟩ :=
            runWith_spec E { c with structures := some ls } q.infile q.force q.stress
          exact ⟨a1, a2, a3, a4, fun l _ h => by simp at h⟩
    obtain ⟨s1, s2, s3, s4, s5⟩ := hstep
    obtain ⟨i1, i2, i3, i4⟩ := ih (runFeatures E c q).1
    have hd : runCalls E c (q :: qs) = ((runCalls E (runFeatures E c q).1 qs).1,
        (runFeatures E c q).2 :: (runCalls E (runFeatures E c q).1 qs).2) := rfl
    rw [hd]
    refine ⟨?_, i2.trans s3, i3.trans s4, ?_⟩
    · dsimp only
      rw [i1, List.foldl_cons]
      cases hr : (runFeatures E c q).2 with
      | ok x =>
        simp only []
        rw [hfold _ (some x), s1 x hr]
        split <;> rfl
      | error e =>
        simp only []
        rw [s2 e hr]
    · intro l hl hqs
      obtain ⟨l1, h1, h2⟩ := s5 l hl (hqs q (by simp))
      obtain ⟨l2, h3, h4⟩ := i4 l1 h1 fun q' hq' => hqs q' (by simp [hq'])
      refine ⟨l2, h3, ?_⟩
      clear h1 h3 hd hl i4
      induction h2 generalizing l2 with
      | nil => cases h4; exact .nil
      | cons hab _ ih2 =>
        cases h4 with
        | cons hbc h4' =>
          exact .cons ⟨hab.1.trans hbc.1, hab.2.1.trans hbc.2.1, hab.2.2.trans hbc.2.2⟩ (ih2 _ h4')

/-! ## Potential files -/

/-- `compute_from_polymlp` with a file, with a list of one file, and with parameters: the features are
the same, and the coefficients of the file are returned if asked for; no source, several files and
hybrid parameters are refused before the structures are touched. -/
theorem C118_sources [CommRing K] {C : Type} (E : Env α) (hE : FairEnv E) (P : Pot K α) (hP : Shapes P)
    (h1 : P.par.nModels ≤ 1) (hn : P.par.elements.Nodup) (coeffs : C) (l : List (Structure K))
    (hwf : ∀ st ∈ l, st.WF) (hel : ∀ st ∈ l, ∀ e ∈ st.elements, e ∈ P.par.elements)
    (force stress mlp : Bool) (hf : FlagsAllowed P.par force stress) :
    (computeFromPolymlp E (.file (.ok (P, coeffs))) l force stress mlp =
      (l.map (seenBy P.par.elements), .ok (featureTable P force (l.map (seenBy P.par.elements)),
        if mlp then some coeffs else none))) ∧
    (computeFromPolymlp E (.files [.ok (P, coeffs)]) l force stress mlp =
      computeFromPolymlp E (.file (.ok (P, coeffs))) l force stress mlp) ∧
    (computeFromPolymlp (C := C) E (.params P) l force stress mlp =
      (l.map (seenBy P.par.elements), .ok (featureTable P force (l.map (seenBy P.par.elements)), none))) ∧
    (computeFromPolymlp (C := C) E .none l force stress mlp = (l, .error .runtimeError)) ∧
    (∀ e, computeFromPolymlp (C := C) E (.file (.error e)) l force stress mlp = (l, .error e)) ∧
    (∀ a b rest, computeFromPolymlp (C := C) E (.files (a :: b :: rest)) l force stress mlp =
      (l, .error .attributeError)) ∧
    (∀ Q : Pot K α, 1 < Q.par.nModels →
      computeFromPolymlp (C := C) E (.params Q) l force stress mlp = (l, .error .attributeError)) := by
  have hu := updateTypes_all P.par.elements (seenBy P.par.elements) l
    fun st hst => replaceTypes_known st _ (hwf st hst) hn (hel st hst)
  have hw := withFlags_ok E hE P hP h1 force stress hf l _ hu (by
    intro st hst
    obtain ⟨s, hs, rfl⟩ := List.mem_map.1 hst
    exact seenBy_shape _ s (hwf s hs))
  refine ⟨?_, rfl, ?_, rfl, fun e => rfl, ?_, ?_⟩
  · unfold computeFromPolymlp
    simp only [source, Except.map, hw, Option.getD_some]
  · unfold computeFromPolymlp
    simp only [source, if_neg (show ¬ P.par.nModels > 1 by omega), hw, Except.map, Option.getD_some,
      ite_self]
  · intro a b rest
    unfold computeFromPolymlp
    simp [source]
  · intro Q hQ
    unfold computeFromPolymlp
    simp only [source, if_pos (show Q.par.nModels > 1 from hQ)]

/-! ## An example, and what fails -/

/-- Features that show what the potential was given: number and types of the atoms. -/
def exPot (els : List String) : Pot ℤ (String × List ℕ) where
  par := ⟨els, 1, "vasp", true, true⟩
  feat _ _ t := ⟨("e", t), List.replicate 6 ("s", t), List.replicate (3 * t.length) ("f", t)⟩

def exEnv : Env (String × List ℕ) := ⟨fun n => List.replicate n ("", []), fun n => (List.range n).reverse⟩

def exCell (els : List String) (types : List ℕ) : Structure ℤ :=
  ⟨⟨⟨1, 0, 0⟩, ⟨0, 1, 0⟩, ⟨0, 0, 1⟩⟩, els.map fun _ => ⟨0, 0, 0⟩, [els.length], els, types, 1, none⟩

theorem exEnv_fair : FairEnv exEnv :=
  ⟨fun n => by simp [exEnv], fun n => by simpa [exEnv] using List.reverse_perm _⟩

theorem exPot_shapes (els : List String) : Shapes (exPot els) := fun a v t => by simp [exPot]

def exCalc (els : List String) : Calc ℤ (String × List ℕ) := ⟨none, none, exPot els⟩

/-- The hypotheses are met: two structures of MgO with other types than the potential. -/
example :
    let l := [exCell ["O", "Mg"] [0, 1], exCell ["Mg"] [5]]
    (∀ st ∈ l, st.WF) ∧ (∀ st ∈ l, ∀ e ∈ st.elements, e ∈ (exPot ["Mg", "O"]).par.elements) ∧
      (exPot ["Mg", "O"]).par.elements.Nodup ∧
      (runFeatures exEnv (exCalc ["Mg", "O"]) ⟨some (.list l), none, false, false⟩).2.toOption =
        some [("e", [1, 0]), ("e", [0])] := by
  refine ⟨by decide +kernel, by decide +kernel, by decide +kernel, by decide +kernel⟩

/-- An unknown element in the second structure: the first has been changed. -/
example :
    let r := runFeatures exEnv (exCalc ["Mg", "O"])
      ⟨some (.list [exCell ["O"] [0], exCell ["O", "Ca"] [0, 1], exCell ["O"] [0]]), none, false, false⟩
    r.2 = .error .runtimeError ∧ r.1.structures.map (·.map (·.types)) = some [[1], [1, 1], [0]] := by
  refine ⟨rfl, by decide +kernel⟩

/-- Two types for iron and one for oxygen. -/
example :
    let st := exCell ["O", "Fe", "Fe"] [0, 7, 3]
    st.WF ∧ IsChannels st "Fe" [3, 7] ∧ IsChannels st "O" [0] ∧
      (runFeatures exEnv (exCalc ["Fe", "Fe", "O"]) ⟨some (.list [st]), none, false, false⟩).2.toOption =
        some [("e", [2, 1, 0])] := by
  refine ⟨by decide +kernel, ⟨by decide, fun t => ?_⟩, ⟨by decide, fun t => ?_⟩, by decide +kernel⟩
  · constructor
    · intro h
      simp only [List.mem_cons, List.not_mem_nil, or_false] at h
      rcases h with rfl | rfl
      · exact ⟨2, rfl, rfl⟩
      · exact ⟨1, rfl, rfl⟩
    · rintro ⟨i, h1, h2⟩
      match i with
      | 0 => simp [exCell] at h1
      | 1 => simp [exCell] at h2; simp [← h2]
      | 2 => simp [exCell] at h2; simp [← h2]
      | i + 3 => simp [exCell] at h1
  · constructor
    · intro h
      simp only [List.mem_cons, List.not_mem_nil, or_false] at h
      subst h
      exact ⟨0, rfl, rfl⟩
    · rintro ⟨i, h1, h2⟩
      match i with
      | 0 => simp [exCell] at h2; simp [← h2]
      | 1 => simp [exCell] at h1
      | 2 => simp [exCell] at h1
      | i + 3 => simp [exCell] at h1

/-- **Violation.** `features_stress` has no effect: alone it gives no stress rows, and stress rows are
returned without it if forces are asked for. -/
theorem C118_stress_violation :
    let l := [exCell ["Mg"] [0]]
    (runFeatures exEnv (exCalc ["Mg"]) ⟨some (.list l), none, false, true⟩).2.toOption =
        (runFeatures exEnv (exCalc ["Mg"]) ⟨some (.list l), none, false, false⟩).2.toOption ∧
      ((runFeatures exEnv (exCalc ["Mg"]) ⟨some (.list l), none, true, false⟩).2.toOption.map
        fun x => (x.filter fun r => r.1 = "s").length) = some 6 := by
  refine ⟨by decide +kernel, by decide +kernel⟩

/-- **Violation.** Computing features changes the parameters of the potential of the calculator. -/
theorem C118_params_violation :
    (exCalc ["Mg"]).pot.par.includeForce = true ∧
      (runFeatures exEnv (exCalc ["Mg"]) ⟨some (.list [exCell ["Mg"] [0]]), none, false, false⟩).1.pot.par.includeForce
        = false := ⟨rfl, by decide +kernel⟩

/-- **Violation.** With two types for iron, a structure in which all iron atoms have one type gives
its oxygen atoms the second type of iron; and if the types of an element are not neighbours in the
potential, atoms get the type of another element in every case. -/
theorem C118_channel_violation :
    ((runFeatures exEnv (exCalc ["Fe", "Fe", "O"])
        ⟨some (.list [exCell ["Fe", "O"] [0, 2]]), none, false, false⟩).2.toOption = some [("e", [0, 1])] ∧
      ["Fe", "Fe", "O"][1]? = some "Fe") ∧
    ((runFeatures exEnv (exCalc ["Fe", "O", "Fe"])
        ⟨some (.list [exCell ["Fe", "O", "Fe"] [0, 1, 2]]), none, false, false⟩).2.toOption =
          some [("e", [0, 2, 1])] ∧ ["Fe", "O", "Fe"][2]? = some "Fe") := by
  refine ⟨⟨by decide +kernel, rfl⟩, ⟨by decide +kernel, rfl⟩⟩

end Verif.CalcFeatures
