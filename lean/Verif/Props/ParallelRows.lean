import Verif.Props.Parallel

/-!
# C121: parallel loops over structures
-/

namespace Verif.Parallel
open Verif.Spec Verif.Rows

/-! ## Feature matrix -/

theorem blockWrites_eq {α : Type} (b : ℕ) (rows : List α) :
    blockWrites b rows = (rows.zipIdx b).map fun q => (q.2, q.1) := by
  rw [List.zipIdx_eq_map_add, List.map_map]
  rfl

theorem modelBody_eq {α : Type} (ix : Index) (feat : ℕ → StFeatures α) (i : ℕ) :
    modelBody ix feat i = writeAll (writesOf ix feat i) := by
  unfold modelBody writesOf
  simp only [blockWrites_eq]

theorem disjoint_of_perm {α : Type} (W : ℕ → List (ℕ × α)) (n : ℕ) (target : List α)
    (h : ((List.range n).flatMap W).Perm (target.zipIdx.map fun q => (q.2, q.1)))
    (i : ℕ) (hi : i < n) (j : ℕ) (hj : j < n) (hne : i ≠ j) (l : ℕ)
    (hil : l ∈ (W i).map (·.1)) : l ∉ (W j).map (·.1) := by
  have hn : (((List.range n).flatMap W).map (·.1)).Nodup := by
    rw [(h.map (·.1)).nodup_iff, List.map_map]
    have e : (target.zipIdx.map ((fun q : ℕ × α => q.1) ∘ fun q : α × ℕ => (q.2, q.1)))
        = List.range' 0 target.length := by
      rw [← List.zipIdx_map_snd 0 target]
      rfl
    rw [e]
    exact List.nodup_range' ..
  rw [List.map_flatMap, List.nodup_flatMap] at hn
  intro hjl
  have hp := hn.2
  rw [List.pairwise_iff_getElem] at hp
  rcases Nat.lt_or_gt_of_ne hne with hlt | hlt
  · have := hp i j (by simpa using hi) (by simpa using hj) hlt
    simp only [List.getElem_range, Function.onFun] at this
    exact this hil hjl
  · have := hp j i (by simpa using hj) (by simpa using hi) hlt
    simp only [List.getElem_range, Function.onFun] at this
    exact this hjl hil

/-- Offsets and sizes of a list of data sets. -/
theorem index_of {α : Type} (L : List (List (ℕ × StFeatures α) × Bool))
    (hw : ∀ d ∈ L, ∀ s ∈ d.1, s.2.xs.length = 6 ∧ s.2.xf.length = 3 * s.1) (ix : Index)
    (hix : setIndex (L.map fun d => (d.1.length, d.2)) (L.flatMap fun d => d.1.map (·.1)) = .ok ix)
    (S : List (StFeatures α × Bool)) (hS : S = L.flatMap fun d => d.1.map fun s => (s.2, d.2)) :
    (∀ q ∈ S, q.1.xs.length = 6) ∧ ix.force = S.map (·.2) ∧
    ix.xsBegin = begins (S.map fun q => (6, q.2)) S.length ∧
    ix.xfBegin = begins (S.map fun q => (q.1.xf.length, q.2))
      (S.length + tot (S.map fun q => (6, q.2))) ∧
    ix.nE + ix.nF + ix.nS = (featureRows S).length := by
  have hs : ∀ q ∈ S, q.1.xs.length = 6 := by
    intro q hq
    rw [hS] at hq
    obtain ⟨d, hd, hq⟩ := List.mem_flatMap.1 hq
    obtain ⟨s, h, rfl⟩ := List.mem_map.1 hq
    exact (hw d hd s h).1
  have h := setIndex_eq (L.map fun d => (d.1.map fun s => s.1, d.2))
  rw [List.map_map, List.flatMap_map, List.flatMap_map] at h
  have e1 : L.map ((fun d : List ℕ × Bool => (d.1.length, d.2)) ∘
      fun d : List (ℕ × StFeatures α) × Bool => (d.1.map fun s => s.1, d.2)) =
      L.map fun d => (d.1.length, d.2) := by
    apply List.map_congr_left
    intro d _
    simp
  have g : ∀ {β : Type} (f : ℕ × Bool → β) (f' : StFeatures α × Bool → β),
      (∀ d ∈ L, ∀ s ∈ d.1, f (s.1, d.2) = f' (s.2, d.2)) →
      (L.flatMap fun d => (d.1.map fun s => s.1).map fun a => (a, d.2)).map f = S.map f' := by
    intro β f f' hf
    rw [hS, List.map_flatMap, List.map_flatMap]
    apply List.flatMap_congr
    intro d hd
    rw [List.map_map, List.map_map, List.map_map]
    apply List.map_congr_left
    intro s hs
    exact hf d hd s hs
  have hlen : (L.flatMap fun d => (d.1.map fun s => s.1).map fun a => (a, d.2)).length = S.length := by
    have := congrArg List.length (g (fun _ => ()) (fun _ => ()) fun _ _ _ _ => rfl)
    simpa using this
  have g6 := g (fun q => ((6 : ℕ), q.2)) (fun q => ((6 : ℕ), q.2)) fun _ _ _ _ => rfl
  have gF := g (fun q => (3 * q.1, q.2)) (fun q => (q.1.xf.length, q.2))
    fun d hd s hs => by simp only [(hw d hd s hs).2]
  have gB := g (fun q => q.2) (fun q => q.2) fun _ _ _ _ => rfl
  rw [e1] at h
  simp only [g6, gF, gB, hlen] at h
  rw [h] at hix
  simp only [Except.ok.injEq] at hix
  subst hix
  refine ⟨hs, rfl, rfl, rfl, ?_⟩
  simp only [featureRows, List.length_append, List.length_map, List.length_flatMap, tot, List.map_map]
  have a1 : S.map ((fun q : ℕ × Bool => if q.2 then q.1 else 0) ∘ fun q => (6, q.2)) =
      S.map fun q => (if q.2 then q.1.xs else []).length := by
    apply List.map_congr_left
    intro q hq
    simp only [Function.comp]
    split
    · rw [hs q hq]
    · rfl
  have a2 : S.map ((fun q : ℕ × Bool => if q.2 then q.1 else 0) ∘ fun q => (q.1.xf.length, q.2)) =
      S.map fun q => (if q.2 then q.1.xf else []).length := by
    apply List.map_congr_left
    intro q hq
    simp only [Function.comp]
    split <;> rfl
  rw [a1, a2]
  omega

/-- **C121, feature matrix.** For data sets of structures with their features (`L`: number of atoms and
features of each structure, and whether forces are included), for all numbers of threads and all
schedules and whatever the uninitialised matrix contains, the matrix consists of the energy rows of all
structures, then their stress rows, then their force rows. -/
theorem C121_design {α : Type} (L : List (List (ℕ × StFeatures α) × Bool))
    (hw : ∀ d ∈ L, ∀ s ∈ d.1, s.2.xs.length = 6 ∧ s.2.xf.length = 3 * s.1) (ix : Index)
    (hix : setIndex (L.map fun d => (d.1.length, d.2)) (L.flatMap fun d => d.1.map (·.1)) = .ok ix)
    (feat : ℕ → StFeatures α) (S : List (StFeatures α × Bool))
    (hS : S = L.flatMap fun d => d.1.map fun s => (s.2, d.2))
    (hfeat : ∀ (i : ℕ) (q : StFeatures α × Bool), S[i]? = some q → feat i = q.1)
    (x0 : ℕ → α) (x : List α) :
    ModelResult ix feat S.length x0 x ↔
      x = S.map (·.1.xe) ++ S.flatMap (fun q => if q.2 then q.1.xs else []) ++
        S.flatMap (fun q => if q.2 then q.1.xf else []) := by
  obtain ⟨h1, h2, h3, h4, h5⟩ := index_of L hw ix hix S hS
  have hperm := writes_perm S ix feat hfeat h1 h2 h3 h4
  have hr := result_agree S.length (modelBody ix feat) x0
    (fun l => ((featureRows S)[l]?).getD (x0 l))
    (by
      intro i hi
      rw [modelBody_eq]
      apply agree_writeAll
      intro w hw
      have := hperm.mem_iff.1 (List.mem_flatMap.2 ⟨i, List.mem_range.2 hi, hw⟩)
      obtain ⟨⟨v, k⟩, hq, rfl⟩ := List.mem_map.1 this
      simp [List.mem_zipIdx_iff_getElem?.1 hq])
    (by
      intro l
      cases hl : (featureRows S)[l]? with
      | none => right; simp
      | some v =>
          left
          have : (l, v) ∈ (featureRows S).zipIdx.map fun q => (q.2, q.1) :=
            List.mem_map.2 ⟨(v, l), List.mem_zipIdx_iff_getElem?.2 hl, rfl⟩
          obtain ⟨i, hi, hw⟩ := List.mem_flatMap.1 (hperm.mem_iff.2 this)
          refine ⟨i, List.mem_range.1 hi, ?_⟩
          rw [modelBody_eq]
          exact pending_writeAll _ _ hw)
  have e : (List.range (ix.nE + ix.nF + ix.nS)).map (fun l => ((featureRows S)[l]?).getD (x0 l)) =
      featureRows S := by
    rw [h5]
    apply List.ext_getElem
    · simp
    · intro k a b
      simp [List.getElem?_eq_getElem b]
  change _ ↔ x = featureRows S
  constructor
  · rintro ⟨m, hm, rfl⟩
    rw [(hr m).1 hm, e]
  · rintro rfl
    exact ⟨_, (hr _).2 rfl, e.symm⟩

/-- **C121, feature matrix: data races.** -/
theorem C121_design_no_race {α : Type} (L : List (List (ℕ × StFeatures α) × Bool))
    (hw : ∀ d ∈ L, ∀ s ∈ d.1, s.2.xs.length = 6 ∧ s.2.xf.length = 3 * s.1) (ix : Index)
    (hix : setIndex (L.map fun d => (d.1.length, d.2)) (L.flatMap fun d => d.1.map (·.1)) = .ok ix)
    (feat : ℕ → StFeatures α) (S : List (StFeatures α × Bool))
    (hS : S = L.flatMap fun d => d.1.map fun s => (s.2, d.2))
    (hfeat : ∀ (i : ℕ) (q : StFeatures α × Bool), S[i]? = some q → feat i = q.1) (x0 : ℕ → α) :
    RaceFree S.length (modelBody ix feat) x0 := by
  obtain ⟨h1, h2, h3, h4, _⟩ := index_of L hw ix hix S hS
  have hperm := writes_perm S ix feat hfeat h1 h2 h3 h4
  refine raceFree (own := fun i l => l ∈ (writesOf ix feat i).map (·.1)) (ro := fun _ => False)
    ⟨?_, ?_, fun _ _ _ h => h.elim⟩ x0
  · intro i _
    rw [modelBody_eq]
    exact local_writeAll _ fun w hw => List.mem_map.2 ⟨w, hw, rfl⟩
  · exact disjoint_of_perm _ _ _ hperm

/-! ## Feature matrix of a hybrid model -/

section
variable {A P K : Type}
open Verif.HybridEval

/-- **C121, hybrid models.** The matrix of a hybrid model for all schedules: the rows of C33. -/
theorem C121_hybrid [Zero K] (subs : List (CSub A P K)) (hs : ∀ s ∈ subs, s.WF)
    (L : List (List (CStr A P) × Bool))
    (hst : ∀ d ∈ L, ∀ st ∈ d.1, st.types.length = st.positions.length) (ix : Index)
    (hix : setIndex (L.map fun d => (d.1.length, d.2))
      (L.flatMap fun d => d.1.map fun st => st.positions.length) = .ok ix)
    (sts : ℕ → CStr A P) (S : List (CStr A P × Bool))
    (hS : S = L.flatMap fun d => d.1.map fun st => (st, d.2))
    (hsts : ∀ (i : ℕ) (q : CStr A P × Bool), S[i]? = some q → sts i = q.1)
    (x : ℕ × ℕ → K) :
    LoopResult S.length (hybridBody ix subs sts) (fun _ => 0) x ↔
      x = fun l => ((featureRows (S.map fun q =>
        (hybridFeatures q.1.positions.length (partsOf subs q.1), q.2)))[l.1]?.getD []).getD l.2 0 := by
  have hst' : ∀ q ∈ S, q.1.types.length = q.1.positions.length := by
    intro q hq
    rw [hS] at hq
    obtain ⟨d, hd, hq⟩ := List.mem_flatMap.1 hq
    obtain ⟨st, h, rfl⟩ := List.mem_map.1 hq
    exact hst d hd st h
  have hio := setIndex_IndexOf L ix hix
  rw [← hS] at hio
  obtain ⟨h1, h2⟩ := hybrid_cells ix subs S hio hs hst' sts hsts (List.range S.length) (List.Perm.refl _)
  apply result_agree
  · intro i hi
    apply agree_writeAll
    intro w hw
    obtain ⟨w, hw', rfl⟩ := List.mem_map.1 hw
    exact (h1 w (List.mem_flatMap.2 ⟨i, List.mem_range.2 hi, hw'⟩)).symm
  · rintro ⟨r, c⟩
    rcases h2 r c with ⟨w, hw, rfl, rfl⟩ | h
    · left
      obtain ⟨i, hi, hw⟩ := List.mem_flatMap.1 hw
      refine ⟨i, List.mem_range.1 hi, ?_⟩
      exact pending_writeAll _ ((w.1, w.2.1), w.2.2) (List.mem_map.2 ⟨w, hw, rfl⟩)
    · exact .inr h

/-- Sizes of the features of a structure. -/
def sizesOf (st : CStr A P) : ℕ × StFeatures Unit :=
  (st.positions.length, ⟨(), List.replicate 6 (), List.replicate (3 * st.positions.length) ()⟩)

theorem mem_block {b n k : ℕ} (h : k < n) :
    b + k ∈ (((List.replicate n ()).zipIdx b).map fun q => (q.2, q.1)).map (·.1) := by
  rw [List.map_map]
  have : ((List.replicate n ()).zipIdx b).map ((fun q : ℕ × Unit => q.1) ∘ fun q => (q.2, q.1)) =
      ((List.replicate n ()).zipIdx b).map (·.2) := rfl
  rw [this, List.zipIdx_map_snd, List.mem_range'_1, List.length_replicate]
  omega

/-- **C121, hybrid models: data races.** -/
theorem C121_hybrid_no_race (subs : List (CSub A P K)) (hs : ∀ s ∈ subs, s.WF)
    (L : List (List (CStr A P) × Bool))
    (hst : ∀ d ∈ L, ∀ st ∈ d.1, st.types.length = st.positions.length) (ix : Index)
    (hix : setIndex (L.map fun d => (d.1.length, d.2))
      (L.flatMap fun d => d.1.map fun st => st.positions.length) = .ok ix)
    (sts : ℕ → CStr A P) (S : List (CStr A P × Bool))
    (hS : S = L.flatMap fun d => d.1.map fun st => (st, d.2))
    (hsts : ∀ (i : ℕ) (q : CStr A P × Bool), S[i]? = some q → sts i = q.1)
    (x0 : ℕ × ℕ → K) :
    RaceFree S.length (hybridBody ix subs sts) x0 := by
  have hst' : ∀ q ∈ S, q.1.types.length = q.1.positions.length := by
    intro q hq
    rw [hS] at hq
    obtain ⟨d, hd, hq⟩ := List.mem_flatMap.1 hq
    obtain ⟨st, h, rfl⟩ := List.mem_map.1 hq
    exact hst d hd st h
  set S' : List (StFeatures Unit × Bool) := S.map fun q => ((sizesOf q.1).2, q.2) with hS'
  obtain ⟨h1, h2, h3, h4, _⟩ := index_of
    (L.map fun d => (d.1.map sizesOf, d.2))
    (by
      intro d hd s hs
      obtain ⟨d, _, rfl⟩ := List.mem_map.1 hd
      obtain ⟨st, _, rfl⟩ := List.mem_map.1 hs
      simp [sizesOf]) ix
    (by
      rw [← hix, List.map_map, List.flatMap_map]
      congr 1
      · apply List.map_congr_left
        intro d _
        simp
      · apply List.flatMap_congr
        intro d _
        simp [sizesOf, Function.comp_def]) S'
    (by
      rw [hS', hS, List.map_flatMap, List.flatMap_map]
      apply List.flatMap_congr
      intro d _
      simp [Function.comp_def])
  have hfeat : ∀ (i : ℕ) (q : StFeatures Unit × Bool), S'[i]? = some q →
      (fun i => (sizesOf (sts i)).2) i = q.1 := by
    intro i q hq
    rw [hS', List.getElem?_map] at hq
    obtain ⟨q', hq', rfl⟩ := Option.map_eq_some_iff.1 hq
    simp only [hsts i q' hq']
  have hperm := writes_perm S' ix _ hfeat h1 h2 h3 h4
  have hn : S'.length = S.length := by simp [hS']
  rw [hn] at hperm
  refine raceFree
    (own := fun i l => l.1 ∈ (writesOf ix (fun i => (sizesOf (sts i)).2) i).map (·.1))
    (ro := fun _ => False) ⟨?_, ?_, fun _ _ _ h => h.elim⟩ x0
  · intro i hi
    apply local_writeAll
    intro w hw
    obtain ⟨w, hw', rfl⟩ := List.mem_map.1 hw
    obtain ⟨n, p, k, hp, _, hk⟩ := (mem_strWrites subs (sts i) i w).1 hw'
    have hSi : S[i]? = some S[i] := List.getElem?_eq_getElem hi
    have hlen : (sts i).types.length = (sts i).positions.length := by
      rw [hsts i _ hSi]
      exact hst' _ (List.mem_of_getElem? hSi)
    obtain ⟨w1, w2, w3, w4, w5, w6, w7⟩ := partsOf_WF subs (sts i) hs hlen p (List.mem_of_getElem? hp)
    simp only [writesOf, List.map_cons, List.mem_cons]
    rcases hk with ⟨hr, _⟩ | ⟨hf, hk⟩
    · exact .inl hr
    · right
      rw [if_pos hf, List.map_append, List.mem_append]
      rcases hk with ⟨j, row, g1, hr, _⟩ | ⟨t, row, g1, hr, _⟩
      · left
        rw [hr]
        apply mem_block
        have hj := (List.getElem?_eq_some_iff.1 g1).1
        rw [w4] at hj
        have hj3 : j / 3 < p.atoms.length := by omega
        have hget : p.atoms.getD (j / 3) 0 = p.atoms[j / 3] := by
          rw [List.getD_eq_getElem?_getD, List.getElem?_eq_getElem hj3]; rfl
        have hlt := w2 _ (List.getElem_mem hj3)
        rw [hget]
        omega
      · right
        rw [hr]
        apply mem_block
        have := (List.getElem?_eq_some_iff.1 g1).1
        omega
  · intro i hi j hj hne l
    exact disjoint_of_perm _ _ _ hperm i hi j hj hne l.1

end

/-! ## The deprecated loop -/

/-- **C121, deprecated branch.** The disabled loop over structures, which shares one evaluator, would not
have these properties: two structures with two atoms and one atom may get forces with one row each. -/
theorem C121_deprecated_violation :
    (∃ m, LoopResult 2 (deprecatedBody fun i => if i = 0 then 2 else 1) (fun _ => 0) m ∧
      m (.forces 0) = 2 ∧ m (.forces 1) = 1) ∧
    (∃ m, LoopResult 2 (deprecatedBody fun i => if i = 0 then 2 else 1) (fun _ => 0) m ∧
      m (.forces 0) = 1 ∧ m (.forces 1) = 1) ∧
    ¬ RaceFree 2 (deprecatedBody fun i => if i = 0 then 2 else 1) (fun _ => 0) := by
  refine ⟨⟨_, ⟨[[0], [1]], [0, 0, 0, 1, 1, 1], by decide, ?_, rfl⟩, rfl, rfl⟩,
    ⟨_, ⟨[[0], [1]], [0, 1, 0, 0, 1, 1], by decide, ?_, rfl⟩, rfl, rfl⟩, ?_⟩
  · intro t
    rcases t with _ | _ | t <;> rfl
  · intro t
    rcases t with _ | _ | t <;> rfl
  · intro h
    exact h [[0], [1]] [] (by decide) 0 1 .nAtom (by decide) ⟨_, _, rfl⟩ (.inl ⟨_, _, rfl⟩)

/-! ## Examples -/

/-- Two threads interleave the iterations of the neighbour list of three atoms on a line: after an
unfinished schedule the rows are incomplete, at the end they are those of the sequential loop. -/
example :
    let body := halfBody (K := ℚ) 3 (1 / 100) [0] (fun i _ => (i : ℚ) / 2)
    let c := loopStart body (fun _ => []) [[0, 2], [1]]
    (((c.run [0, 1, 0]).mem 2).length, ((c.run [0, 1, 0]).mem 1).length) = (1, 0) ∧
    (((c.run [0, 1, 0, 1, 0, 0]).mem 2).map (·.1), ((c.run [0, 1, 0, 1, 0, 0]).mem 1).map (·.1)) =
      ([0, 1], [0]) := by
  decide +kernel

/-- Data sets with features that meet the hypotheses of `C121_design`. -/
example :
    let f : ℕ → ℕ × StFeatures ℕ := fun k => (1, ⟨k, List.replicate 6 (k + 1), List.replicate 3 (k + 2)⟩)
    let L : List (List (ℕ × StFeatures ℕ) × Bool) := [([f 10], false), ([f 20, f 30], true)]
    (∀ d ∈ L, ∀ s ∈ d.1, s.2.xs.length = 6 ∧ s.2.xf.length = 3 * s.1) ∧
    ((setIndex (L.map fun d => (d.1.length, d.2)) (L.flatMap fun d => d.1.map (·.1))).toOption.map
      fun ix => (ix.xsBegin, ix.xfBegin, ix.nE + ix.nF + ix.nS)) =
      some ([-1, 3, 9], [-1, 15, 18], 21) := by
  decide +kernel

end Verif.Parallel
