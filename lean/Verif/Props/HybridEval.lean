import Verif.Lemmas.HybridEval
import Verif.Props.Hybrid

/-!
# C32, C33: hybrid potentials
-/

namespace Verif.HybridEval
open Verif.Rows Verif.Spec
variable {A P K : Type}

/-! ## C32 -/

/-- **C32.** For every list of feature counts and every coefficient vector of the total length, the
division succeeds, gives one part per sub-model with its number of coefficients, and the parts put
together are the vector. -/
theorem C32_division {α : Type} (ns : List ℕ) (target : List α) (h : target.length = ns.sum) :
    ∃ parts, division (cumulative ns 0) ns.length target = .ok parts ∧
      parts.map List.length = ns ∧ parts.flatten = target := by
  refine ⟨_, division_eq ns target, ?_⟩
  rw [cut_eq]
  exact ⟨cut_lengths _ _ h, cut_flatten _ _ h⟩

/-- **C32.** The scaled coefficients of the sub-models, put together, are the scaled coefficients of
the whole model. -/
theorem C32_scaled [Div K] (ns : List ℕ) (coeffs scales : List K) (hc : coeffs.length = ns.sum)
    (hs : scales.length = ns.sum) :
    ∃ parts, scaledCoeffs (cumulative ns 0) ns.length coeffs scales = .ok parts ∧
      parts.map List.length = ns ∧ parts.flatten = List.zipWith (· / ·) coeffs scales := by
  refine ⟨_, by simp only [scaledCoeffs, division_eq, bind, Except.bind, pure, Except.pure]; rfl, ?_⟩
  rw [cut_eq, cut_eq, cut_zipWith]
  have : (List.zipWith (· / ·) coeffs scales).length = ns.sum := by simp [hc, hs]
  exact ⟨cut_lengths _ _ this, cut_flatten _ _ this⟩

/-- **C32.** The prediction of the whole model from features standing side by side is the sum of the
predictions of the sub-models from their own features and their own part of the coefficients. -/
theorem C32_prediction [Semiring K] (xs : List (List K)) (coeffs : List K)
    (h : coeffs.length = (xs.map List.length).sum) :
    ∃ parts, division (cumulative (xs.map List.length) 0) xs.length coeffs = .ok parts ∧
      dot xs.flatten coeffs = ((xs.zip parts).map fun q => dot q.1 q.2).sum := by
  have := division_eq (xs.map List.length) coeffs
  rw [List.length_map, ← List.length_map (f := List.length) (as := xs)] at this
  rw [List.length_map] at this
  refine ⟨_, this, ?_⟩
  have e := cut_eq (xs.map List.length) coeffs
  rw [List.length_map] at e
  rw [e]
  exact dot_flatten xs _ coeffs rfl h

/-- **C32.** The files receive, in order and under the names `filename.1`, `filename.2`, ..., the same
parts of coefficients and scales. -/
theorem C32_files (ns : List ℕ) (coeffs scales : List K) (filename : String)
    (hc : coeffs.length = ns.sum) (hs : scales.length = ns.sum) :
    ∃ files, saveMlps (cumulative ns 0) ns.length coeffs scales filename = .ok files ∧
      files.map (·.1) = (List.range ns.length).map (fun i => filename ++ "." ++ toString (i + 1)) ∧
      division (cumulative ns 0) ns.length coeffs = .ok (files.map (·.2.1)) ∧
      division (cumulative ns 0) ns.length scales = .ok (files.map (·.2.2)) ∧
      (files.map (·.2.1)).flatten = coeffs ∧ (files.map (·.2.2)).flatten = scales := by
  have hsave : saveMlps (cumulative ns 0) ns.length coeffs scales filename =
      .ok ((List.range ns.length).map fun i => (filename ++ "." ++ toString (i + 1),
        sliceAt ns coeffs i, sliceAt ns scales i)) := by
    unfold saveMlps
    apply mapM_ok
    intro i hi
    rw [bounds_eq _ _ (List.mem_range.1 hi)]
    rfl
  refine ⟨_, hsave, ?_, ?_, ?_, ?_, ?_⟩
  · rw [List.map_map]; rfl
  · rw [division_eq, List.map_map]; rfl
  · rw [division_eq, List.map_map]; rfl
  · rw [List.map_map]
    show ((List.range ns.length).map (sliceAt ns coeffs)).flatten = _
    rw [cut_eq, cut_flatten _ _ hc]
  · rw [List.map_map]
    show ((List.range ns.length).map (sliceAt ns scales)).flatten = _
    rw [cut_eq, cut_flatten _ _ hs]

example : division (cumulative [2, 0, 3] 0) 3 [10, 11, 12, 13, 14] =
    .ok [[10, 11], [], [12, 13, 14]] := by decide +kernel
example : saveMlps (cumulative [1, 2] 0) 2 [10, 11, 12] [1, 2, 3] "polymlp.yaml" =
    .ok [("polymlp.yaml.1", [10], [1]), ("polymlp.yaml.2", [11, 12], [2, 3])] := by decide +kernel
example : ∃ parts, division (cumulative [2, 1] 0) 2 [(2 : ℤ), 3, 5] = .ok parts ∧
    dot [(1 : ℤ), 10, 100] [2, 3, 5] =
      (([[1, 10], [100]].zip parts).map fun q => dot q.1 q.2).sum :=
  C32_prediction [[1, 10], [100]] [2, 3, 5] rfl

/-! ## C33: types -/

/-- **C33.** When the type numbers of the sub-model increase, the atoms seen by the sub-model are
exactly those of its types, in order, and the new number of an atom is the place of its type in the
list of the sub-model. -/
theorem C33_renumber (ids types : List ℕ) (positions : List P) (hs : ids.Pairwise (· < ·)) :
    (∀ a, a ∈ (cxxActive false ids types positions).atoms ↔
      ∃ t, types[a]? = some t ∧ t ∈ ids) ∧
    (cxxActive false ids types positions).atoms.Pairwise (· < ·) ∧
    ∀ (j : ℕ) (a : ℕ), (cxxActive false ids types positions).atoms[j]? = some a →
      ∃ t k : ℕ, types[a]? = some t ∧ ids[k]? = some t ∧
        (cxxActive false ids types positions).types[j]? = some k := by
  have hmem : ∀ a, a ∈ (cxxActive false ids types positions).atoms ↔
      ∃ t, types[a]? = some t ∧ t ∈ ids := by
    intro a
    simp only [cxxActive, Bool.false_eq_true, if_false, List.mem_filter, List.mem_range]
    constructor
    · rintro ⟨h1, h2⟩
      rw [List.getElem?_eq_getElem h1] at h2
      exact ⟨_, List.getElem?_eq_getElem h1, by simpa using h2⟩
    · rintro ⟨t, h1, h2⟩
      exact ⟨(List.getElem?_eq_some_iff.1 h1).1, by rw [h1]; simpa using h2⟩
  refine ⟨hmem, ?_, ?_⟩
  · simp only [cxxActive, Bool.false_eq_true, if_false]
    exact List.pairwise_lt_range.filter _
  · intro j a hj
    obtain ⟨t, ht, hin⟩ := (hmem a).1 (List.mem_of_getElem? hj)
    refine ⟨t, ids.idxOf t, ht, List.getElem?_idxOf hin, ?_⟩
    have hty : (cxxActive false ids types positions).types = renumber ids
        ((cxxActive false ids types positions).atoms.filterMap fun i => types[i]?) := by
      simp [cxxActive]
    have hall : ∀ x ∈ ((cxxActive false ids types positions).atoms.filterMap fun i => types[i]?),
        x ∈ ids := by
      intro x hx
      obtain ⟨i, hi, hx⟩ := List.mem_filterMap.1 hx
      obtain ⟨t', h1, h2⟩ := (hmem i).1 hi
      rw [h1] at hx
      cases hx
      exact h2
    rw [hty, renumber_eq ids _ hs hall, List.getElem?_map]
    have hg : ∀ (is : List ℕ) (j : ℕ), (∀ i ∈ is, ∃ t, types[i]? = some t) → is[j]? = some a →
        (is.filterMap fun i => types[i]?)[j]? = some t := by
      intro is
      induction is with
      | nil => intro j _ h; simp at h
      | cons i is ih =>
        intro j h1 h2
        obtain ⟨t', h3⟩ := h1 i (by simp)
        rw [List.filterMap_cons_some h3]
        cases j with
        | zero =>
          simp only [List.getElem?_cons_zero, Option.some.injEq] at h2 ⊢
          subst h2
          rw [h3] at ht
          simpa using ht
        | succ j =>
          rw [List.getElem?_cons_succ] at h2 ⊢
          exact ih j (fun k hk => h1 k (by simp [hk])) h2
    rw [hg _ j (fun i hi => by obtain ⟨t, h, _⟩ := (hmem i).1 hi; exact ⟨t, h⟩) hj]
    rfl

/-- **C33, limit.** With type numbers that do not increase the replacements run into each other: for
the sub-model types `[1, 0]` all atoms end up with the same number. -/
theorem C33_renumber_violation :
    (cxxActive false [1, 0] [0, 1, 0, 2] [(), (), (), ()]).types = [1, 1, 1] := by decide +kernel

/-- **C33.** Training and prediction number the atoms of a sub-model alike: if the global elements are
different from each other, the sub-model's elements are among them in increasing position (as
`_set_unique_types` arranges), and the types of the structure are the positions of its elements, both
sides find the same atoms, types and positions. -/
theorem C33_same_numbering (global own elements : List String) (positions : List P)
    (hown : (own.map (global.idxOf ·)).Pairwise (· < ·))
    (hsub : ∀ e ∈ own, e ∈ global) (hel : ∀ e ∈ elements, e ∈ global) :
    pyActive own elements positions = .ok
      (cxxActive false (own.map (global.idxOf ·)) (elements.map (global.idxOf ·)) positions) := by
  have hnd : own.Nodup :=
    List.Nodup.of_map _ (hown.imp fun h => Nat.ne_of_lt h)
  have hinj : ∀ e ∈ global, ∀ f ∈ global, global.idxOf e = global.idxOf f → e = f := by
    intro e he f hf h
    exact (List.idxOf_inj he).1 h
  have hatoms : ((List.range elements.length).filter fun i =>
      (elements[i]?).any fun e => decide (e ∈ own)) =
      (List.range (elements.map (global.idxOf ·)).length).filter fun i =>
      ((elements.map (global.idxOf ·))[i]?).any fun t => decide (t ∈ own.map (global.idxOf ·)) := by
    rw [List.length_map]
    apply List.filter_congr
    intro i hi
    have hi := List.mem_range.1 hi
    rw [List.getElem?_map, List.getElem?_eq_getElem hi]
    simp only [Option.map_some, Option.any_some, decide_eq_decide, List.mem_map]
    constructor
    · exact fun h => ⟨_, h, rfl⟩
    · rintro ⟨e, he, h⟩
      rw [← hinj e (hsub e he) _ (hel _ (List.getElem_mem hi)) h]
      exact he
  unfold pyActive cxxActive
  rw [if_neg (by rw [hnd.dedup]; simp)]
  simp only [Bool.false_eq_true, if_false, Except.ok.injEq]
  rw [hatoms]
  congr 1
  generalize hA : ((List.range (elements.map (global.idxOf ·)).length).filter _) = as
  have hfm : (as.filterMap fun i => (elements.map (global.idxOf ·))[i]?) =
      (as.filterMap fun i => elements[i]?).map (global.idxOf ·) := by
    rw [List.map_filterMap]
    congr 1
    funext i
    rw [List.getElem?_map]
  rw [hfm, renumber_eq _ _ hown]
  · rw [List.map_map]
    apply List.map_congr_left
    intro e he
    obtain ⟨i, hi, he⟩ := List.mem_filterMap.1 he
    have heo : e ∈ own := by
      rw [← hA, ← hatoms] at hi
      have := (List.mem_filter.1 hi).2
      rw [he] at this
      simpa using this
    show own.idxOf e = (own.map (global.idxOf ·)).idxOf (global.idxOf e)
    have h1 : (own.map (global.idxOf ·))[own.idxOf e]? = some (global.idxOf e) := by
      rw [List.getElem?_map, List.getElem?_idxOf heo]; rfl
    have h2 : (own.map (global.idxOf ·))[(own.map (global.idxOf ·)).idxOf (global.idxOf e)]? =
        some (global.idxOf e) := List.getElem?_idxOf (List.mem_map.2 ⟨e, heo, rfl⟩)
    have hnd2 : (own.map (global.idxOf ·)).Nodup := hown.imp fun h => Nat.ne_of_lt h
    exact (List.getElem?_inj (List.getElem?_eq_some_iff.1 h1).1 hnd2).1 (h1.trans h2.symm)
  · intro t ht
    obtain ⟨e, he, rfl⟩ := List.mem_map.1 ht
    obtain ⟨i, hi, he⟩ := List.mem_filterMap.1 he
    rw [← hA, ← hatoms] at hi
    have := (List.mem_filter.1 hi).2
    rw [he] at this
    exact List.mem_map.2 ⟨e, by simpa using this, rfl⟩

example : pyActive ["Mg", "O"] ["O", "Al", "Mg", "O"] [10, 11, 12, 13] =
    .ok ⟨[0, 2, 3], [1, 0, 1], [10, 12, 13]⟩ := by decide +kernel
example : cxxActive false (["Mg", "O"].map (["Mg", "Al", "O"].idxOf ·))
    (["O", "Al", "Mg", "O"].map (["Mg", "Al", "O"].idxOf ·)) [10, 11, 12, 13] =
    ⟨[0, 2, 3], [1, 0, 1], [10, 12, 13]⟩ := by decide +kernel

/-- **C33.** The condition of `C33_same_numbering` holds for every sub-model that the parameter set-up
accepts. -/
theorem C33_condition_met {V : Type} (ps : List (Params.Sub K V)) (hwf : Params.SubsWF ps)
    (common : Params.Common K) (qs : List (Params.Sub K V))
    (h : Params.initHybrid ps = .ok (common, qs)) :
    ∀ q ∈ qs, (q.elements.map (common.elements.idxOf ·)).Pairwise (· < ·) ∧
      (∀ e ∈ q.elements, e ∈ common.elements) ∧
      q.typeIndices = q.elements.map (common.elements.idxOf ·) := by
  obtain ⟨h1, h2, h3, h4⟩ := Params.C38_hybrid ps hwf common qs h
  intro q hq
  obtain ⟨i, hi⟩ := List.getElem?_of_mem hq
  have hlen := h4.length_eq
  have hiq := (List.getElem?_eq_some_iff.1 hi).1
  have hp : (ps[i]'(by omega)) ∈ ps := List.getElem_mem _
  have hpl := List.forall₂_iff_get.1 h4 |>.2 i (by omega) hiq
  simp only [List.get_eq_getElem, (List.getElem?_eq_some_iff.1 hi).2] at hpl
  obtain ⟨g1, g2, g3, g4, g5⟩ := hpl
  have hin : ∀ e ∈ q.elements, e ∈ common.elements := fun e he => (h3 _ hp).2 e (g1.mem_iff.1 he)
  have heq : q.typeIndices = q.elements.map (common.elements.idxOf ·) := by
    have hl : q.typeIndices.length = q.elements.length := by
      have := congrArg List.length g4
      simpa using this
    apply List.ext_getElem (by simpa using hl)
    intro k hk1 hk2
    have hk3 : k < q.elements.length := by omega
    have hk := congrArg (·[k]?) g4
    simp only [List.getElem?_map, List.getElem?_eq_getElem hk1, List.getElem?_eq_getElem hk3,
      Option.map_some, Option.some.injEq] at hk
    rw [List.getElem_map]
    have h5 := List.getElem?_idxOf (hin _ (List.getElem_mem hk3))
    exact (List.getElem?_inj (List.getElem?_eq_some_iff.1 hk).1 h2).1 (hk.trans h5.symm)
  exact ⟨heq ▸ g3, hin, heq⟩

/-! ## C33: feature matrix -/

/-- **C33.** Whatever the data sets and the execution order of the parallel loop, the feature matrix of
a hybrid model contains, in the order energies, stresses, forces of all structures, the rows in which
the features of the sub-models stand side by side, the force features of an atom that a sub-model sees
in the row of this atom and zeros in the rows of the atoms it does not see. -/
theorem C33_matrix [Zero K] (subs : List (CSub A P K)) (hs : ∀ s ∈ subs, s.WF)
    (L : List (List (CStr A P) × Bool))
    (hst : ∀ d ∈ L, ∀ st ∈ d.1, st.types.length = st.positions.length) (ix : Index)
    (hix : setIndex (L.map fun d => (d.1.length, d.2))
      (L.flatMap fun d => d.1.map fun st => st.positions.length) = .ok ix)
    (sts : ℕ → CStr A P)
    (hsts : ∀ (i : ℕ) (q : CStr A P × Bool),
      (L.flatMap fun d => d.1.map fun st => (st, d.2))[i]? = some q → sts i = q.1)
    (order : List ℕ)
    (ho : order.Perm (List.range (L.flatMap fun d => d.1.map fun st => (st, d.2)).length))
    (r c : ℕ) :
    fillHybrid ix subs sts order r c =
      ((featureRows ((L.flatMap fun d => d.1.map fun st => (st, d.2)).map fun q =>
        (hybridFeatures q.1.positions.length (partsOf subs q.1), q.2)))[r]?.getD []).getD c 0 := by
  apply fillHybrid_rows ix subs _ (setIndex_IndexOf L ix hix) hs ?_ sts hsts order ho
  intro q hq
  obtain ⟨d, hd, hq⟩ := List.mem_flatMap.1 hq
  obtain ⟨st, h, rfl⟩ := List.mem_map.1 hq
  exact hst d hd st h

/-- A sub-model whose features are recognisable in the example. -/
def exSub (full : Bool) (ids : List ℕ) (base : ℤ) : CSub Unit ℕ ℤ :=
  ⟨2, full, ids, fun _ _ types =>
    ⟨[base * types.length, types.length],
      List.replicate 6 [base * types.length, types.sum],
      (List.range (3 * types.length)).map fun (j : ℕ) =>
        [base + 10 + j, base + 20 + (types.getD (j / 3) 0 : ℕ)]⟩⟩

theorem exSub_WF (full : Bool) (ids : List ℕ) (base : ℤ) : (exSub full ids base).WF := by
  intro a pos types
  refine ⟨rfl, by simp [exSub], ?_, by simp [exSub], ?_⟩
  · intro r hr
    obtain ⟨j, _, rfl⟩ := List.mem_map.1 hr
    rfl
  · intro r hr
    rw [(List.mem_replicate.1 hr).2]
    rfl

/-- The matrix of the example: one structure with three atoms, a full sub-model and one that knows
only types 0 and 2. -/
theorem C33_matrix_example :
    let ix : Index := ⟨[1], [7], [1], [7], [true], 1, 9, 6⟩
    setIndex [(1, true)] [3] = .ok ix ∧
    (List.range 4).map (fillHybrid ix [exSub true [0, 1, 2] 100, exSub false [0, 2] 200]
      (fun _ => ⟨(), [5, 6, 7], [2, 1, 0]⟩) [0] 13) = [116, 120, 213, 220] ∧
    (List.range 4).map (fillHybrid ix [exSub true [0, 1, 2] 100, exSub false [0, 2] 200]
      (fun _ => ⟨(), [5, 6, 7], [2, 1, 0]⟩) [0] 10) = [113, 121, 0, 0] := by decide +kernel

/-! ## C33: prediction -/

/-- The evaluator of a sub-model computes the linear model given by the features and the
coefficients `c` of the sub-model. (For pair features this is C28.) -/
def Agrees [Semiring K] (s : CSub A P K) (c : List K) (ev : A → List P → List ℕ → Prop3 K) : Prop :=
  ∀ (a : A) (pos : List P) (types : List ℕ),
    (ev a pos types).energy = dot (s.run a pos types).xe c ∧
    (ev a pos types).force = (List.range types.length).map (fun j (x : Fin 3) =>
      dot ((s.run a pos types).xf.getD (3 * j + x) []) c) ∧
    (ev a pos types).stress = fun (t : Fin 6) => dot ((s.run a pos types).xs.getD t []) c

/-- Prediction of the linear model with hybrid rows. -/
def linearPrediction [Semiring K] (n : ℕ) (parts : List (Part K)) (coeffs : List K) : Prop3 K :=
  ⟨dot (hybridEnergyRow parts) coeffs,
    (List.range n).map (fun a (x : Fin 3) => dot (hybridForceRow parts a x) coeffs),
    fun (t : Fin 6) => dot (hybridStressRow parts t) coeffs⟩

/-- A sub-model as the trainer sees it, its coefficients, and as the evaluator sees it. -/
structure Member (A P K : Type) where
  train : CSub A P K
  coeffs : List K
  pred : PSub A P K

/-- The two sides of a sub-model belong together; `global` are the elements of the hybrid model. -/
structure Member.OK [Semiring K] (global : List String) (m : Member A P K) : Prop where
  wf : m.train.WF
  len : m.coeffs.length = m.train.nFeat
  agrees : Agrees m.train m.coeffs m.pred.eval
  /-- without atoms there are no contributions -/
  empty : ∀ a, (∀ x ∈ (m.train.run a [] []).xe, x = 0) ∧
    ∀ r ∈ (m.train.run a [] []).xs, ∀ x ∈ r, x = 0
  types : (m.train.typeFull = true ∧ m.pred.typeFull ≠ some false ∧ m.pred.elements = global) ∨
    (m.train.typeFull = false ∧ m.pred.typeFull = some false ∧
      m.train.typeIndices = m.pred.elements.map (global.idxOf ·) ∧
      (m.pred.elements.map (global.idxOf ·)).Pairwise (· < ·) ∧
      ∀ e ∈ m.pred.elements, e ∈ global)

/-- Prediction of one sub-model. -/
def partPrediction [Semiring K] (n : ℕ) (p : Part K) (c : List K) : Prop3 K :=
  ⟨dot p.feat.xe c, (List.range n).map (fun a (x : Fin 3) => dot (forceBlock p a x) c),
    fun (t : Fin 6) => dot (p.feat.xs.getD t []) c⟩

theorem dot_zeros [Semiring K] (x c : List K) (h : ∀ a ∈ x, a = 0) : dot x c = 0 := by
  unfold dot
  induction x generalizing c with
  | nil => simp
  | cons a x ih =>
    cases c with
    | nil => simp
    | cons b c =>
      rw [List.zipWith_cons_cons, List.sum_cons, ih c fun y hy => h y (by simp [hy]),
        h a (by simp), zero_mul, zero_add]

theorem scatter_eq [Zero K] (n : ℕ) (atoms : List ℕ) (force : List (Fin 3 → K))
    (hn : atoms.Nodup) (hlt : ∀ a ∈ atoms, a < n) (hl : force.length = atoms.length) :
    scatter n atoms force = (List.range n).map fun a =>
      if a ∈ atoms then force.getD (atoms.idxOf a) 0 else 0 := by
  have hs : scatter n atoms force = applyWrites (List.replicate n 0) (atoms.zip force) := rfl
  have hf : (atoms.zip force).map (·.1) = atoms := List.map_fst_zip (by omega)
  rw [hs]
  apply List.ext_getElem?
  intro a
  by_cases ha : a < n
  · rw [List.getElem?_map, List.getElem?_range ha, Option.map_some]
    by_cases hm : a ∈ atoms
    · have hi := List.idxOf_lt_length_iff.2 hm
      rw [if_pos hm]
      apply applyWrites_mem _ _ (by rw [hf]; exact hn) a _ ?_ (by simpa using ha)
      rw [List.mem_iff_getElem?]
      refine ⟨atoms.idxOf a, ?_⟩
      rw [List.getElem?_zip_eq_some]
      refine ⟨List.getElem?_idxOf hm, ?_⟩
      rw [List.getD_eq_getElem?_getD, List.getElem?_eq_getElem (by omega)]
      rfl
    · rw [if_neg hm, applyWrites_not_mem _ _ _ (by rw [hf]; exact hm), List.getElem?_replicate,
        if_pos ha]
  · rw [List.getElem?_eq_none (by rw [applyWrites_length]; simpa using ha),
      List.getElem?_eq_none (by simpa using ha)]

theorem member_eval [Semiring K] (global : List String) (m : Member A P K) (hm : m.OK global)
    (axis : A) (positions : List P) (elements : List String)
    (hlen : positions.length = elements.length) (hel : ∀ e ∈ elements, e ∈ global) :
    evalSingle m.pred ⟨axis, positions, elements⟩ = .ok (partPrediction elements.length
      ((partsOf [m.train] ⟨axis, positions, elements.map (global.idxOf ·)⟩).headD ⟨0, [], ⟨[], [], []⟩⟩)
      m.coeffs) := by
  have hg := hm.agrees axis
  have hact := cxxActive_atoms m.train.typeFull m.train.typeIndices
    (elements.map (global.idxOf ·)) positions (by rw [List.length_map, hlen])
  rcases hm.types with ⟨h1, h2, h3⟩ | ⟨h1, h2, h3, h4, h5⟩
  · unfold evalSingle
    rw [if_neg h2]
    have ht : typesOf m.pred.elements elements = .ok (elements.map (global.idxOf ·)) := by
      unfold typesOf
      rw [if_pos, h3]
      rw [List.all_eq_true, h3]
      simpa using hel
    simp only [ht, Except.map, Except.ok.injEq, partsOf, List.map_cons, List.headD_cons]
    rw [h1]
    obtain ⟨g1, g2, g3⟩ := hg positions (elements.map (global.idxOf ·))
    simp only [cxxActive, if_true, partPrediction]
    rw [show m.pred.eval axis positions (elements.map (global.idxOf ·)) =
      ⟨(m.pred.eval axis positions (elements.map (global.idxOf ·))).energy,
        (m.pred.eval axis positions (elements.map (global.idxOf ·))).force,
        (m.pred.eval axis positions (elements.map (global.idxOf ·))).stress⟩ from rfl, g1, g2, g3]
    congr 1
    rw [List.length_map]
    apply List.map_congr_left
    intro a ha
    have ha := List.mem_range.1 ha
    funext x
    unfold forceBlock
    have hmem : a ∈ List.range positions.length := List.mem_range.2 (by omega)
    rw [if_pos hmem]
    have : (List.range positions.length).idxOf a = a := by
      have h6 := (List.nodup_range (n := positions.length)).idxOf_getElem a (by simp; omega)
      simpa using h6
    rw [this]
  · unfold evalSingle
    rw [if_pos h2]
    simp only [C33_same_numbering global m.pred.elements elements positions h4 h5 hel, Except.map,
      Except.ok.injEq, partsOf, List.map_cons, List.headD_cons]
    rw [h1, h3] at hact ⊢
    obtain ⟨act, hA⟩ : ∃ act, cxxActive false (m.pred.elements.map (global.idxOf ·))
      (elements.map (global.idxOf ·)) positions = act := ⟨_, rfl⟩
    have hpos : act.atoms = [] → act.positions = [] := by
      intro h
      rw [← hA] at h ⊢
      simp only [cxxActive, Bool.false_eq_true, if_false] at h ⊢
      rw [h]; rfl
    rw [hA] at hact ⊢
    obtain ⟨a1, a2, a3⟩ := hact
    obtain ⟨g1, g2, g3⟩ := hg act.positions act.types
    by_cases he : act.atoms = []
    · rw [if_pos he]
      have hp := hpos he
      have ht : act.types = [] := by
        rw [he] at a3
        exact List.length_eq_zero_iff.1 a3
      obtain ⟨e1, e2⟩ := hm.empty axis
      simp only [partPrediction, hp, ht, he]
      congr 1
      · rw [dot_zeros _ _ e1]
      · rw [List.ext_get_iff]
        refine ⟨by simp, fun k hk1 hk2 => ?_⟩
        simp only [List.get_eq_getElem, List.getElem_replicate, List.getElem_map]
        funext x
        rw [forceBlock, if_neg (by simp), dot_zeros]
        · rfl
        · intro a ha
          exact (List.mem_replicate.1 ha).2
      · funext t
        rw [dot_zeros]
        · rfl
        · intro a ha
          have ht6 : (t : ℕ) < (m.train.run axis [] []).xs.length := by
            rw [(hm.wf axis [] []).2.2.2.1]; omega
          rw [List.getD_eq_getElem?_getD, List.getElem?_eq_getElem ht6, Option.getD_some] at ha
          exact e2 _ (List.getElem_mem _) a ha
    · rw [if_neg he]
      simp only [partPrediction]
      rw [g1, g2, g3, scatter_eq _ _ _ a1 (fun a ha => by rw [← hlen]; exact a2 a ha) (by simp [a3])]
      congr 1
      apply List.map_congr_left
      intro a ha
      unfold forceBlock
      by_cases hmem : a ∈ act.atoms
      · have hi := List.idxOf_lt_length_iff.2 hmem
        rw [if_pos hmem]
        simp only [if_pos hmem]
        rw [List.getD_eq_getElem?_getD, List.getElem?_map, List.getElem?_range (by omega)]
        rfl
      · rw [if_neg hmem]
        simp only [if_neg hmem]
        funext x
        rw [dot_zeros]
        · rfl
        · intro y hy
          exact (List.mem_replicate.1 hy).2

/-- **C33.** For every hybrid model and every structure of its elements, the prediction (sub-models
evaluated separately on their own atoms, forces put back to these atoms, everything added up) is the
linear model given by the rows of the training matrix and the coefficients put together: training and
prediction agree for all numbers of sub-models and all subsets of elements. -/
theorem C33_prediction [Semiring K] (global : List String) (ms : List (Member A P K)) (hne : ms ≠ [])
    (hm : ∀ m ∈ ms, m.OK global) (axis : A) (positions : List P) (elements : List String)
    (hlen : positions.length = elements.length) (hel : ∀ e ∈ elements, e ∈ global) :
    evalHybrid (ms.map (·.pred)) ⟨axis, positions, elements⟩ = .ok (linearPrediction elements.length
      (partsOf (ms.map (·.train)) ⟨axis, positions, elements.map (global.idxOf ·)⟩)
      (ms.flatMap (·.coeffs))) := by
  obtain ⟨st, hst⟩ : ∃ st : CStr A P, st = ⟨axis, positions, elements.map (global.idxOf ·)⟩ := ⟨_, rfl⟩
  obtain ⟨n, hn⟩ : ∃ n, n = elements.length := ⟨_, rfl⟩
  have hwf : ∀ m ∈ ms, ∀ p ∈ partsOf [m.train] st, p.WF n := by
    intro m h p hp
    have := partsOf_WF [m.train] st (by simpa using (hm m h).wf)
      (by rw [hst]; simpa using hlen.symm) p hp
    rw [hst] at this
    simpa [hn, hlen] using this
  obtain ⟨part, hpart⟩ : ∃ part : Member A P K → Part K, part = fun m =>
    (partsOf [m.train] st).headD ⟨0, [], ⟨[], [], []⟩⟩ := ⟨_, rfl⟩
  have hparts : ∀ l : List (Member A P K), partsOf (l.map (·.train)) st = l.map part := by
    intro l
    rw [partsOf, List.map_map, hpart]
    rfl
  have heval : ∀ m ∈ ms, evalSingle m.pred ⟨axis, positions, elements⟩ =
      .ok (partPrediction n (part m) m.coeffs) := by
    intro m h
    rw [member_eval global m (hm m h) axis positions elements hlen hel, hpart, hst, hn]
  have hpw : ∀ m ∈ ms, (part m).WF n ∧ (part m).nFeat = m.coeffs.length := by
    intro m h
    refine ⟨hwf m h _ ?_, ?_⟩
    · rw [hpart]; simp [partsOf]
    · rw [hpart, (hm m h).len]; rfl
  rw [← hst, ← hn, hparts]
  -- one more sub-model
  have hcons : ∀ (m : Member A P K) (l : List (Member A P K)), m ∈ ms →
      (partPrediction n (part m) m.coeffs).add
        (linearPrediction n (l.map part) (l.flatMap (·.coeffs))) =
      linearPrediction n ((m :: l).map part) ((m :: l).flatMap (·.coeffs)) := by
    intro m l h
    obtain ⟨hw, hl⟩ := hpw m h
    unfold Prop3.add partPrediction linearPrediction
    simp only [List.map_cons, List.flatMap_cons]
    congr 1
    · simp only [hybridEnergyRow, List.flatMap_cons]
      rw [dot_append _ _ _ _ (by rw [hw.2.2.1, hl])]
    · rw [List.zipWith_map, List.zipWith_self]
      apply List.map_congr_left
      intro a _
      funext x
      simp only [hybridForceRow, List.flatMap_cons, Pi.add_apply]
      rw [dot_append _ _ _ _ (by rw [forceBlock_length _ _ _ _ hw x.2, hl])]
    · funext t
      simp only [hybridStressRow, List.flatMap_cons, Pi.add_apply]
      rw [dot_append _ _ _ _ (by
        rw [getD_mem_length _ _ (by rw [hw.2.2.2.2.2.1]; exact t.2) hw.2.2.2.2.2.2, hl])]
  have hassoc : ∀ a b c : Prop3 K, (a.add b).add c = a.add (b.add c) := by
    intro a b c
    unfold Prop3.add
    congr 1
    · exact add_assoc _ _ _
    · apply List.ext_getElem?
      intro i
      simp only [List.getElem?_zipWith]
      cases a.force[i]? <;> cases b.force[i]? <;> cases c.force[i]? <;> simp [add_assoc]
    · exact add_assoc _ _ _
  have hzero : ∀ a : Prop3 K, a.force.length = n →
      a.add (linearPrediction n [] []) = a := by
    intro a ha
    unfold Prop3.add linearPrediction
    rw [show a = ⟨a.energy, a.force, a.stress⟩ from rfl]
    congr 1
    · simp [hybridEnergyRow, dot]
    · apply List.ext_getElem?
      intro i
      simp only [List.getElem?_zipWith, List.getElem?_map]
      by_cases hi : i < n
      · rw [List.getElem?_range hi, List.getElem?_eq_getElem (by omega)]
        simp only [Option.map_some, Option.some.injEq]
        funext x
        simp [hybridForceRow, dot]
      · rw [List.getElem?_eq_none (by omega : a.force.length ≤ i)]
    · funext t
      simp [hybridStressRow, dot]
  have hfold : ∀ (l : List (Member A P K)) (acc : Prop3 K), (∀ m ∈ l, m ∈ ms) →
      acc.force.length = n →
      (l.map (·.pred)).foldlM (fun acc s =>
        (evalSingle s ⟨axis, positions, elements⟩).map acc.add) acc =
        .ok (acc.add (linearPrediction n (l.map part) (l.flatMap (·.coeffs)))) := by
    intro l
    induction l with
    | nil =>
      intro acc _ ha
      have := hzero acc ha
      simp only [List.map_nil, List.flatMap_nil, List.foldlM_nil, this]
      rfl
    | cons m l ih =>
      intro acc hl ha
      have hmm := hl m (by simp)
      rw [List.map_cons, List.foldlM_cons, heval m hmm]
      show List.foldlM _ (acc.add (partPrediction n (part m) m.coeffs)) _ = _
      rw [ih _ (fun k hk => hl k (by simp [hk])) (by simp [Prop3.add, ha, partPrediction]), hassoc,
        hcons m l hmm]
  cases ms with
  | nil => exact absurd rfl hne
  | cons m l =>
    rw [List.map_cons, evalHybrid, heval m (by simp)]
    simp only [bind, Except.bind]
    rw [hfold l _ (fun k hk => by simp [hk]) (by simp [partPrediction]), hcons m l (by simp)]

/-- The linear model of a sub-model as evaluator. -/
def exMember (s : CSub Unit ℕ ℤ) (full : Option Bool) (own : List String) (c : List ℤ) :
    Member Unit ℕ ℤ :=
  ⟨s, c, full, own, fun a pos types => ⟨dot (s.run a pos types).xe c,
    (List.range types.length).map (fun j (x : Fin 3) =>
      dot ((s.run a pos types).xf.getD (3 * j + x) []) c),
    fun (t : Fin 6) => dot ((s.run a pos types).xs.getD t []) c⟩⟩

/-- The hypotheses of `C33_prediction` hold for a sub-model of all elements `Mg, Al, O` and one of `Mg`
and `O` only. -/
theorem C33_prediction_example : ∀ m ∈ [exMember (exSub true [0, 1, 2] 100) none ["Mg", "Al", "O"] [1, 2],
    exMember (exSub false [0, 2] 200) (some false) ["Mg", "O"] [3, 4]],
    m.OK ["Mg", "Al", "O"] := by
  intro m hm
  simp only [List.mem_cons, List.not_mem_nil, or_false] at hm
  rcases hm with rfl | rfl
  · exact ⟨exSub_WF _ _ _, rfl, fun _ _ _ => ⟨rfl, rfl, rfl⟩,
      fun a => by cases a; decide +kernel, .inl ⟨rfl, by decide, rfl⟩⟩
  · exact ⟨exSub_WF _ _ _, rfl, fun _ _ _ => ⟨rfl, rfl, rfl⟩,
      fun a => by cases a; decide +kernel, .inr ⟨rfl, rfl, by decide +kernel, by decide +kernel,
        by decide +kernel⟩⟩

example : evalHybrid ([exMember (exSub true [0, 1, 2] 100) none ["Mg", "Al", "O"] [1, 2],
    exMember (exSub false [0, 2] 200) (some false) ["Mg", "O"] [3, 4]].map (·.pred))
    ⟨(), [5, 6], ["Al", "O"]⟩ = .ok (linearPrediction 2
      (partsOf [exSub true [0, 1, 2] 100, exSub false [0, 2] 200] ⟨(), [5, 6], [1, 2]⟩) [1, 2, 3, 4]) :=
  C33_prediction ["Mg", "Al", "O"]
    [exMember (exSub true [0, 1, 2] 100) none ["Mg", "Al", "O"] [1, 2],
      exMember (exSub false [0, 2] 200) (some false) ["Mg", "O"] [3, 4]] (by simp)
    C33_prediction_example () [5, 6] ["Al", "O"] rfl
    (by decide +kernel)

/-! ## Many structures at once -/

theorem mapM_cons_ok {α β : Type} (f : α → Except Err β) (a : α) (l : List α) (b : β)
    (h : f a = .ok b) : (a :: l).mapM f = (l.mapM f).map (b :: ·) := by
  rw [List.mapM_cons, h]
  simp only [bind, Except.bind, pure, Except.pure]
  cases l.mapM f <;> rfl

theorem mergeActive_none [Zero K] (st : PStr A P) (act : Active P)
    (rest : List (PStr A P × Active P)) (rs : List (Prop3 K)) (h : act.atoms = []) :
    mergeActive ((st, act) :: rest) rs =
      (mergeActive rest rs).map (⟨0, List.replicate st.elements.length 0, 0⟩ :: ·) := by
  cases rs <;> simp [mergeActive, h]

theorem mergeActive_some [Zero K] (st : PStr A P) (act : Active P)
    (rest : List (PStr A P × Active P)) (r : Prop3 K) (rs : List (Prop3 K)) (h : act.atoms ≠ []) :
    mergeActive ((st, act) :: rest) (r :: rs) = (mergeActive rest rs).map
      (⟨r.energy, scatter st.elements.length act.atoms r.force, r.stress⟩ :: ·) := by
  simp [mergeActive, h]

theorem mergeActive_eq [Zero K] (s : PSub A P K) (hf : s.typeFull = some false)
    (sts : List (PStr A P)) (acts : List (Active P))
    (ha : List.Forall₂ (fun st act => pyActive s.elements st.elements st.positions = .ok act)
      sts acts) :
    mergeActive (sts.zip acts) (((sts.zip acts).filter fun q => !q.2.atoms.isEmpty).map
      fun q => s.eval q.1.axis q.2.positions q.2.types) = sts.mapM (evalSingle s) := by
  induction ha with
  | nil => rfl
  | @cons st act sts acts h _ ih =>
    by_cases he : act.atoms = []
    · have h1 : evalSingle s st = .ok ⟨0, List.replicate st.elements.length 0, 0⟩ := by
        unfold evalSingle
        rw [if_pos hf, h]
        simp [Except.map, he]
      rw [mapM_cons_ok _ _ _ _ h1, ← ih, List.zip_cons_cons, List.filter_cons_of_neg (by simp [he]),
        mergeActive_none _ _ _ _ he]
    · have h1 : evalSingle s st = .ok ⟨(s.eval st.axis act.positions act.types).energy,
          scatter st.elements.length act.atoms (s.eval st.axis act.positions act.types).force,
          (s.eval st.axis act.positions act.types).stress⟩ := by
        unfold evalSingle
        rw [if_pos hf, h]
        simp [Except.map, he]
      rw [mapM_cons_ok _ _ _ _ h1, ← ih, List.zip_cons_cons,
        List.filter_cons_of_pos (by simp [he]), List.map_cons, mergeActive_some _ _ _ _ _ he]

/-- **C32.** Evaluating many structures at once gives, structure by structure, what evaluating them one
by one gives, including the exception when there is one. (For a sub-model of some elements these must
be different from each other; otherwise both raise, except for an empty list of structures.) -/
theorem C32_batch_single [Zero K] (s : PSub A P K)
    (evs : List (A × List P × List ℕ) → List (Prop3 K))
    (hev : ∀ l, evs l = l.map fun q => s.eval q.1 q.2.1 q.2.2)
    (hnd : s.typeFull = some false → s.elements.Nodup) (sts : List (PStr A P)) :
    evalMultiple s evs sts = sts.mapM (evalSingle s) := by
  unfold evalMultiple
  by_cases hf : s.typeFull = some false
  · rw [if_pos hf]
    have hdup : ¬ s.elements.length ≠ s.elements.dedup.length := by
      rw [(hnd hf).dedup]; simp
    have hok : ∀ st : PStr A P, ∃ act, pyActive s.elements st.elements st.positions = .ok act := by
      intro st
      unfold pyActive
      rw [if_neg hdup]
      exact ⟨_, rfl⟩
    obtain ⟨acts, h1, h2⟩ : ∃ acts, sts.mapM (fun st => pyActive s.elements st.elements st.positions)
        = .ok acts ∧ List.Forall₂
          (fun st act => pyActive s.elements st.elements st.positions = .ok act) sts acts := by
      induction sts with
      | nil => exact ⟨[], rfl, .nil⟩
      | cons st sts ih =>
        obtain ⟨acts, h1, h2⟩ := ih
        obtain ⟨act, h⟩ := hok st
        exact ⟨act :: acts, by
          rw [mapM_cons_ok (fun st : PStr A P => pyActive s.elements st.elements st.positions) st sts
            act h, h1]; rfl, .cons h h2⟩
    rw [if_neg hdup, h1]
    have hm := mergeActive_eq s hf sts acts h2
    simp only [bind, Except.bind, pure, Except.pure]
    split
    · rename_i hemp
      rw [List.isEmpty_iff] at hemp
      rw [hemp] at hm
      rw [← hm]
      clear hm h1 hok
      induction h2 with
      | nil => rfl
      | @cons st act sts acts h _ ih =>
        rw [List.zip_cons_cons] at hemp ⊢
        by_cases he : act.atoms = []
        · rw [List.filter_cons_of_neg (by simp [he])] at hemp
          rw [mergeActive_none _ _ _ _ he, List.map_nil, List.map_cons]
          have := ih hemp
          rw [List.map_nil] at this
          rw [← this]
          rfl
        · rw [List.filter_cons_of_pos (by simp [he])] at hemp
          simp at hemp
    · rw [hev, List.map_map]
      exact hm
  · rw [if_neg hf]
    have key : ∀ sts : List (PStr A P), (sts.mapM fun st => typesOf s.elements st.elements).map
        (fun ts => ((sts.zip ts).map fun q => s.eval q.1.axis q.1.positions q.2)) =
        sts.mapM (evalSingle s) := by
      intro sts
      induction sts with
      | nil => rfl
      | cons st sts ih =>
        rw [List.mapM_cons, List.mapM_cons, ← ih]
        have e : evalSingle s st = (typesOf s.elements st.elements).map
            fun ts => s.eval st.axis st.positions ts := by
          unfold evalSingle
          rw [if_neg hf]
        rw [e]
        cases typesOf s.elements st.elements with
        | error e => rfl
        | ok t =>
          cases sts.mapM fun st => typesOf s.elements st.elements with
          | error e => rfl
          | ok ts => rfl
    rw [← key]
    cases sts with
    | nil => rfl
    | cons st sts =>
      cases (st :: sts).mapM fun st => typesOf s.elements st.elements with
      | error e => rfl
      | ok ts =>
        simp only [bind, Except.bind, pure, Except.pure, List.isEmpty_cons, Bool.false_eq_true,
          if_false, Except.map, hev, List.map_map]
        rfl

/-- **C32.** If a hybrid model can evaluate each structure, evaluating the structures at once gives the
same results in the same order. -/
theorem C32_batch_hybrid [Zero K] [Add K]
    (subs : List (PSub A P K × (List (A × List P × List ℕ) → List (Prop3 K))))
    (hev : ∀ s ∈ subs, ∀ l, s.2 l = l.map fun q => s.1.eval q.1 q.2.1 q.2.2)
    (hnd : ∀ s ∈ subs, s.1.typeFull = some false → s.1.elements.Nodup) (hne : subs ≠ [])
    (sts : List (PStr A P)) (rs : List (Prop3 K))
    (h : List.Forall₂ (fun st r => evalHybrid (subs.map (·.1)) st = .ok r) sts rs) :
    evalHybridMultiple subs sts = .ok rs := by
  cases subs with
  | nil => exact absurd rfl hne
  | cons s rest =>
    clear hne
    have hb : ∀ t ∈ s :: rest, evalMultiple t.1 t.2 sts = sts.mapM (evalSingle t.1) := fun t ht =>
      C32_batch_single t.1 t.2 (hev t ht) (hnd t ht) sts
    unfold evalHybridMultiple
    simp only [hb s (by simp)]
    have hb' : ∀ t ∈ rest, evalMultiple t.1 t.2 sts = sts.mapM (evalSingle t.1) :=
      fun t ht => hb t (by simp [ht])
    clear hb hev hnd
    -- each structure separately
    have hone : List.Forall₂ (fun st r => ∃ r0, evalSingle s.1 st = .ok r0 ∧
        (rest.map (·.1)).foldlM (fun acc s => (evalSingle s st).map acc.add) r0 = .ok r) sts rs := by
      refine h.imp ?_
      intro st r hr
      rw [List.map_cons, evalHybrid] at hr
      cases h0 : evalSingle s.1 st with
      | error e => rw [h0] at hr; simp [bind, Except.bind] at hr
      | ok r0 =>
        rw [h0] at hr
        exact ⟨r0, rfl, hr⟩
    clear h
    obtain ⟨r0s, g1, g2⟩ : ∃ r0s, sts.mapM (evalSingle s.1) = .ok r0s ∧
        List.Forall₂ (fun (q : PStr A P × Prop3 K) r =>
          (rest.map (·.1)).foldlM (fun acc s => (evalSingle s q.1).map acc.add) q.2 = .ok r)
          (sts.zip r0s) rs ∧ r0s.length = sts.length := by
      clear hb'
      induction hone with
      | nil => exact ⟨[], rfl, .nil, rfl⟩
      | @cons st r sts rs h0 _ ih =>
        obtain ⟨r0s, g1, g2, g3⟩ := ih
        obtain ⟨r0, h1, h2⟩ := h0
        exact ⟨r0 :: r0s, by rw [mapM_cons_ok _ _ _ _ h1, g1]; rfl, .cons h2 g2, by simp [g3]⟩
    rw [g1]
    simp only [bind, Except.bind]
    clear g1 hone
    obtain ⟨g2, g3⟩ := g2
    induction rest generalizing r0s with
    | nil =>
      have : r0s = rs := by
        simp only [List.map_nil, List.foldlM_nil, pure, Except.pure, Except.ok.injEq] at g2
        have h4 := List.forall₂_map_left_iff (f := fun q : PStr A P × Prop3 K => q.2) (R := Eq)
          |>.2 g2
        rw [List.forall₂_eq_eq_eq, List.map_snd_zip (by omega)] at h4
        exact h4
      rw [List.foldlM_nil, this]
      rfl
    | cons t rest ih =>
      rw [List.foldlM_cons, hb' t (by simp)]
      obtain ⟨bs, k1, k2, k3⟩ : ∃ bs, sts.mapM (evalSingle t.1) = .ok bs ∧
          List.Forall₂ (fun (q : PStr A P × Prop3 K) r =>
            (rest.map (·.1)).foldlM (fun acc s => (evalSingle s q.1).map acc.add) q.2 = .ok r)
            (sts.zip (List.zipWith Prop3.add r0s bs)) rs ∧ bs.length = sts.length := by
        clear ih hb'
        induction sts generalizing r0s rs with
        | nil =>
          cases g2
          exact ⟨[], rfl, .nil, rfl⟩
        | cons st sts ih =>
          cases r0s with
          | nil => simp at g3
          | cons r0 r0s =>
            rw [List.zip_cons_cons] at g2
            cases g2 with
            | @cons _ r _ rs h1 h2 =>
              obtain ⟨bs, k1, k2, k3⟩ := ih _ _ h2 (by simpa using g3)
              rw [List.map_cons, List.foldlM_cons] at h1
              cases hb : evalSingle t.1 st with
              | error e => rw [hb] at h1; simp [Except.map, bind, Except.bind] at h1
              | ok b =>
                rw [hb] at h1
                exact ⟨b :: bs, by rw [mapM_cons_ok _ _ _ _ hb, k1]; rfl, .cons h1 k2,
                  by simp [k3]⟩
      rw [k1]
      exact ih (fun s hs => hb' s (by simp [hs])) _ k2 (by simp [g3, k3])

example : (evalHybridMultiple ([exMember (exSub true [0, 1, 2] 100) none ["Mg", "Al", "O"] [1, 2],
    exMember (exSub false [0, 2] 200) (some false) ["Mg", "O"] [3, 4]].map fun m =>
      (m.pred, fun l => l.map fun q => m.pred.eval q.1 q.2.1 q.2.2))
    [⟨(), [5], ["Al"]⟩, ⟨(), [5, 6], ["Al", "O"]⟩]).map (List.map (·.energy)) =
    .ok [102, 808] := by decide +kernel

end Verif.HybridEval
