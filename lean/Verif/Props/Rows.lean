import Verif.Lemmas.Rows

namespace Verif.Rows
open Verif.Dataset Verif.Sequential Verif.Spec
variable {p : ℕ} {K : Type}

theorem allItems_cons (d : DSet p K) (D : List (DSet p K)) :
    allItems (d :: D) = d.items.map (fun q => (d, q)) ++ allItems D := rfl

/-- Rows of the three kinds. -/
def eRows [Semiring K] (W : WeightFns K) (D : List (DSet p K)) : List (Row p K) :=
  (allItems D).map (fun q => energyRow W q.1 q.2)
def sRows [Semiring K] (W : WeightFns K) (wst : K) (D : List (DSet p K)) : List (Row p K) :=
  (allItems D).flatMap (fun q => stressRows W wst q.1 q.2)
def fRows [Semiring K] (W : WeightFns K) (D : List (DSet p K)) : List (Row p K) :=
  (allItems D).flatMap (fun q => forceRows W q.1 q.2)

theorem eRows_cons [Semiring K] (W : WeightFns K) (d : DSet p K) (D : List (DSet p K)) :
    eRows W (d :: D) = d.items.map (energyRow W d) ++ eRows W D := by
  simp [eRows, allItems_cons]
theorem sRows_cons [Semiring K] (W : WeightFns K) (wst : K) (d : DSet p K) (D : List (DSet p K)) :
    sRows W wst (d :: D) = d.items.flatMap (stressRows W wst d) ++ sRows W wst D := by
  simp [sRows, allItems_cons, List.flatMap_map]
theorem fRows_cons [Semiring K] (W : WeightFns K) (d : DSet p K) (D : List (DSet p K)) :
    fRows W (d :: D) = d.items.flatMap (forceRows W d) ++ fRows W D := by
  simp [fRows, allItems_cons, List.flatMap_map]

theorem map_snd_zip_of {α β : Type} (a : List α) (b : List β) (h : a.length = b.length) :
    (a.zip b).map (·.2) = b := by
  induction a generalizing b with
  | nil => cases b with
    | nil => rfl
    | cons => cases h
  | cons x a ih => cases b with
    | nil => cases h
    | cons y b => simp [ih b (by simpa using h)]

theorem map_fst_zip_of {α β : Type} (a : List α) (b : List β) (h : a.length = b.length) :
    (a.zip b).map (·.1) = a := by
  induction a generalizing b with
  | nil => cases b with
    | nil => rfl
    | cons => cases h
  | cons x a ih => cases b with
    | nil => cases h
    | cons y b => simp [ih b (by simpa using h)]

theorem stressRows_map [Semiring K] {β : Type} (W : WeightFns K) (wst : K) (d : DSet p K)
    (hwf : d.WF) (hf : d.includeForce = true) (g : Row p K → β) (g' : K → β)
    (hg : ∀ r : Row p K, r.w = (if d.includeStress then W.s (wst * d.weight) r.y else 0) → g r = g' r.y) :
    (d.items.flatMap (stressRows W wst d)).map g = (d.items.flatMap (·.1.stress)).map g' := by
  rw [List.map_flatMap, List.map_flatMap]
  apply List.flatMap_congr
  intro q hq
  obtain ⟨h1, h2, h3⟩ := hwf q hq
  simp only [stressRows, hf, if_true, List.map_map]
  rw [show q.1.stress.map g' = ((q.2.xs.zip q.1.stress).map (·.2)).map g' by
    rw [map_snd_zip_of _ _ (by rw [h3, h1.2])], List.map_map]
  apply List.map_congr_left
  intro u _
  exact hg _ rfl

theorem forceRows_map [Semiring K] {β : Type} (W : WeightFns K) (d : DSet p K)
    (hwf : d.WF) (hf : d.includeForce = true) (g : Row p K → β) (g' : K → β)
    (hg : ∀ r : Row p K, r.w = W.f r.y * d.weight → g r = g' r.y) :
    (d.items.flatMap (forceRows W d)).map g = (d.items.flatMap (·.1.forces)).map g' := by
  rw [List.map_flatMap, List.map_flatMap]
  apply List.flatMap_congr
  intro q hq
  obtain ⟨h1, h2, h3⟩ := hwf q hq
  simp only [forceRows, hf, if_true, List.map_map]
  rw [show q.1.forces.map g' = ((q.2.xf.zip q.1.forces).map (·.2)).map g' by
    rw [map_snd_zip_of _ _ (by rw [h2, h1.1])], List.map_map]
  apply List.map_congr_left
  intro u _
  exact hg _ rfl

/-- Sizes of the blocks of a data set. -/
def nS (d : DSet p K) : ℕ × Bool := (d.items.length * 6, d.includeForce)
def nF (d : DSet p K) : ℕ × Bool := (3 * (d.items.map (·.1.natoms)).sum, d.includeForce)

theorem stress_length [Semiring K] (W : WeightFns K) (wst : K) (d : DSet p K) (hwf : d.WF) :
    (d.items.flatMap (stressRows W wst d)).length = if d.includeForce then (nS d).1 else 0 := by
  cases hf : d.includeForce
  · simp [stressRows, hf]
  · have : ∀ q ∈ d.items, (stressRows W wst d q).length = 6 := by
      intro q hq
      obtain ⟨h1, h2, h3⟩ := hwf q hq
      simp [stressRows, hf, h3, h1.2]
    rw [List.length_flatMap, List.map_congr_left this]
    simp [nS]

theorem force_length [Semiring K] (W : WeightFns K) (d : DSet p K) (hwf : d.WF) :
    (d.items.flatMap (forceRows W d)).length = if d.includeForce then (nF d).1 else 0 := by
  cases hf : d.includeForce
  · simp [forceRows, hf]
  · have : ∀ q ∈ d.items, (forceRows W d q).length = 3 * q.1.natoms := by
      intro q hq
      obtain ⟨h1, h2, h3⟩ := hwf q hq
      simp [forceRows, hf, h2, h1.1]
    rw [List.length_flatMap, List.map_congr_left this]
    simp only [nF, if_true]
    generalize d.items = l
    induction l with
    | nil => rfl
    | cons a l ih => simp only [List.map_cons, List.sum_cons, ih]; ring

/-- The stress part turns the initial cells of the data set's stress rows into weighted ones. -/
theorem stressPart_rows [Semiring K] (W : WeightFns K) (wst : K) (o : DS K) (d : DSet p K)
    (ho : Holds o d) (hwf : d.WF) (hsf : d.includeStress = true → d.includeForce = true)
    (A C : List (Vec p K × K × K)) (sb : ℤ) (hsb : d.includeForce = true → sb = A.length) :
    stressPart W wst o (toXYW (A ++ (d.items.flatMap (stressRows W wst d)).map initCell ++ C)) sb =
      .ok (toXYW (A ++ (d.items.flatMap (stressRows W wst d)).map doneCell ++ C)) := by
  obtain ⟨h1, h2, h3, h4⟩ := ho
  have hst : o.dft.stresses = d.items.flatMap (·.1.stress) := by
    rw [h4.2.2.2.1, List.flatMap_map]
  unfold stressPart
  rw [h1, h2, h3, hst]
  cases hf : d.includeForce
  · have : d.includeStress = false := by
      cases hs : d.includeStress
      · rfl
      · exact absurd (hsf hs) (by simp [hf])
    have hnil : d.items.flatMap (stressRows W wst d) = [] := by simp [stressRows, hf]
    simp [this, hnil]
  · have hlen : (d.items.flatMap (·.1.stress)).length
        = (d.items.flatMap (stressRows W wst d)).length := by
      have := congrArg List.length (stressRows_map W wst d hwf hf (·.y) (fun v => v) fun _ _ => rfl)
      simpa using this.symm
    cases hs : d.includeStress
    · simp only [Bool.false_eq_true, if_false, if_true]
      apply zeroBlock_rows
      · exact hsb hf
      · exact hlen
      · rfl
      · intro r hr
        obtain ⟨q, _, hr⟩ := List.mem_flatMap.mp hr
        simp only [stressRows, hf, if_true, List.mem_map] at hr
        obtain ⟨u, _, rfl⟩ := hr
        simp [hs]
    · simp only [if_true]
      apply assignBlock_rows
      · exact hsb hf
      · rw [hlen]
      · exact (stressRows_map W wst d hwf hf _ _ fun r hr => by rw [hr, hs]; rfl).symm
      · have := stressRows_map W wst d hwf hf (·.y) (fun v => v) fun _ _ => rfl
        simpa using this.symm

/-- Same for the force part. -/
theorem forcePart_rows [Semiring K] (W : WeightFns K) (o : DS K) (d : DSet p K)
    (ho : Holds o d) (hwf : d.WF)
    (A C : List (Vec p K × K × K)) (fb : ℤ) (hfb : d.includeForce = true → fb = A.length) :
    forcePart W o (toXYW (A ++ (d.items.flatMap (forceRows W d)).map initCell ++ C)) fb =
      .ok (toXYW (A ++ (d.items.flatMap (forceRows W d)).map doneCell ++ C)) := by
  obtain ⟨h1, h2, h3, h4⟩ := ho
  have hst : o.dft.forces = d.items.flatMap (·.1.forces) := by
    rw [h4.2.2.1, List.flatMap_map]
  unfold forcePart
  rw [h1, h3, hst]
  cases hf : d.includeForce
  · have hnil : d.items.flatMap (forceRows W d) = [] := by simp [forceRows, hf]
    simp [hnil]
  · have hlen : (d.items.flatMap (·.1.forces)).length
        = (d.items.flatMap (forceRows W d)).length := by
      have := congrArg List.length (forceRows_map W d hwf hf (·.y) (fun v => v) fun _ _ => rfl)
      simpa using this.symm
    simp only [if_true]
    apply assignBlock_rows
    · exact hfb hf
    · rw [hlen]
    · exact (forceRows_map W d hwf hf _ _ fun r hr => by rw [hr]).symm
    · have := forceRows_map W d hwf hf (·.y) (fun v => v) fun _ _ => rfl
      simpa using this.symm

/-- Loop invariant of the weighting loop over the data sets. -/
theorem weights_loop [Semiring K] (W : WeightFns K) (wst : K) (os : List (DS K)) (D : List (DSet p K))
    (ho : List.Forall₂ Holds os D) (hwf : ∀ d ∈ D, d.WF)
    (hsf : ∀ d ∈ D, d.includeStress = true → d.includeForce = true)
    (Ed Sd Fd : List (Vec p K × K × K)) (bs bf : ℕ)
    (hbs : bs = Ed.length + (eRows W D).length + Sd.length)
    (hbf : bf = Ed.length + (eRows W D).length + Sd.length + (sRows W wst D).length + Fd.length) :
    (os.zip (((setEbegin (D.map fun d => d.items.length) Ed.length).map fun (i : ℕ) => (i : ℤ)).zip
      ((begins (D.map nF) bf).zip (begins (D.map nS) bs)))).foldlM (applyWeights W wst)
      (toXYW (Ed ++ (eRows W D).map initCell ++ (Sd ++ (sRows W wst D).map initCell) ++
        (Fd ++ (fRows W D).map initCell))) =
      .ok (toXYW (Ed ++ (eRows W D).map doneCell ++ (Sd ++ (sRows W wst D).map doneCell) ++
        (Fd ++ (fRows W D).map doneCell))) := by
  induction ho generalizing Ed Sd Fd bs bf with
  | nil => simp [eRows, sRows, fRows, allItems, pure, Except.pure]
  | @cons o d os D hod _ ih =>
    have hd := hwf d (by simp)
    have hstep : applyWeights W wst
        (toXYW (Ed ++ (eRows W (d :: D)).map initCell ++ (Sd ++ (sRows W wst (d :: D)).map initCell) ++
        (Fd ++ (fRows W (d :: D)).map initCell)))
        (o, (Ed.length : ℤ), (if d.includeForce then (bf : ℤ) else -1),
          (if d.includeForce then (bs : ℤ) else -1)) =
        .ok (toXYW ((Ed ++ (d.items.map (energyRow W d)).map doneCell) ++ (eRows W D).map initCell ++
          ((Sd ++ (d.items.flatMap (stressRows W wst d)).map doneCell) ++ (sRows W wst D).map initCell) ++
          ((Fd ++ (d.items.flatMap (forceRows W d)).map doneCell) ++ (fRows W D).map initCell))) := by
      unfold applyWeights
      have hE := assignBlock_rows Ed ((eRows W D).map initCell ++ (Sd ++ (sRows W wst (d :: D)).map initCell) ++
        (Fd ++ (fRows W (d :: D)).map initCell)) (d.items.map (energyRow W d)) Ed.length
        ((Ed.length : ℤ) + o.dft.energies.length) rfl
        (by simp [hod.2.2.2.2.1])
        ((o.dft.energies.zip o.dft.totalNAtoms).map fun q => W.e q.1 q.2 * o.weight) o.dft.energies
        (by
          rw [hod.2.2.2.2.1, hod.2.2.2.2.2.2.2.2.1, hod.2.2.1, List.map_map, List.map_map, zip_map_same,
            List.map_map, List.map_map]
          rfl)
        (by rw [hod.2.2.2.2.1, List.map_map, List.map_map]; rfl)
      have hF := forcePart_rows W o d hod hd
        (Ed ++ (d.items.map (energyRow W d)).map doneCell ++ (eRows W D).map initCell ++
          (Sd ++ (sRows W wst (d :: D)).map initCell) ++ Fd)
        ((fRows W D).map initCell) (if d.includeForce then (bf : ℤ) else -1)
        (by
          intro hf
          rw [if_pos hf, hbf]
          simp [eRows_cons]
          omega)
      have hS := stressPart_rows W wst o d hod hd (hsf d (by simp))
        (Ed ++ (d.items.map (energyRow W d)).map doneCell ++ (eRows W D).map initCell ++ Sd)
        ((sRows W wst D).map initCell ++ Fd ++ (d.items.flatMap (forceRows W d)).map doneCell ++
          (fRows W D).map initCell) (if d.includeForce then (bs : ℤ) else -1)
        (by
          intro hf
          rw [if_pos hf, hbs]
          simp [eRows_cons]
          omega)
      simp only [eRows_cons, sRows_cons, fRows_cons, List.map_append, List.append_assoc, bind,
        Except.bind] at hE hF hS ⊢
      rw [hE]
      simp only []
      rw [hF]
      simp only []
      rw [hS]
    simp only [List.map_cons, setEbegin, begins, nF, nS, List.zip_cons_cons, List.foldlM_cons]
    rw [hstep]
    simp only [bind, Except.bind]
    have := ih (fun d hd => hwf d (by simp [hd])) (fun d hd => hsf d (by simp [hd]))
      (Ed ++ (d.items.map (energyRow W d)).map doneCell)
      (Sd ++ (d.items.flatMap (stressRows W wst d)).map doneCell)
      (Fd ++ (d.items.flatMap (forceRows W d)).map doneCell)
      (if d.includeForce then bs + d.items.length * 6 else bs)
      (if d.includeForce then bf + 3 * (d.items.map (·.1.natoms)).sum else bf)
      (by
        have := stress_length W wst d hd
        simp only [List.length_append, List.length_map, eRows_cons, this, nS] at hbs ⊢
        split <;> simp_all <;> omega)
      (by
        have h1 := stress_length W wst d hd
        have h2 := force_length W d hd
        simp only [List.length_append, List.length_map, eRows_cons, sRows_cons, h1, h2, nS, nF] at hbf ⊢
        split <;> simp_all <;> omega)
    simp only [List.length_append, List.length_map] at this
    rw [this]
    simp only [eRows_cons, sRows_cons, fRows_cons, List.map_append, List.append_assoc]

theorem flatMap_stress_x [Semiring K] (W : WeightFns K) (wst : K) (D : List (DSet p K))
    (hwf : ∀ d ∈ D, d.WF) :
    ((allItems D).map fun q => (q.2.2, q.1.includeForce)).flatMap (fun q => if q.2 then q.1.xs else [])
      = (sRows W wst D).map (·.x) := by
  rw [List.flatMap_map, sRows, List.map_flatMap]
  apply List.flatMap_congr
  intro q hq
  obtain ⟨d, hd, hq⟩ := List.mem_flatMap.mp hq
  obtain ⟨q', hq', rfl⟩ := List.mem_map.mp hq
  obtain ⟨h1, h2, h3⟩ := hwf d hd q' hq'
  simp only [stressRows]
  split
  · rw [List.map_map]
    exact (map_fst_zip_of _ _ (by rw [h3, h1.2])).symm
  · rfl

theorem flatMap_force_x [Semiring K] (W : WeightFns K) (D : List (DSet p K))
    (hwf : ∀ d ∈ D, d.WF) :
    ((allItems D).map fun q => (q.2.2, q.1.includeForce)).flatMap (fun q => if q.2 then q.1.xf else [])
      = (fRows W D).map (·.x) := by
  rw [List.flatMap_map, fRows, List.map_flatMap]
  apply List.flatMap_congr
  intro q hq
  obtain ⟨d, hd, hq⟩ := List.mem_flatMap.mp hq
  obtain ⟨q', hq', rfl⟩ := List.mem_map.mp hq
  obtain ⟨h1, h2, h3⟩ := hwf d hd q' hq'
  simp only [forceRows]
  split
  · rw [List.map_map]
    exact (map_fst_zip_of _ _ (by rw [h2, h1.1])).symm
  · rfl

/-- The arguments given to `set_index`, in terms of the specification. -/
theorem sizes_eq (os : List (DS K)) (D : List (DSet p K)) (ho : List.Forall₂ Holds os D) :
    os.map (fun d => (d.dft.structures.length, d.includeForce))
      = (D.map fun d => (d.items.map (·.1.natoms), d.includeForce)).map (fun d => (d.1.length, d.2)) ∧
    os.flatMap (fun d => d.dft.structures.map fun st => st.nAtoms.sum)
      = (D.map fun d => (d.items.map (·.1.natoms), d.includeForce)).flatMap (·.1) ∧
    os.map (fun d => d.dft.structures.length) = D.map fun d => d.items.length := by
  induction ho with
  | nil => exact ⟨rfl, rfl, rfl⟩
  | @cons o d os D hod _ ih =>
    obtain ⟨i1, i2, i3⟩ := ih
    obtain ⟨h1, h2, h3, h4⟩ := hod
    have hst := h4.1
    refine ⟨?_, ?_, ?_⟩
    · rw [List.map_cons, i1]
      simp [hst, h1]
    · rw [List.flatMap_cons, i2]
      simp only [List.map_cons, List.flatMap_cons, hst, List.map_map]
      rfl
    · rw [List.map_cons, i3]
      simp [hst]

/-- **C15.** For every list of data sets (any numbers of structures and atoms, with or without
forces), every execution order of the parallel feature loop and every initial content of the
uninitialised matrix, the weighted design matrix consists exactly of the rows of the
specification: energies, stresses, forces, each in the order of the structures, and in each row
feature vector, target and weight belong to the same datum of the same structure. -/
theorem C15_design_matrix [Semiring K] (W : WeightFns K) (wst : K) (os : List (DS K))
    (D : List (DSet p K)) (ho : List.Forall₂ Holds os D) (hwf : ∀ d ∈ D, d.WF)
    (hsf : ∀ d ∈ D, d.includeStress = true → d.includeForce = true)
    (feat : ℕ → StFeatures (Vec p K))
    (hfeat : ∀ (i : ℕ) (q : DSet p K × Rec K × StFeatures (Vec p K)),
      (allItems D)[i]? = some q → feat i = q.2.2)
    (x0 : ℕ → List (Vec p K)) (hx0 : ∀ n, (x0 n).length = n)
    (order : List ℕ) (horder : order.Perm (List.range (allItems D).length)) :
    designMatrix W wst os feat x0 order =
      .ok { x := (designRows W wst D).map (·.weighted.1)
            y := (designRows W wst D).map (·.weighted.2)
            w := (designRows W wst D).map (·.w) } := by
  obtain ⟨s1, s2, s3⟩ := sizes_eq os D ho
  set L := D.map fun d => (d.items.map (·.1.natoms), d.includeForce) with hL
  set S := (allItems D).map fun q => (q.2.2, q.1.includeForce) with hS
  have hflat : L.flatMap (fun d => d.1.map fun a => (a, d.2))
      = (allItems D).map fun q => (q.2.1.natoms, q.1.includeForce) := by
    rw [hL, List.flatMap_map, allItems, List.map_flatMap]
    apply List.flatMap_congr
    intro d _
    simp [List.map_map, Function.comp_def]
  have hxflen : ∀ q ∈ allItems D, q.2.2.xf.length = 3 * q.2.1.natoms := by
    intro q hq
    obtain ⟨d, hd, hq⟩ := List.mem_flatMap.mp hq
    obtain ⟨q', hq', rfl⟩ := List.mem_map.mp hq
    exact (hwf d hd q' hq').2.1
  have hxslen : ∀ q ∈ allItems D, q.2.2.xs.length = 6 := by
    intro q hq
    obtain ⟨d, hd, hq⟩ := List.mem_flatMap.mp hq
    obtain ⟨q', hq', rfl⟩ := List.mem_map.mp hq
    exact (hwf d hd q' hq').2.2
  have hix := setIndex_eq L
  simp only [hflat] at hix
  have m6 : ((allItems D).map fun q => (q.2.1.natoms, q.1.includeForce)).map (fun q => ((6 : ℕ), q.2))
      = S.map fun q => (6, q.2) := by simp [hS, List.map_map, Function.comp_def]
  have mF : ((allItems D).map fun q => (q.2.1.natoms, q.1.includeForce)).map (fun q => (3 * q.1, q.2))
      = S.map fun q => (q.1.xf.length, q.2) := by
    rw [hS, List.map_map, List.map_map]
    apply List.map_congr_left
    intro q hq
    simp [hxflen q hq]
  have mf : ((allItems D).map fun q => (q.2.1.natoms, q.1.includeForce)).map (·.2) = S.map (·.2) := by
    simp [hS, List.map_map, Function.comp_def]
  have mn : ((allItems D).map fun q => (q.2.1.natoms, q.1.includeForce)).length = S.length := by
    simp [hS]
  rw [m6, mF, mf, mn] at hix
  -- sizes of the three kinds of rows
  have lE : (eRows W D).length = S.length := by simp [eRows, hS]
  have lS : (sRows W wst D).length = tot (S.map fun q => (6, q.2)) := by
    have := congrArg List.length (flatMap_stress_x W wst D hwf)
    rw [List.length_map] at this
    rw [← this, List.length_flatMap, tot, hS]
    simp only [List.map_map]
    congr 1
    apply List.map_congr_left
    intro q hq
    simp only [Function.comp]
    split
    · rw [hxslen q hq]
    · rfl
  have lF : (fRows W D).length = tot (S.map fun q => (q.1.xf.length, q.2)) := by
    have := congrArg List.length (flatMap_force_x W D hwf)
    rw [List.length_map] at this
    rw [← this, List.length_flatMap, tot, hS]
    simp only [List.map_map]
    congr 1
    apply List.map_congr_left
    intro q hq
    simp only [Function.comp]
    split <;> rfl
  have hfr : featureRows S = (eRows W D ++ sRows W wst D ++ fRows W D).map (·.x) := by
    rw [featureRows, List.map_append, List.map_append, ← flatMap_stress_x W wst D hwf,
      ← flatMap_force_x W D hwf, ← hS]
    congr 2
    simp [hS, eRows, List.map_map, Function.comp_def, energyRow]
  have hn : S.length + tot (S.map fun q => (q.1.xf.length, q.2)) + tot (S.map fun q => (6, q.2))
      = (eRows W D ++ sRows W wst D ++ fRows W D).length := by
    rw [List.length_append, List.length_append, lE, lS, lF]
    omega
  unfold designMatrix
  rw [s1, s2, s3, hix]
  simp only [bind, Except.bind]
  rw [hn, fillX_perm S _ feat _ order
    (by
      intro i q hq
      rw [hS, List.getElem?_map] at hq
      obtain ⟨q', hq', rfl⟩ := Option.map_eq_some_iff.mp hq
      exact hfeat i q' hq')
    (by
      intro q hq
      obtain ⟨q', hq', rfl⟩ := List.mem_map.mp hq
      exact hxslen q' hq')
    rfl rfl rfl (by rw [hx0, hfr, List.length_map])
    (by simpa [hS] using horder), hfr]
  have hinit : (⟨(eRows W D ++ sRows W wst D ++ fRows W D).map (·.x),
      List.replicate (eRows W D ++ sRows W wst D ++ fRows W D).length 0,
      List.replicate (eRows W D ++ sRows W wst D ++ fRows W D).length 1⟩ : XYW p K)
      = toXYW ([] ++ (eRows W D).map initCell ++ ([] ++ (sRows W wst D).map initCell) ++
        ([] ++ (fRows W D).map initCell)) := by
    unfold toXYW
    simp only [List.nil_append, ← List.map_append, List.map_map]
    congr 1
    · simp [initCell, Function.comp_def]
    · simp [initCell, Function.comp_def]
  rw [hinit]
  have hloop := weights_loop W wst os D ho hwf hsf [] [] []
    S.length (S.length + tot (S.map fun q => (6, q.2)))
    (by simp [lE]) (by simp [lE, lS])
  have hnF : L.map (fun d => (3 * d.1.sum, d.2)) = D.map nF := by
    rw [hL, List.map_map]; rfl
  have hnS : L.map (fun d => (d.1.length * 6, d.2)) = D.map nS := by
    rw [hL, List.map_map]
    apply List.map_congr_left
    intro d _
    simp [nS]
  rw [hnF, hnS]
  refine hloop.trans ?_
  have hd : designRows W wst D = eRows W D ++ sRows W wst D ++ fRows W D := rfl
  simp only [toXYW, List.nil_append, ← List.map_append, List.map_map, hd]
  rfl

/-- Sizes: one row per energy, six per structure with forces, three per atom with forces. -/
theorem C15_row_count [Semiring K] (W : WeightFns K) (wst : K) (D : List (DSet p K))
    (hwf : ∀ d ∈ D, d.WF) :
    (designRows W wst D).length = (D.map fun d => d.items.length).sum +
      (D.map fun d => if d.includeForce then d.items.length * 6 else 0).sum +
      (D.map fun d => if d.includeForce then 3 * (d.items.map (·.1.natoms)).sum else 0).sum := by
  have hd : designRows W wst D = eRows W D ++ sRows W wst D ++ fRows W D := rfl
  rw [hd, List.length_append, List.length_append]
  clear hd
  induction D with
  | nil => rfl
  | cons d D ih =>
    have hd := hwf d (by simp)
    have h1 := stress_length W wst d hd
    have h2 := force_length W d hd
    simp only [nS, nF] at h1 h2
    have := ih fun d hd => hwf d (by simp [hd])
    simp only [eRows_cons, sRows_cons, fRows_cons, List.length_append, List.length_map,
      List.map_cons, List.sum_cons, h1, h2]
    omega

/-- **C15, error case.** A data set that asks for stresses without forces is not fitted without its
stress rows: the computation stops with a `NameError`. -/
theorem C15_stress_without_force [Semiring K] (W : WeightFns K) (wst : K) (o : DS K) (d : DSet p K)
    (ho : Holds o d) (hf : d.includeForce = false) (hs : d.includeStress = true)
    (x0 : ℕ → List (Vec p K)) (hx0 : ∀ n, (x0 n).length = n) (feat : ℕ → StFeatures (Vec p K))
    (order : List ℕ) : designMatrix W wst [o] feat x0 order = .error .nameError := by
  obtain ⟨h1, h2, h3, h4⟩ := ho
  have hlen : o.dft.structures.length = d.items.length := by rw [h4.1]; simp
  have hel : o.dft.energies.length = d.items.length := by rw [h4.2.1]; simp
  have hnl : o.dft.totalNAtoms.length = d.items.length := by rw [h4.2.2.2.2.2.1]; simp
  have e1 : [o].map (fun d => (d.dft.structures.length, d.includeForce))
      = [(d.items.map (·.1.natoms), false)].map (fun d => (d.1.length, d.2)) := by
    simp [hlen, h1, hf]
  have e2 : [o].flatMap (fun d => d.dft.structures.map fun st => st.nAtoms.sum)
      = [(d.items.map (·.1.natoms), false)].flatMap (·.1) := by
    simp [h4.1, Rec.natoms, Function.comp_def]
  have hix := setIndex_eq [(d.items.map (·.1.natoms), false)]
  unfold designMatrix
  rw [e1, e2, hix]
  have t0 : ∀ (l : List ℕ), tot (l.map fun q => (q, false)) = 0 := by
    intro l; induction l with
    | nil => rfl
    | cons a l ih => simp [tot_cons, ih]
  have tz : ∀ (l : List (ℕ × Bool)), (∀ q ∈ l, q.2 = false) → tot l = 0 := by
    intro l; induction l with
    | nil => intro _; rfl
    | cons a l ih =>
      intro h
      rw [tot_cons, ih fun q hq => h q (by simp [hq]), h a (by simp)]
      rfl
  have hfillLen : ∀ (ix : Index) (x : List (Vec p K)), (fillX ix feat x order).length = x.length := by
    intro ix x
    rw [fillX_eq, applyWrites_length]
  simp only [bind, Except.bind, List.map_cons, List.map_nil, setEbegin, begins, Bool.false_eq_true,
    if_false, List.zip_cons_cons, List.foldlM_cons, List.zip_nil_left, List.foldlM_nil]
  have hsz : (List.flatMap (fun d : List ℕ × Bool => d.1.map fun a => (a, d.2))
      [(d.items.map (·.1.natoms), false)]).length = d.items.length := by simp
  rw [hsz, tz _ (by simp), tz _ (by simp)]
  simp only [Nat.add_zero]
  -- the energy block succeeds
  have hfl := hfillLen
  unfold applyWeights assignBlock
  generalize hX : fillX _ feat (x0 d.items.length) order = X
  have hXl : X.length = d.items.length := by rw [← hX, hfillLen, hx0]
  have u1 := updSlice_mid (fun (_ n : K) => n) [] (List.replicate d.items.length (1 : K)) []
    ((o.dft.energies.zip o.dft.totalNAtoms).map fun q => W.e q.1 q.2 * o.weight)
    (by simp [hel, hnl])
  have u2 := updSlice_mid (fun (_ n : K) => n) [] (List.replicate d.items.length (0 : K)) []
    ((((o.dft.energies.zip o.dft.totalNAtoms).map fun q => W.e q.1 q.2 * o.weight).zip
      o.dft.energies).map fun q => q.1 * q.2)
    (by simp [hel, hnl])
  have u3 := updSlice_mid (fun (r : Vec p K) (n : K) => fun a => r a * n) [] X []
    ((o.dft.energies.zip o.dft.totalNAtoms).map fun q => W.e q.1 q.2 * o.weight)
    (by simp [hel, hnl, hXl])
  simp only [List.length_map, List.length_zip, hel, hnl, Nat.min_self, List.nil_append,
    List.append_nil, List.length_nil] at u1 u2 u3
  simp only [bind, Except.bind, hel]
  simp only [Nat.cast_zero] at u1 u2 u3 ⊢
  rw [u1, u2, u3]
  simp [pure, Except.pure, forcePart, stressPart, h1, h2, hf, hs]

end Verif.Rows
