import Verif.Model.DataLines
import Verif.Props.Infile

/-!
C54: the data-set lines of an input file.
-/

namespace Verif.Infile
variable {α : Type}

theorem datasetOfStrings_ok [One α] {conv : PStr → Except Err α} {strings : List PStr}
    {d : DataLine α} (h : datasetOfStrings conv strings = .ok d) :
    strings.head? = some d.name ∧ lineForce strings = .ok d.includeForce ∧
      d.includeStress = d.includeForce ∧ lineWeight conv strings = .ok d.weight := by
  unfold datasetOfStrings at h
  cases hs : strings.head? with
  | none => rw [hs] at h; simp [orErr, bind, Except.bind] at h
  | some n =>
    rw [hs] at h
    simp only [orErr, bind, Except.bind] at h
    cases hf : lineForce strings with
    | error e => rw [hf] at h; simp at h
    | ok f =>
      rw [hf] at h
      cases hw : lineWeight conv strings with
      | error e => rw [hw] at h; simp at h
      | ok w =>
        rw [hw] at h
        simp only [pure, Except.pure, Except.ok.injEq] at h
        subst h
        cases f <;> simp

/-- The data set that a line `tag name [force [weight]]` stands for. -/
def LineMeans [One α] (conv : PStr → Except Err α) (paramForce paramStress : Bool)
    (line : List PStr) (d : DataLine α) : Prop :=
  line[1]? = some d.name ∧
  (∃ own : Bool, (line[2]? = none → own = true) ∧
    (∀ s, line[2]? = some s → strtobool s = .ok own) ∧
    d.includeForce = (own && paramForce) ∧ d.includeStress = (own && paramStress)) ∧
  (line[3]? = none → d.weight = 1) ∧ ∀ s, line[3]? = some s → conv s = .ok d.weight

theorem dataStep_ok [One α] {conv : PStr → Except Err α} {pf ps : Bool} {s s' : DataSets α}
    {line : List PStr} (h : dataStep conv pf ps s line = .ok s') :
    ∃ tag d, line.head? = some tag ∧ LineMeans conv pf ps line d ∧ s' = addByTag tag d s := by
  unfold dataStep at h
  cases line with
  | nil => simp [orErr, bind, Except.bind] at h
  | cons tag strings =>
    simp only [List.head?_cons, orErr, bind, Except.bind, List.tail_cons] at h
    cases hd : datasetOfStrings conv strings with
    | error e => rw [hd] at h; simp at h
    | ok d =>
      rw [hd] at h
      simp only [pure, Except.pure, Except.ok.injEq] at h
      obtain ⟨h1, h2, h3, h4⟩ := datasetOfStrings_ok hd
      refine ⟨tag, restrict pf ps d, rfl, ⟨?_, ⟨d.includeForce, ?_, ?_, ?_, ?_⟩, ?_, ?_⟩, h.symm⟩
      · rw [List.getElem?_cons_succ, ← List.head?_eq_getElem?]; exact h1
      · intro hn
        rw [List.getElem?_cons_succ] at hn
        unfold lineForce at h2
        rw [hn] at h2
        simpa using h2.symm
      · intro t ht
        rw [List.getElem?_cons_succ] at ht
        unfold lineForce at h2
        rw [ht] at h2
        exact h2
      · unfold restrict; cases pf <;> simp
      · unfold restrict; cases ps <;> simp [h3]
      · intro hn
        rw [List.getElem?_cons_succ] at hn
        unfold lineWeight at h4
        rw [hn] at h4
        simpa [restrict] using h4.symm
      · intro t ht
        rw [List.getElem?_cons_succ] at ht
        unfold lineWeight at h4
        rw [ht] at h4
        exact h4

/-- Lines with one of the given tags. -/
def withTag (tags : List PStr) (lines : List (List PStr)) : List (List PStr) :=
  lines.filter fun l => l.head?.any fun t => decide (t ∈ tags)

theorem withTag_snoc (tags : List PStr) (ls : List (List PStr)) (t : PStr) (vs : List PStr) :
    withTag tags (ls ++ [t :: vs]) =
      if t ∈ tags then withTag tags ls ++ [t :: vs] else withTag tags ls := by
  unfold withTag
  rw [List.filter_append]
  by_cases h : t ∈ tags <;> simp [h]

theorem forall₂_snoc {β γ : Type} {R : β → γ → Prop} {xs : List β} {ys : List γ} {x : β} {y : γ}
    (h : List.Forall₂ R xs ys) (hxy : R x y) : List.Forall₂ R (xs ++ [x]) (ys ++ [y]) :=
  List.rel_append h (.cons hxy .nil)

/-- C54: if reading the data sets succeeds, the training data sets are exactly those of the
`train_data` lines, the test data sets those of the `test_data` lines and the data sets to be
split those of the `data` and `data_md` lines, in the order of the file; each has the name, the
force flag and the weight of its own line, switched off by the global flags. -/
theorem C54_data_lines [One α] (conv : PStr → Except Err α) (pf ps : Bool)
    (lines : List (List PStr)) (s : DataSets α)
    (h : setDatasets conv pf ps (parseWords lines) = .ok s) :
    List.Forall₂ (LineMeans conv pf ps)
      (withTag ["train_data".toList] (lines.filter isDataLine)) s.train ∧
    List.Forall₂ (LineMeans conv pf ps)
      (withTag ["test_data".toList] (lines.filter isDataLine)) s.test ∧
    List.Forall₂ (LineMeans conv pf ps)
      (withTag ["data".toList, "data_md".toList] (lines.filter isDataLine)) s.split := by
  unfold setDatasets at h
  rw [C37_data_lines] at h
  generalize lines.filter isDataLine = ls at h ⊢
  induction ls using List.reverseRecOn generalizing s with
  | nil =>
    simp only [List.foldlM_nil, pure, Except.pure, Except.ok.injEq] at h
    subst h
    exact ⟨.nil, .nil, .nil⟩
  | append_singleton ls l ih =>
    rw [foldlM_snoc] at h
    cases h0 : List.foldlM (dataStep conv pf ps) {} ls with
    | error e => rw [h0] at h; simp [bind, Except.bind] at h
    | ok s0 =>
      rw [h0] at h
      simp only [bind, Except.bind] at h
      obtain ⟨i1, i2, i3⟩ := ih s0 h0
      obtain ⟨tag, d, ht, hd, rfl⟩ := dataStep_ok h
      match l, ht with
      | t :: vs, ht =>
        simp only [List.head?_cons, Option.some.injEq] at ht
        subst ht
        rw [withTag_snoc, withTag_snoc, withTag_snoc]
        unfold addByTag
        have hAB : "train_data".toList ≠ "test_data".toList := by decide +kernel
        have hAC : "train_data".toList ≠ "data".toList := by decide +kernel
        have hAD : "train_data".toList ≠ "data_md".toList := by decide +kernel
        have hBC : "test_data".toList ≠ "data".toList := by decide +kernel
        have hBD : "test_data".toList ≠ "data_md".toList := by decide +kernel
        have hCD : "data".toList ≠ "data_md".toList := by decide +kernel
        revert i1 i2 i3 hAB hAC hAD hBC hBD hCD
        generalize "train_data".toList = A
        generalize "test_data".toList = B
        generalize "data".toList = C
        generalize "data_md".toList = D
        intro i1 i2 i3 hAB hAC hAD hBC hBD hCD
        simp only [List.mem_cons, List.not_mem_nil, or_false]
        by_cases e1 : t = A
        · subst e1
          simp only [if_true, hAB, hAC, hAD, or_self, if_false]
          exact ⟨forall₂_snoc i1 hd, i2, i3⟩
        · by_cases e2 : t = B
          · subst e2
            simp only [if_true, e1, hBC, hBD, or_self, if_false]
            exact ⟨i1, forall₂_snoc i2 hd, i3⟩
          · by_cases e3 : t = C
            · subst e3
              simp only [if_true, e1, e2, true_or, if_false]
              exact ⟨i1, i2, forall₂_snoc i3 hd⟩
            · by_cases e4 : t = D
              · subst e4
                simp only [if_true, e1, e2, e3, or_true, if_false]
                exact ⟨i1, i2, forall₂_snoc i3 hd⟩
              · simp only [e1, e2, e3, e4, or_self, if_false]
                exact ⟨i1, i2, i3⟩

/-- C54: an input file never asks for stresses without forces. -/
theorem C54_no_stress_without_force (p : Parsed) (f s : Bool)
    (h : getForceTags p = .ok (f, s)) : s = true → f = true := by
  unfold getForceTags at h
  cases hf : (getParams strtobool p "include_force".toList 1 true false false).map boolOf with
  | error e => rw [hf] at h; simp [bind, Except.bind] at h
  | ok f0 =>
    rw [hf] at h
    simp only [bind, Except.bind] at h
    cases f0 with
    | true =>
      cases hs : stressTag p true with
      | error e => rw [hs] at h; simp at h
      | ok s0 =>
        rw [hs] at h
        simp only [pure, Except.pure, Except.ok.injEq, Prod.mk.injEq] at h
        intro _; exact h.1.symm
    | false =>
      simp only [stressTag, Bool.false_eq_true, if_false, pure, Except.pure, Except.ok.injEq,
        Prod.mk.injEq] at h
      intro hs; rw [← h.2] at hs; simp at hs

/-- C54: the same for every data set of a file: stresses are used only with forces. -/
theorem C54_dataset_no_stress_without_force [One α] (conv : PStr → Except Err α)
    (lines : List (List PStr)) (f s : Bool) (ds : DataSets α)
    (hfs : getForceTags (parseWords lines) = .ok (f, s))
    (h : setDatasets conv f s (parseWords lines) = .ok ds) :
    ∀ d ∈ ds.train ++ ds.test ++ ds.split, d.includeStress = true → d.includeForce = true := by
  have key : ∀ ls (xs : List (DataLine α)), List.Forall₂ (LineMeans conv f s) ls xs →
      ∀ d ∈ xs, d.includeStress = true → d.includeForce = true := by
    intro ls xs hx
    induction hx with
    | nil => simp
    | cons h1 _ ih =>
      intro d hd hst
      rcases List.mem_cons.1 hd with rfl | hd
      · obtain ⟨_, ⟨own, _, _, h2, h3⟩, _⟩ := h1
        rw [h3, Bool.and_eq_true] at hst
        rw [h2, hst.1, C54_no_stress_without_force _ f s hfs hst.2]; rfl
      · exact ih d hd hst
  obtain ⟨h1, h2, h3⟩ := C54_data_lines conv f s lines ds h
  intro d hd
  rcases List.mem_append.1 hd with hd | hd
  · rcases List.mem_append.1 hd with hd | hd
    · exact key _ _ h1 d hd
    · exact key _ _ h2 d hd
  · exact key _ _ h3 d hd

/-- C37 fails for comments: the comment `#data are here` makes the parser raise
`RuntimeError` in every file, although the file without it may be fine. -/
theorem C37_comment_data_crash [One α] (conv : PStr → Except Err α) (pf ps : Bool)
    (after : List (List PStr)) :
    setDatasets conv pf ps (parseWords
      (["#data".toList, "are".toList, "here".toList] :: after)) = .error .runtimeError := by
  unfold setDatasets
  rw [C37_data_lines, List.filter_cons_of_pos (by simp only [isDataLine]; decide +kernel),
    List.foldlM_cons]
  rfl

example :
    let file := parseWords [["include_force".toList, "True".toList],
      ["include_stress".toList, "False".toList],
      ["train_data".toList, "a".toList], ["test_data".toList, "b".toList, "f".toList],
      ["data".toList, "c".toList, "T".toList, "w".toList], ["old_data".toList, "d".toList]]
    let conv : PStr → Except Err ℕ := fun _ => .ok 7
    getForceTags file = .ok (true, false) ∧
    setDatasets conv true false file = .ok ⟨[⟨"a".toList, true, false, 1⟩],
      [⟨"b".toList, false, false, 1⟩], [⟨"c".toList, true, false, 7⟩]⟩ := by
  decide +kernel

end Verif.Infile
