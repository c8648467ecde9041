import Verif.Lemmas.Crash
import Verif.Spec.Crash
import Verif.Props.LammpsFiles

/-!
# C120: interrupted or failed saving of potentials
-/

namespace Verif.Crash
open Verif.MlpYaml Verif.Params Verif.Spec

/-! ## Steps on the disk -/

theorem writes (n : String) (t : Txt) (d : Disk) :
    (t.map (Op.write n)).foldl step d = fun x => if x = n then (d n).map (· ++ t) else d x := by
  induction t generalizing d with
  | nil =>
    funext x
    by_cases h : x = n
    · subst h
      simp
    · simp [h]
  | cons c t ih =>
    rw [List.map_cons, List.foldl_cons, ih]
    funext x
    by_cases h : x = n
    · simp only [step, if_pos h, if_true, Option.map_map]
      congr 1
      funext s
      simp
    · simp [step, h]

theorem crash_printed (n : String) (t : Txt) (d : Disk) (j : ℕ) :
    crash d (printed n t) j = if j = 0 then d else
      fun x => if x = n then some (t.take (j - 1)) else d x := by
  unfold crash printed
  cases j with
  | zero => rfl
  | succ j =>
    rw [List.take_succ_cons, List.foldl_cons, ← List.map_take, writes]
    funext x
    by_cases h : x = n <;> simp [step, h]

/-- The steps of printing several files. -/
def opsOf (l : List (String × Txt)) : List Op := l.flatMap fun p => printed p.1 p.2

theorem crash_append (d : Disk) (a b : List Op) (j : ℕ) :
    crash d (a ++ b) j = if j ≤ a.length then crash d a j
      else crash (crash d a a.length) b (j - a.length) := by
  unfold crash
  split
  · rename_i h
    rw [List.take_append_of_le_length h]
  · rename_i h
    rw [List.take_append, List.foldl_append, List.take_of_length_le (l := a) (by omega),
      List.take_of_length_le (l := a) (le_refl _)]

theorem printed_length (n : String) (t : Txt) : (printed n t).length = t.length + 1 := by
  simp [printed]

theorem crash_ops (l : List (String × Txt)) (hn : (l.map (·.1)).Nodup) (d : Disk) (j : ℕ) :
    ∃ k, (∀ (i : ℕ) (p : String × Txt), l[i]? = some p →
        (i < k → crash d (opsOf l) j p.1 = some p.2) ∧
        (i = k → crash d (opsOf l) j p.1 = d p.1 ∨
          ∃ q, q <+: p.2 ∧ crash d (opsOf l) j p.1 = some q) ∧
        (k < i → crash d (opsOf l) j p.1 = d p.1)) ∧
      ∀ x, x ∉ l.map (·.1) → crash d (opsOf l) j x = d x := by
  induction l generalizing d j with
  | nil => exact ⟨0, by simp, by simp [opsOf, crash]⟩
  | cons p l ih =>
    rw [List.map_cons, List.nodup_cons] at hn
    have e : opsOf (p :: l) = printed p.1 p.2 ++ opsOf l := rfl
    rw [e, crash_append]
    split
    · refine ⟨0, ?_, ?_⟩
      · intro i q hq
        refine ⟨by omega, ?_, ?_⟩
        · rintro rfl
          rw [List.getElem?_cons_zero, Option.some.injEq] at hq
          subst hq
          rw [crash_printed]
          split
          · exact Or.inl rfl
          · exact Or.inr ⟨_, List.take_prefix (j - 1) _, if_pos rfl⟩
        · intro hi
          obtain ⟨i, rfl⟩ := Nat.exists_eq_succ_of_ne_zero hi.ne'
          rw [List.getElem?_cons_succ] at hq
          have : q.1 ≠ p.1 := by
            intro h
            exact hn.1 (List.mem_map.2 ⟨q, List.mem_of_getElem? hq, h⟩)
          rw [crash_printed]
          split <;> simp [this]
      · intro x hx
        simp only [List.map_cons, List.mem_cons, not_or] at hx
        rw [crash_printed]
        split <;> simp [hx.1]
    · rename_i hj
      have hd : crash d (printed p.1 p.2) (printed p.1 p.2).length =
          fun x => if x = p.1 then some p.2 else d x := by
        rw [crash_printed, if_neg (by rw [printed_length]; omega), printed_length]
        simp
      rw [hd]
      obtain ⟨k, h1, h2⟩ := ih hn.2 (fun x => if x = p.1 then some p.2 else d x)
        (j - (printed p.1 p.2).length)
      refine ⟨k + 1, ?_, ?_⟩
      · intro i q hq
        cases i with
        | zero =>
          rw [List.getElem?_cons_zero, Option.some.injEq] at hq
          subst hq
          refine ⟨?_, by omega, by omega⟩
          intro _
          rw [h2 _ hn.1]
          simp
        | succ i =>
          rw [List.getElem?_cons_succ] at hq
          have hne : q.1 ≠ p.1 := by
            intro h
            exact hn.1 (List.mem_map.2 ⟨q, List.mem_of_getElem? hq, h⟩)
          obtain ⟨a, b, c⟩ := h1 i q hq
          rw [if_neg hne] at b c
          exact ⟨fun h => a (by omega), fun h => b (by omega), fun h => c (by omega)⟩
      · intro x hx
        simp only [List.map_cons, List.mem_cons, not_or] at hx
        rw [h2 x hx.2, if_neg hx.1]

theorem crash_other (l : List (String × Txt)) (hn : (l.map (·.1)).Nodup) (d : Disk) (j : ℕ)
    (x : String) (hx : x ∉ l.map (·.1)) : crash d (opsOf l) j x = d x := by
  obtain ⟨_, _, h⟩ := crash_ops l hn d j
  exact h x hx

theorem crash_append' (d : Disk) (a b : List Op) (j : ℕ) :
    crash d (a ++ b) (a.length + j) = crash (crash d a a.length) b j := by
  unfold crash
  rw [List.take_append, List.foldl_append, List.take_of_length_le (l := a) (by omega),
    List.take_of_length_le (l := a) (le_refl _), Nat.add_sub_cancel_left]

theorem reach_ops (l : List (String × Txt)) (hn : (l.map (·.1)).Nodup) (d : Disk) (k : ℕ)
    (p : String × Txt) (hk : l[k]? = some p) (m : ℕ) :
    ∃ j, j ≤ (opsOf l).length ∧ crash d (opsOf l) j p.1 = some (p.2.take m) ∧
      ∀ (i : ℕ) (q : String × Txt), l[i]? = some q →
        (i < k → crash d (opsOf l) j q.1 = some q.2) ∧
        (k < i → crash d (opsOf l) j q.1 = d q.1) := by
  induction l generalizing d k with
  | nil => simp at hk
  | cons a l ih =>
    rw [List.map_cons, List.nodup_cons] at hn
    have e : opsOf (a :: l) = printed a.1 a.2 ++ opsOf l := rfl
    rw [e]
    cases k with
    | zero =>
      rw [List.getElem?_cons_zero, Option.some.injEq] at hk
      subst hk
      have hle : min m a.2.length + 1 ≤ (printed a.1 a.2).length := by rw [printed_length]; omega
      refine ⟨min m a.2.length + 1, by rw [List.length_append]; omega, ?_, ?_⟩
      · rw [crash_append, if_pos hle, crash_printed, if_neg (by omega)]
        simp [List.take_eq_take_iff]
      · intro i q hq
        refine ⟨by omega, ?_⟩
        intro hi
        obtain ⟨i, rfl⟩ := Nat.exists_eq_succ_of_ne_zero hi.ne'
        rw [List.getElem?_cons_succ] at hq
        have : q.1 ≠ a.1 := by
          intro h
          exact hn.1 (List.mem_map.2 ⟨q, List.mem_of_getElem? hq, h⟩)
        rw [crash_append, if_pos hle, crash_printed, if_neg (by omega)]
        simp [this]
    | succ k =>
      rw [List.getElem?_cons_succ] at hk
      have hd : crash d (printed a.1 a.2) (printed a.1 a.2).length =
          fun x => if x = a.1 then some a.2 else d x := by
        rw [crash_printed, if_neg (by rw [printed_length]; omega), printed_length]
        simp
      obtain ⟨j, h0, h1, h2⟩ := ih hn.2 (fun x => if x = a.1 then some a.2 else d x) k hk
      refine ⟨(printed a.1 a.2).length + j, by rw [List.length_append]; omega, ?_, ?_⟩
      · rw [crash_append', hd, h1]
      · intro i q hq
        rw [crash_append', hd]
        cases i with
        | zero =>
          rw [List.getElem?_cons_zero, Option.some.injEq] at hq
          subst hq
          refine ⟨fun _ => ?_, by omega⟩
          rw [crash_other l hn.2 _ _ _ hn.1, if_pos rfl]
        | succ i =>
          rw [List.getElem?_cons_succ] at hq
          have hne : q.1 ≠ a.1 := by
            intro h
            exact hn.1 (List.mem_map.2 ⟨q, List.mem_of_getElem? hq, h⟩)
          obtain ⟨b, c⟩ := h2 i q hq
          rw [if_neg hne] at c
          exact ⟨fun h => b (by omega), fun h => c (by omega)⟩

theorem final_ops (l : List (String × Txt)) (hn : (l.map (·.1)).Nodup) (d : Disk)
    (p : String × Txt) (hp : p ∈ l) : crash d (opsOf l) (opsOf l).length p.1 = some p.2 := by
  induction l generalizing d with
  | nil => cases hp
  | cons a l ih =>
    rw [List.map_cons, List.nodup_cons] at hn
    have e : opsOf (a :: l) = printed a.1 a.2 ++ opsOf l := rfl
    rw [e, List.length_append, crash_append']
    rcases List.mem_cons.1 hp with rfl | hp
    · rw [crash_other l hn.2 _ _ _ hn.1, crash_printed, if_neg (by rw [printed_length]; omega),
        printed_length]
      simp
    · exact ih hn.2 _ hp

/-! ## The calls -/

theorem saveLines_ok {showF : ℚ → Txt} {o : Obj} {coeffs scales : List ℚ} {d : Doc}
    (h : save showF o coeffs scales = .ok d) :
    saveLines showF o coeffs scales = (render d, none) := by
  unfold save at h
  unfold saveLines
  cases hm : List.mapM massOf o.cur.single.elements with
  | error e =>
    simp only [hm] at h
    cases h
  | ok mass =>
    simp only [hm, bind, Except.bind] at h
    dsimp only
    by_cases hl : coeffs.length = scales.length
    · rw [if_neg (by simpa using hl)] at h ⊢
      simp only [pure, Except.pure, Except.ok.injEq] at h
      subst h
      simp only [headLines, midLines, render, List.flatMap_map, List.map_map, List.append_assoc,
        List.cons_append, List.nil_append, Function.comp_def]
    · rw [if_pos hl] at h
      cases h

theorem head_not_coeffs (showF : ℚ → Txt) (o : Obj) :
    ∀ l ∈ headLines showF o, ¬ "coeffs:".toList <+: l := by
  intro l hl
  unfold headLines at hl
  simp only [List.mem_append, List.mem_cons, List.not_mem_nil, or_false] at hl
  have hg : l ∈ gtinvLines (gtinvEntry o.base.mod) → ¬ "coeffs:".toList <+: l := by
    intro h
    cases hx : gtinvEntry o.base.mod with
    | none => rw [hx] at h; cases h
    | some g =>
      obtain ⟨a, b, c, e⟩ := g
      rw [hx] at h
      simp only [gtinvLines, List.mem_cons, List.not_mem_nil, or_false] at h
      rcases h with rfl | rfl | rfl | rfl | rfl <;> simp [kv]
  rcases hl with ((rfl | rfl | rfl | rfl | rfl | rfl | rfl | rfl | rfl) | h) | rfl
  all_goals first
    | exact hg h
    | simp [kv]

theorem mid_not_coeffs (showF : ℚ → Txt) (o : Obj) (mass : List Txt) :
    ∀ l ∈ midLines showF o mass, ¬ "coeffs:".toList <+: l := by
  intro l hl
  unfold midLines at hl
  simp only [List.mem_append, List.mem_cons, List.not_mem_nil, or_false, List.mem_map,
    List.mem_flatMap] at hl
  rcases hl with (((((rfl | rfl | rfl | rfl) | ⟨p, _, rfl⟩) | rfl | rfl | rfl) | ⟨p, _, rfl | rfl⟩) |
    rfl | rfl | rfl | rfl)
  all_goals simp [kv]

theorem saveLines_error {showF : ℚ → Txt} {o : Obj} {coeffs scales : List ℚ} {e : Err}
    (h : save showF o coeffs scales = .error e) :
    ∃ lines, saveLines showF o coeffs scales = (lines, some e) ∧
      ∀ l ∈ lines, ¬ "coeffs:".toList <+: l := by
  unfold save at h
  unfold saveLines
  cases hm : List.mapM massOf o.cur.single.elements with
  | error e' =>
    simp only [hm] at h
    cases h
    exact ⟨_, rfl, head_not_coeffs showF o⟩
  | ok mass =>
    simp only [hm, bind, Except.bind] at h
    dsimp only
    by_cases hl : coeffs.length = scales.length
    · rw [if_neg (by simpa using hl)] at h
      cases h
    · rw [if_pos hl] at h ⊢
      cases h
      refine ⟨_, rfl, ?_⟩
      intro l hl
      rcases List.mem_append.1 hl with hl | hl
      · exact head_not_coeffs showF o l hl
      · exact mid_not_coeffs showF o mass l hl

/-- The name and the text of a call. -/
def pairOf (showF : ℚ → Txt) (j : Job) : String × Txt :=
  (j.name, text (saveLines showF j.obj j.coeffs j.scales).1)

theorem saveLoop_ok (showF : ℚ → Txt) (js : List Job)
    (h : ∀ j ∈ js, (saveLines showF j.obj j.coeffs j.scales).2 = none) :
    saveLoop showF js = (opsOf (js.map (pairOf showF)), none) := by
  induction js with
  | nil => rfl
  | cons j js ih =>
    have h0 := h j (by simp)
    unfold saveLoop saveJob
    simp only [h0]
    rw [ih fun k hk => h k (by simp [hk])]
    rfl

theorem saveLoop_fail (showF : ℚ → Txt) (a : List Job) (b : Job) (c : List Job) (e : Err)
    (h : ∀ j ∈ a, (saveLines showF j.obj j.coeffs j.scales).2 = none)
    (hb : (saveLines showF b.obj b.coeffs b.scales).2 = some e) :
    saveLoop showF (a ++ b :: c) = (opsOf ((a ++ [b]).map (pairOf showF)), some e) := by
  induction a with
  | nil =>
    rw [List.nil_append]
    unfold saveLoop saveJob
    simp only [hb]
    simp [opsOf, pairOf]
  | cons j a ih =>
    have h0 := h j (by simp)
    rw [List.cons_append]
    unfold saveLoop saveJob
    simp only [h0]
    rw [ih fun k hk => h k (by simp [hk])]
    rfl

theorem jobs_get (filename : String) (params : List Obj) (cum : List ℕ) (coeffs scales : List ℚ)
    (i : ℕ) : (jobs filename params cum coeffs scales)[i]? = (params[i]?).map fun o =>
      ⟨fileOfModel filename params.length i, o, partOfModel cum params.length i coeffs,
        partOfModel cum params.length i scales⟩ := by
  have general : ∀ ps : List Obj, ps.length ≠ 1 → (ps.mapIdx fun i o =>
      (⟨MlpFiles.subName filename i, o,
        (coeffs.take (cum.getD i 0)).drop (if i = 0 then 0 else cum.getD (i - 1) 0),
        (scales.take (cum.getD i 0)).drop (if i = 0 then 0 else cum.getD (i - 1) 0)⟩ : Job))[i]? =
      (ps[i]?).map fun o => ⟨fileOfModel filename ps.length i, o,
        partOfModel cum ps.length i coeffs, partOfModel cum ps.length i scales⟩ := by
    intro ps hps
    rw [List.getElem?_mapIdx]
    simp only [fileOfModel, partOfModel, if_neg hps, MlpFiles.subName]
  match params with
  | [] => exact general [] (by simp)
  | [o] =>
    cases i with
    | zero => simp [jobs, fileOfModel, partOfModel]
    | succ i => simp [jobs]
  | a :: b :: l => exact general (a :: b :: l) (by simp)

theorem fileOfModel_inj (filename : String) (n i j : ℕ) (hn : n ≠ 1)
    (h : fileOfModel filename n i = fileOfModel filename n j) : i = j := by
  simp only [fileOfModel, if_neg hn] at h
  have := congrArg String.toList h
  simp only [String.toList_append, List.append_assoc, List.append_cancel_left_eq] at this
  have h2 : i + 1 = j + 1 := by
    have e : toString (i + 1) = toString (j + 1) := String.ext this
    exact LammpsFiles.natString_inj _ _ e
  omega

theorem jobs_length (filename : String) (params : List Obj) (cum : List ℕ) (coeffs scales : List ℚ) :
    (jobs filename params cum coeffs scales).length = params.length := by
  match params with
  | [] => rfl
  | [o] => rfl
  | a :: b :: l => simp [jobs]

theorem jobs_nodup (filename : String) (params : List Obj) (cum : List ℕ) (coeffs scales : List ℚ) :
    ((jobs filename params cum coeffs scales).map (·.name)).Nodup := by
  rw [List.nodup_iff_injective_get]
  intro a b hab
  have ha : a.1 < params.length := by
    have h := jobs_length filename params cum coeffs scales
    have := lt_of_lt_of_eq a.2 (List.length_map _)
    omega
  have hb : b.1 < params.length := by
    have h := jobs_length filename params cum coeffs scales
    have := lt_of_lt_of_eq b.2 (List.length_map _)
    omega
  have e : ∀ c : Fin ((jobs filename params cum coeffs scales).map (·.name)).length,
      c.1 < params.length →
      ((jobs filename params cum coeffs scales).map (·.name)).get c =
        fileOfModel filename params.length c.1 := by
    intro c hc
    have h1 := List.getElem?_eq_getElem c.2
    rw [List.getElem?_map, jobs_get, List.getElem?_eq_getElem hc] at h1
    simp only [Option.map_some, Option.some.injEq] at h1
    exact h1.symm
  rw [e a ha, e b hb] at hab
  apply Fin.ext
  by_cases h1 : params.length = 1
  · omega
  · exact fileOfModel_inj filename _ _ _ h1 hab

/-- The names and the texts of the calls, when all models can be saved. -/
theorem pairs_get {showF : ℚ → Txt} {params : List Obj} {cum : List ℕ} {coeffs scales : List ℚ}
    {docs : ℕ → Doc} (filename : String) {i : ℕ} {o : Obj} (hi : params[i]? = some o)
    (h : save showF o (partOfModel cum params.length i coeffs)
      (partOfModel cum params.length i scales) = .ok (docs i)) :
    ((jobs filename params cum coeffs scales).map (pairOf showF))[i]? =
      some (fileOfModel filename params.length i, text (render (docs i))) := by
  rw [List.getElem?_map, jobs_get, hi]
  simp only [Option.map_some, pairOf, saveLines_ok h]

theorem pairs_names (showF : ℚ → Txt) (js : List Job) :
    (js.map (pairOf showF)).map (·.1) = js.map (·.name) := by
  rw [List.map_map]
  rfl

theorem saves_ok {showF : ℚ → Txt} {filename : String} {params : List Obj} {cum : List ℕ}
    {coeffs scales : List ℚ} {docs : ℕ → Doc}
    (hdocs : ∀ (i : ℕ) (o : Obj), params[i]? = some o →
      save showF o (partOfModel cum params.length i coeffs)
        (partOfModel cum params.length i scales) = .ok (docs i)) :
    saveMlps showF filename params cum coeffs scales =
      (opsOf ((jobs filename params cum coeffs scales).map (pairOf showF)), none) := by
  apply saveLoop_ok
  intro j hj
  obtain ⟨i, hi, rfl⟩ := List.getElem_of_mem hj
  have h1 := jobs_get filename params cum coeffs scales i
  rw [List.getElem?_eq_getElem hi] at h1
  have hi' : i < params.length := by rwa [jobs_length] at hi
  rw [List.getElem?_eq_getElem hi'] at h1
  simp only [Option.map_some, Option.some.injEq] at h1
  rw [h1]
  simp only [saveLines_ok (hdocs i _ (List.getElem?_eq_getElem hi'))]

/-- **C120.** Wherever the saving of a potential is interrupted, the files of the models before one
point are complete, the file at that point has its old content or a beginning of the new one, and the
files after it and all other files are as they were. -/
theorem C120_crash_points (showF : ℚ → Txt) (filename : String) (params : List Obj) (cum : List ℕ)
    (coeffs scales : List ℚ) (docs : ℕ → Doc)
    (hdocs : ∀ (i : ℕ) (o : Obj), params[i]? = some o →
      save showF o (partOfModel cum params.length i coeffs)
        (partOfModel cum params.length i scales) = .ok (docs i)) (disk : Disk) (j : ℕ) :
    Torn (fileOfModel filename params.length) (fun i => text (render (docs i))) params.length disk
      (crash disk (saveMlps showF filename params cum coeffs scales).1 j) := by
  rw [saves_ok hdocs]
  dsimp only
  have hn := jobs_nodup filename params cum coeffs scales
  rw [← pairs_names showF] at hn
  obtain ⟨k, h1, h2⟩ := crash_ops _ hn disk j
  have hg : ∀ i, i < params.length →
      ((jobs filename params cum coeffs scales).map (pairOf showF))[i]? =
        some (fileOfModel filename params.length i, text (render (docs i))) := fun i hi =>
    pairs_get filename (List.getElem?_eq_getElem hi) (hdocs i _ (List.getElem?_eq_getElem hi))
  refine ⟨k, ?_, ?_, ?_, ?_⟩
  · intro i hi hk
    exact (h1 i _ (hg i hi)).1 hk
  · intro hk
    exact (h1 k _ (hg k hk)).2.1 rfl
  · intro i hi hk
    exact (h1 i _ (hg i hi)).2.2 hk
  · intro x hx
    apply h2
    intro hm
    obtain ⟨q, hq, rfl⟩ := List.mem_map.1 hm
    obtain ⟨i, hi, rfl⟩ := List.getElem_of_mem hq
    have hi' : i < params.length := by
      rwa [List.length_map, jobs_length] at hi
    have := hg i hi'
    rw [List.getElem?_eq_getElem hi, Option.some.injEq] at this
    rw [this] at hx
    exact hx i hi' rfl

/-- **C120.** Every beginning of every file is left behind by some interruption, with the files before it
complete and the files after it as they were. -/
theorem C120_every_point (showF : ℚ → Txt) (filename : String) (params : List Obj) (cum : List ℕ)
    (coeffs scales : List ℚ) (docs : ℕ → Doc)
    (hdocs : ∀ (i : ℕ) (o : Obj), params[i]? = some o →
      save showF o (partOfModel cum params.length i coeffs)
        (partOfModel cum params.length i scales) = .ok (docs i)) (disk : Disk)
    (k : ℕ) (hk : k < params.length) (p : Txt) (hp : p <+: text (render (docs k))) :
    ∃ j, ∀ i, i < params.length →
      crash disk (saveMlps showF filename params cum coeffs scales).1 j
        (fileOfModel filename params.length i) =
      if i < k then some (text (render (docs i))) else if i = k then some p
      else disk (fileOfModel filename params.length i) := by
  rw [saves_ok hdocs]
  dsimp only
  have hn := jobs_nodup filename params cum coeffs scales
  rw [← pairs_names showF] at hn
  have hg : ∀ i, i < params.length →
      ((jobs filename params cum coeffs scales).map (pairOf showF))[i]? =
        some (fileOfModel filename params.length i, text (render (docs i))) := fun i hi =>
    pairs_get filename (List.getElem?_eq_getElem hi) (hdocs i _ (List.getElem?_eq_getElem hi))
  obtain ⟨j, -, h1, h2⟩ := reach_ops _ hn disk k _ (hg k hk) p.length
  refine ⟨j, fun i hi => ?_⟩
  rcases lt_trichotomy i k with h | rfl | h
  · rw [if_pos h]
    exact (h2 i _ (hg i hi)).1 h
  · rw [if_neg (by omega), if_pos rfl, h1]
    rw [← List.prefix_iff_eq_take.1 hp]
  · rw [if_neg (by omega), if_neg (by omega)]
    exact (h2 i _ (hg i hi)).2 h

/-- **C120.** Without an interruption nothing is raised, every file holds its new text, and all other
files are as they were. -/
theorem C120_finished (showF : ℚ → Txt) (filename : String) (params : List Obj) (cum : List ℕ)
    (coeffs scales : List ℚ) (docs : ℕ → Doc)
    (hdocs : ∀ (i : ℕ) (o : Obj), params[i]? = some o →
      save showF o (partOfModel cum params.length i coeffs)
        (partOfModel cum params.length i scales) = .ok (docs i)) (disk : Disk) :
    let r := saveMlps showF filename params cum coeffs scales
    r.2 = none ∧
    (∀ i, i < params.length → crash disk r.1 r.1.length (fileOfModel filename params.length i) =
      some (text (render (docs i)))) ∧
    ∀ x, (∀ i, i < params.length → x ≠ fileOfModel filename params.length i) →
      crash disk r.1 r.1.length x = disk x := by
  refine ⟨?_, ?_, ?_⟩
  · rw [saves_ok hdocs]
  · rw [saves_ok hdocs]
    intro i hi
    have hn := jobs_nodup filename params cum coeffs scales
    rw [← pairs_names showF] at hn
    exact final_ops _ hn disk _ (List.mem_of_getElem? (pairs_get filename
      (List.getElem?_eq_getElem hi) (hdocs i _ (List.getElem?_eq_getElem hi))))
  · exact (C120_crash_points showF filename params cum coeffs scales docs hdocs disk _).choose_spec.2.2.2

/-- **C120.** Saving that fails at model `k` raises the exception of that model; the files of the models
before it are complete, the old content of its own file is lost — no coefficients are in it — and the
files after it are as they were. -/
theorem C120_failed (showF : ℚ → Txt) (filename : String) (params : List Obj) (cum : List ℕ)
    (coeffs scales : List ℚ) (docs : ℕ → Doc) (k : ℕ) (e : Err)
    (hdocs : ∀ (i : ℕ) (o : Obj), i < k → params[i]? = some o →
      save showF o (partOfModel cum params.length i coeffs)
        (partOfModel cum params.length i scales) = .ok (docs i))
    (o : Obj) (ho : params[k]? = some o)
    (he : save showF o (partOfModel cum params.length k coeffs)
        (partOfModel cum params.length k scales) = .error e) (disk : Disk) :
    let r := saveMlps showF filename params cum coeffs scales
    r.2 = some e ∧
    (∀ i, i < k → crash disk r.1 r.1.length (fileOfModel filename params.length i) =
      some (text (render (docs i)))) ∧
    (∃ lines, crash disk r.1 r.1.length (fileOfModel filename params.length k) =
      some (text lines) ∧ ∀ l ∈ lines, ¬ "coeffs:".toList <+: l) ∧
    ∀ x, (∀ i, i ≤ k → x ≠ fileOfModel filename params.length i) →
      crash disk r.1 r.1.length x = disk x := by
  have hkl : k < params.length := (List.getElem?_eq_some_iff.1 ho).1
  have hjk : k < (jobs filename params cum coeffs scales).length := by rwa [jobs_length]
  obtain ⟨lines, hl1, hl2⟩ := saveLines_error he
  have hbk : (jobs filename params cum coeffs scales)[k] =
      ⟨fileOfModel filename params.length k, o, partOfModel cum params.length k coeffs,
        partOfModel cum params.length k scales⟩ := by
    have h1 := jobs_get filename params cum coeffs scales k
    rw [List.getElem?_eq_getElem hjk, ho] at h1
    simpa using h1
  have hsplit : jobs filename params cum coeffs scales =
      (jobs filename params cum coeffs scales).take k ++
        (jobs filename params cum coeffs scales)[k] ::
          (jobs filename params cum coeffs scales).drop (k + 1) := by
    rw [List.getElem_cons_drop, List.take_append_drop]
  have hrun : saveMlps showF filename params cum coeffs scales =
      (opsOf (((jobs filename params cum coeffs scales).take (k + 1)).map (pairOf showF)),
        some e) := by
    unfold saveMlps
    rw [hsplit, saveLoop_fail showF _ _ _ e _ (by rw [hbk]; simp only [hl1]), ← hsplit,
      List.take_succ_eq_append_getElem hjk]
    intro j hj
    obtain ⟨i, hi, rfl⟩ := List.getElem_of_mem hj
    rw [List.getElem_take]
    have hik : i < k := by
      rw [List.length_take] at hi
      omega
    have hij : i < (jobs filename params cum coeffs scales).length := by omega
    have h1 := jobs_get filename params cum coeffs scales i
    rw [List.getElem?_eq_getElem hij, List.getElem?_eq_getElem (show i < params.length by omega)] at h1
    simp only [Option.map_some, Option.some.injEq] at h1
    rw [h1]
    simp only [saveLines_ok (hdocs i _ hik (List.getElem?_eq_getElem (by omega)))]
  have hn := jobs_nodup filename params cum coeffs scales
  rw [← pairs_names showF] at hn
  have hn' : ((((jobs filename params cum coeffs scales).take (k + 1)).map (pairOf showF)).map
      (·.1)).Nodup := by
    refine hn.sublist ?_
    exact ((List.take_sublist _ _).map _).map _
  have hget : ∀ i, i < k + 1 →
      (((jobs filename params cum coeffs scales).take (k + 1)).map (pairOf showF))[i]? =
      ((jobs filename params cum coeffs scales).map (pairOf showF))[i]? := by
    intro i hi
    rw [List.getElem?_map, List.getElem?_map, List.getElem?_take_of_lt hi]
  refine ⟨by rw [hrun], ?_, ?_, ?_⟩
  · rw [hrun]
    intro i hi
    refine final_ops _ hn' disk (fileOfModel filename params.length i, text (render (docs i)))
      (List.mem_of_getElem? (i := i) ?_)
    rw [hget i (by omega)]
    have hip : i < params.length := by omega
    exact pairs_get filename (List.getElem?_eq_getElem hip)
      (hdocs i _ hi (List.getElem?_eq_getElem hip))
  · rw [hrun]
    refine ⟨lines, ?_, hl2⟩
    have := final_ops _ hn' disk (fileOfModel filename params.length k, text lines)
      (List.mem_of_getElem? (i := k) (by
        rw [hget k (by omega), List.getElem?_map, List.getElem?_eq_getElem hjk, hbk]
        simp only [Option.map_some, pairOf, hl1]))
    exact this
  · rw [hrun]
    intro x hx
    refine crash_other _ hn' disk _ x ?_
    intro hm
    obtain ⟨q, hq, rfl⟩ := List.mem_map.1 hm
    obtain ⟨b, hb, rfl⟩ := List.mem_map.1 hq
    obtain ⟨i, hi, rfl⟩ := List.getElem_of_mem hb
    rw [List.length_take] at hi
    have hij : i < (jobs filename params cum coeffs scales).length := by omega
    have hip : i < params.length := by rwa [jobs_length] at hij
    have h1 := jobs_get filename params cum coeffs scales i
    rw [List.getElem?_eq_getElem hij, List.getElem?_eq_getElem hip] at h1
    simp only [Option.map_some, Option.some.injEq] at h1
    refine hx i (by omega) ?_
    rw [List.getElem_take, pairOf, h1]

end Verif.Crash
