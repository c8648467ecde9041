import Verif.Lemmas.Infile

/-!
C37 (input file) and C39 (string flags).
-/

namespace Verif.Infile
open Verif.Spec.Infile

/-! ## C39 -/

theorem toNat_toLower (c : Char) :
    c.toLower.toNat = if 65 ≤ c.toNat ∧ c.toNat ≤ 90 then c.toNat + 32 else c.toNat := by
  have e1 : (c.val ≥ 'A'.val ∧ c.val ≤ 'Z'.val) ↔ (65 ≤ c.toNat ∧ c.toNat ≤ 90) := by
    show ('A'.val ≤ c.val ∧ c.val ≤ 'Z'.val) ↔ _
    rw [UInt32.le_iff_toNat_le, UInt32.le_iff_toNat_le]; rfl
  unfold Char.toLower
  split
  · rename_i h
    have h' := e1.1 h
    rw [if_pos h']
    show (c.val + ('a'.val - 'A'.val)).toNat = c.val.toNat + 32
    rw [UInt32.toNat_add]
    have : ('a'.val - 'A'.val).toNat = 32 := rfl
    rw [this]
    have : c.val.toNat ≤ 90 := h'.2
    omega
  · rename_i h
    rw [if_neg (fun x => h (e1.2 x))]

theorem toLower_eq_iff (c d u : Char) (hu : d.toUpper = u)
    (h : (97 ≤ d.toNat ∧ d.toNat ≤ 122 ∧ u.toNat + 32 = d.toNat) ∨
      (d.toNat < 65 ∧ u = d)) : c.toLower = d ↔ c = d ∨ c = d.toUpper := by
  rw [hu, ← Char.toNat_inj, ← Char.toNat_inj, ← Char.toNat_inj, toNat_toLower]
  rcases h with h | ⟨h, rfl⟩
  · split <;> omega
  · split <;> omega

/-- Words used by `strtobool`. -/
theorem lower_eq_iff (s w : PStr)
    (hw : ∀ d ∈ w, (97 ≤ d.toNat ∧ d.toNat ≤ 122 ∧ d.toUpper.toNat + 32 = d.toNat) ∨
      (d.toNat < 65 ∧ d.toUpper = d)) : lower s = w ↔ SameUpToCase s w := by
  unfold lower SameUpToCase
  induction s generalizing w with
  | nil => cases w <;> simp
  | cons c s ih =>
    cases w with
    | nil => simp
    | cons d w =>
      rw [List.map_cons, List.cons.injEq, List.forall₂_cons,
        toLower_eq_iff c d _ rfl (hw d (by simp)), ih w (fun x hx => hw x (by simp [hx]))]

/-- C39: exactly `t`, `true`, `1`, in any case, are `True`. -/
theorem C39_true (s : PStr) : strtobool s = .ok true ↔
    SameUpToCase s "t".toList ∨ SameUpToCase s "true".toList ∨ SameUpToCase s "1".toList := by
  rw [← lower_eq_iff s "t".toList (by decide +kernel),
    ← lower_eq_iff s "true".toList (by decide +kernel),
    ← lower_eq_iff s "1".toList (by decide +kernel)]
  unfold strtobool
  constructor
  · intro h
    dsimp only at h
    split at h
    · assumption
    · split at h <;> simp at h
  · intro h
    dsimp only
    rw [if_pos]; exact h

/-- C39: exactly `f`, `false`, `0`, in any case, are `False`. -/
theorem C39_false (s : PStr) : strtobool s = .ok false ↔
    SameUpToCase s "f".toList ∨ SameUpToCase s "false".toList ∨ SameUpToCase s "0".toList := by
  rw [← lower_eq_iff s "f".toList (by decide +kernel),
    ← lower_eq_iff s "false".toList (by decide +kernel),
    ← lower_eq_iff s "0".toList (by decide +kernel)]
  unfold strtobool
  constructor
  · intro h
    dsimp only at h
    split at h
    · simp at h
    · split at h
      · assumption
      · simp at h
  · intro h
    dsimp only
    rw [if_neg, if_pos]
    · exact h
    · rcases h with h | h | h <;> rw [h] <;> decide

/-- C39: every other string raises `RuntimeError`. -/
theorem C39_error (s : PStr) (e : Err) : strtobool s = .error e ↔
    e = .runtimeError ∧ ¬ strtobool s = .ok true ∧ ¬ strtobool s = .ok false := by
  unfold strtobool
  dsimp only
  split
  · simp
  · split
    · simp
    · simp [eq_comm]

example : strtobool "TrUe".toList = .ok true ∧ strtobool "F".toList = .ok false ∧
    strtobool "yes".toList = .error .runtimeError ∧
    SameUpToCase "TrUe".toList "true".toList := by
  refine ⟨by decide +kernel, by decide +kernel, by decide +kernel, ?_⟩
  show List.Forall₂ _ ['T', 'r', 'U', 'e'] ['t', 'r', 'u', 'e']
  simp

/-! ## C37: words and lines -/

/-- A line: leading white space, then words each followed by white space. -/
def renderLine (lead : PStr) (ws : List (PStr × PStr)) : PStr :=
  lead ++ ws.flatMap fun p => p.1 ++ p.2

theorem splitWs_space (ws : Char → Bool) (sp rest : PStr) (h : ∀ c ∈ sp, ws c = true) :
    splitWs ws [] (sp ++ rest) = splitWs ws [] rest := by
  induction sp with
  | nil => rfl
  | cons c sp ih =>
    rw [List.cons_append, splitWs, if_pos (h c (by simp)), if_pos rfl]
    exact ih fun x hx => h x (by simp [hx])

theorem splitWs_word (ws : Char → Bool) (cur w rest : PStr) (h : ∀ c ∈ w, ws c = false) :
    splitWs ws cur (w ++ rest) = splitWs ws (cur ++ w) rest := by
  induction w generalizing cur with
  | nil => simp
  | cons c w ih =>
    rw [List.cons_append, splitWs, if_neg (by rw [h c (by simp)]; simp),
      ih _ (fun x hx => h x (by simp [hx]))]
    simp

/-- C37: whatever characters count as white space, a line of words separated by white space is
read as those words, whatever spacing is used. -/
theorem C37_words (ws : Char → Bool) (lead : PStr) (ps : List (PStr × PStr))
    (hl : ∀ c ∈ lead, ws c = true)
    (hw : ∀ p ∈ ps, p.1 ≠ [] ∧ (∀ c ∈ p.1, ws c = false) ∧ ∀ c ∈ p.2, ws c = true)
    (hsep : ∀ p ∈ ps.dropLast, p.2 ≠ []) :
    splitWs ws [] (renderLine lead ps) = ps.map (·.1) := by
  unfold renderLine
  rw [splitWs_space ws lead _ hl]
  induction ps with
  | nil => rfl
  | cons p ps ih =>
    obtain ⟨w, sp⟩ := p
    obtain ⟨h1, h2, h3⟩ := hw (w, sp) (by simp)
    dsimp only at h1 h2 h3
    rw [List.flatMap_cons, List.append_assoc, splitWs_word ws [] w _ h2, List.nil_append]
    have ih' := ih (fun q hq => hw q (by simp [hq]))
      (fun q hq => hsep q (by cases ps with
        | nil => simp at hq
        | cons a as => rw [List.dropLast_cons₂]; simp [hq]))
    cases sp with
    | nil =>
      cases ps with
      | nil => simp [splitWs, h1]
      | cons a as =>
        exact absurd rfl (hsep (w, []) (by rw [List.dropLast_cons₂]; simp))
    | cons c sp =>
      rw [List.cons_append, splitWs, if_pos (h3 c (by simp)), if_neg h1,
        splitWs_space ws sp _ (fun x hx => h3 x (by simp [hx])), ih', List.map_cons]

theorem readlines_line (cur l rest : PStr) (h : '\n' ∉ l) :
    readlines cur (l ++ '\n' :: rest) = (cur ++ l) :: readlines [] rest := by
  induction l generalizing cur with
  | nil => simp [readlines]
  | cons c l ih =>
    have hc : c ≠ '\n' := fun e => h (by simp [e])
    rw [List.cons_append, readlines, if_neg hc, ih _ (fun x => h (by simp [x]))]
    simp

/-- C37: a text made of lines ending in a newline is read as those lines. -/
theorem C37_lines (ls : List PStr) (h : ∀ l ∈ ls, '\n' ∉ l) :
    readlines [] (ls.flatMap fun l => l ++ ['\n']) = ls := by
  induction ls with
  | nil => rfl
  | cons l ls ih =>
    rw [List.flatMap_cons, List.append_assoc, List.singleton_append,
      readlines_line [] l _ (h l (by simp)), ih (fun x hx => h x (by simp [hx]))]
    simp

/-! ## C37: what a line does -/

instance (t : PStr) : Decidable (IsDataTag t) :=
  if h : t = "distance".toList then isFalse fun x => x.2.2 h
  else decidable_of_iff _ (dataCond_iff t h)

theorem parseWords_snoc (ls : List (List PStr)) (l : List PStr) :
    parseWords (ls ++ [l]) = step (parseWords ls) l := by
  unfold parseWords; rw [List.foldl_append]; rfl

/-- C37: a blank line and a line of one word change nothing. -/
theorem C37_short_line (a b : List (List PStr)) (l : List PStr) (h : l.length ≤ 1) :
    parseWords (a ++ l :: b) = parseWords (a ++ b) := by
  unfold parseWords
  rw [List.foldl_append, List.foldl_append, List.foldl_cons, step_short _ l h]

theorem step_data_get? (p : Parsed) (l : List PStr) (tag : PStr) (h : IsSettingTag tag) :
    (step p l).data.get? tag =
      if l.head? = some tag ∧ 2 ≤ l.length then some l.tail else p.data.get? tag := by
  rcases line_cases l with h1 | ⟨v, vs, rfl⟩ | ⟨t, v, vs, rfl, ht⟩ | ⟨t, v, vs, rfl, ht⟩
  · rw [step_short p l h1, if_neg (by omega)]
  · rw [step_distance, if_neg]
    rintro ⟨e, _⟩
    simp only [List.head?_cons, Option.some.injEq] at e
    exact h.1 e.symm
  · rw [step_data p t v vs ht, if_neg]
    rintro ⟨e, _⟩
    simp only [List.head?_cons, Option.some.injEq] at e
    subst e
    exact not_data_setting ht h
  · rw [step_setting p t v vs ht]
    dsimp only
    rw [Dict.get?_set]
    by_cases e : tag = t
    · subst e; simp
    · rw [if_neg e, if_neg]
      rintro ⟨e', _⟩
      simp only [List.head?_cons, Option.some.injEq] at e'
      exact e e'.symm

theorem foldl_data_get?_noLine (p : Parsed) (ls : List (List PStr)) (tag : PStr)
    (ht : IsSettingTag tag) (h : NoLine ls tag) :
    (ls.foldl step p).data.get? tag = p.data.get? tag := by
  induction ls generalizing p with
  | nil => rfl
  | cons l ls ih =>
    rw [List.foldl_cons, ih _ (fun x hx => h x (by simp [hx])), step_data_get? p l tag ht, if_neg]
    rintro ⟨e1, e2⟩
    match l, e1, e2 with
    | t :: v :: vs, e1, _ =>
      simp only [List.head?_cons, Option.some.injEq] at e1
      subst e1
      exact h _ (by simp) v vs rfl

/-- C37: the value of a setting is that of its last line. -/
theorem C37_last_wins (lines : List (List PStr)) (tag : PStr) (vals : List PStr)
    (ht : IsSettingTag tag) (h : LastLine lines tag vals) :
    (parseWords lines).data.get? tag = some vals := by
  obtain ⟨a, b, rfl, hne, hb⟩ := h
  unfold parseWords
  rw [List.foldl_append, List.foldl_cons, foldl_data_get?_noLine _ b tag ht hb,
    step_data_get? _ _ tag ht, if_pos]
  · rfl
  · refine ⟨rfl, ?_⟩
    have := List.length_pos_of_ne_nil hne
    simp; omega

/-- C37: a setting without a line is missing. -/
theorem C37_missing (lines : List (List PStr)) (tag : PStr) (ht : IsSettingTag tag)
    (h : NoLine lines tag) : (parseWords lines).data.get? tag = none := by
  unfold parseWords
  rw [foldl_data_get?_noLine _ lines tag ht h]; rfl

/-- Tags of data-set lines and of `distance` lines are never settings. -/
theorem C37_not_setting (lines : List (List PStr)) (tag : PStr) (ht : ¬ IsSettingTag tag) :
    (parseWords lines).data.get? tag = none := by
  induction lines using List.reverseRecOn with
  | nil => rfl
  | append_singleton ls l ih =>
    rw [parseWords_snoc]
    rcases line_cases l with h1 | ⟨v, vs, rfl⟩ | ⟨t, v, vs, rfl, h⟩ | ⟨t, v, vs, rfl, h⟩
    · rw [step_short _ l h1]; exact ih
    · rw [step_distance]; exact ih
    · rw [step_data _ t v vs h]; exact ih
    · rw [step_setting _ t v vs h]
      dsimp only
      rw [Dict.get?_set, if_neg]
      · exact ih
      · rintro rfl; exact ht h

/-- A data-set line: at least two words, the first marks a data set. -/
def isDataLine : List PStr → Bool
  | t :: _ :: _ => decide (IsDataTag t)
  | _ => false

/-- The words after `distance` on a `distance` line. -/
def distanceLine? : List PStr → Option (List PStr)
  | t :: v :: vs => if t = "distance".toList then some (v :: vs) else none
  | _ => none

theorem isDataLine_short (l : List PStr) (h : l.length ≤ 1) : isDataLine l = false := by
  match l with
  | [] => rfl
  | [_] => rfl
  | _ :: _ :: _ => simp at h

theorem distanceLine?_short (l : List PStr) (h : l.length ≤ 1) : distanceLine? l = none := by
  match l with
  | [] => rfl
  | [_] => rfl
  | _ :: _ :: _ => simp at h

/-- C37: every data-set line is kept, in the order of the file, and nothing else is. -/
theorem C37_data_lines (lines : List (List PStr)) :
    (parseWords lines).datasetStrings = lines.filter isDataLine := by
  induction lines using List.reverseRecOn with
  | nil => rfl
  | append_singleton ls l ih =>
    rw [parseWords_snoc, List.filter_append]
    rcases line_cases l with h1 | ⟨v, vs, rfl⟩ | ⟨t, v, vs, rfl, h⟩ | ⟨t, v, vs, rfl, h⟩
    · rw [step_short _ l h1, ih, List.filter_cons_of_neg (by rw [isDataLine_short l h1]; simp)]
      simp
    · rw [step_distance, List.filter_cons_of_neg]
      · simpa using ih
      · simp only [isDataLine, decide_eq_true_eq]; exact fun x => x.2.2 rfl
    · rw [step_data _ t v vs h, List.filter_cons_of_pos (by simpa [isDataLine] using h)]
      simp [ih]
    · rw [step_setting _ t v vs h, List.filter_cons_of_neg]
      · simpa using ih
      · simp only [isDataLine, decide_eq_true_eq]; exact h.2

/-- C37: every `distance` line is kept, in the order of the file. -/
theorem C37_distance_lines (lines : List (List PStr)) :
    (parseWords lines).distance = lines.filterMap distanceLine? := by
  induction lines using List.reverseRecOn with
  | nil => rfl
  | append_singleton ls l ih =>
    rw [parseWords_snoc, List.filterMap_append]
    rcases line_cases l with h1 | ⟨v, vs, rfl⟩ | ⟨t, v, vs, rfl, h⟩ | ⟨t, v, vs, rfl, h⟩
    · rw [step_short _ l h1, ih, List.filterMap_cons_none (distanceLine?_short l h1)]; simp
    · rw [step_distance, List.filterMap_cons_some (b := v :: vs) (by simp [distanceLine?])]
      simp [ih]
    · rw [step_data _ t v vs h, List.filterMap_cons_none]
      · simpa using ih
      · simp only [distanceLine?]; exact if_neg h.2.2
    · rw [step_setting _ t v vs h, List.filterMap_cons_none]
      · simpa using ih
      · simp only [distanceLine?]; exact if_neg h.1

/-- C37, partial: a comment, that is a line whose first word is not one of the tags read, changes
no other tag, no distance and no data set.  Missing: the first word must not contain `data`, see
`C37_comment_data`. -/
theorem C37_comment_partial (a b : List (List PStr)) (l : List PStr) (t : PStr)
    (hl : l.head? = some t) (ht : IsSettingTag t) :
    (∀ tag, tag ≠ t → (parseWords (a ++ l :: b)).data.get? tag =
      (parseWords (a ++ b)).data.get? tag) ∧
    (parseWords (a ++ l :: b)).distance = (parseWords (a ++ b)).distance ∧
    (parseWords (a ++ l :: b)).datasetStrings = (parseWords (a ++ b)).datasetStrings := by
  have hd : isDataLine l = false := by
    match l, hl with
    | [x], _ => rfl
    | x :: _ :: _, hl =>
      simp only [List.head?_cons, Option.some.injEq] at hl
      subst hl
      simpa [isDataLine] using ht.2
  have hdist : distanceLine? l = none := by
    match l, hl with
    | [x], _ => rfl
    | x :: _ :: _, hl =>
      simp only [List.head?_cons, Option.some.injEq] at hl
      subst hl
      simp only [distanceLine?]; exact if_neg ht.1
  refine ⟨?_, ?_, ?_⟩
  · intro tag htag
    by_cases hs : IsSettingTag tag
    · induction b using List.reverseRecOn with
      | nil =>
        rw [List.append_nil, parseWords_snoc, step_data_get? _ l tag hs, if_neg]
        rintro ⟨e, _⟩
        rw [hl] at e
        exact htag (Option.some.inj e).symm
      | append_singleton b x ih =>
        rw [← List.cons_append, ← List.append_assoc, ← List.append_assoc, parseWords_snoc,
          parseWords_snoc, step_data_get? _ x tag hs, step_data_get? _ x tag hs, ih]
    · rw [C37_not_setting _ tag hs, C37_not_setting _ tag hs]
  · rw [C37_distance_lines, C37_distance_lines, List.filterMap_append, List.filterMap_append,
      List.filterMap_cons_none hdist]
  · rw [C37_data_lines, C37_data_lines, List.filter_append, List.filter_append,
      List.filter_cons_of_neg (by rw [hd]; simp)]

/-- C37 fails for comments like `#data are here` or `#train_data old/*`: the line is kept as a
data-set line. -/
theorem C37_comment_data (a b : List (List PStr)) (v : PStr) (vs : List PStr) :
    (parseWords (a ++ ("#data".toList :: v :: vs) :: b)).datasetStrings ≠
      (parseWords (a ++ b)).datasetStrings := by
  rw [C37_data_lines, C37_data_lines, List.filter_append, List.filter_append,
    List.filter_cons_of_pos (by simp only [isDataLine]; decide +kernel)]
  intro h
  have := congrArg List.length h
  simp at this

example : IsSettingTag "#".toList ∧ IsSettingTag "cutoff".toList ∧
    IsSettingTag "dataset_type".toList ∧ IsDataTag "train_data".toList := by
  have d (t : PStr) (h1 : t ≠ "distance".toList) (h2 : ¬ IsDataTag t) : IsSettingTag t := ⟨h1, h2⟩
  refine ⟨d _ (by decide +kernel) (by decide +kernel), d _ (by decide +kernel) (by decide +kernel),
    d _ (by decide +kernel) (by decide +kernel), by decide +kernel⟩

/-- A small file. -/
example :
    let p := parse (fun c => c = ' ' || c = '\n') ("elements Sr Ti O\ncutoff 6.0\n\n# note x\n" ++
      "distance Ti Sr 2.5 3.5\ntrain_data a/* True 0.1\ncutoff 8.0\n").toList
    p.data.get? "cutoff".toList = some ["8.0".toList] ∧
    p.datasetStrings = [["train_data".toList, "a/*".toList, "True".toList, "0.1".toList]] := by
  decide +kernel

/-! ## C37: `get_params` -/

/-- C37: a setting given in the file is returned converted, cut to the requested size. -/
theorem C37_get_params {α δ : Type} (conv : PStr → Except Err α) (lines : List (List PStr))
    (tag : PStr) (size : ℕ) (dflt : δ) (req arr : Bool) (ht : IsSettingTag tag)
    (vals : List PStr) (h : LastLine lines tag vals) (xs : List α)
    (hconv : List.Forall₂ (fun v x => conv v = .ok x) (vals.take size) xs) :
    (arr = true ∨ size ≠ 1 →
      getParams conv (parseWords lines) tag size dflt req arr = .ok (.array xs)) ∧
    (arr = false → size = 1 → ∃ x, xs = [x] ∧
      getParams conv (parseWords lines) tag size dflt req arr = .ok (.scalar x)) := by
  have hm : (vals.take size).mapM conv = .ok xs := by
    clear h
    revert hconv
    generalize vals.take size = ys
    intro hconv
    induction hconv with
    | nil => rfl
    | cons h1 _ ih =>
      rw [List.mapM_cons, h1]
      simp only [bind, Except.bind, pure, Except.pure] at ih ⊢
      rw [ih]
  have hv := h
  obtain ⟨_, _, _, hne, _⟩ := hv
  unfold getParams
  rw [C37_last_wins lines tag vals ht h]
  dsimp only
  rw [hm]
  simp only [bind, Except.bind]
  constructor
  · intro hc
    unfold pack
    rw [if_neg]
    rintro ⟨h1, h2⟩
    rcases hc with hc | hc
    · rw [h2] at hc; simp at hc
    · exact hc h1
  · intro ha hs
    subst ha; subst hs
    match vals, hne with
    | v :: vs, _ =>
      simp only [List.take_succ_cons, List.take_zero] at hconv
      cases hconv with
      | cons _ h2 =>
        cases h2
        exact ⟨_, rfl, rfl⟩

/-- C37: a missing setting gives the default, or `KeyError` if it is required. -/
theorem C37_get_params_missing {α δ : Type} (conv : PStr → Except Err α)
    (lines : List (List PStr)) (tag : PStr) (size : ℕ) (dflt : δ) (req arr : Bool)
    (ht : IsSettingTag tag) (h : NoLine lines tag) :
    getParams conv (parseWords lines) tag size dflt req arr =
      if req then .error .keyError else .ok (.default dflt) := by
  unfold getParams
  rw [C37_missing lines tag ht h]

/-- C37: a value that cannot be converted raises the error of the conversion. -/
theorem C37_get_params_error {α δ : Type} (conv : PStr → Except Err α)
    (lines : List (List PStr)) (tag : PStr) (size : ℕ) (dflt : δ) (req arr : Bool)
    (ht : IsSettingTag tag) (vals : List PStr) (h : LastLine lines tag vals)
    (good : List PStr) (bad : PStr) (rest : List PStr) (e : Err)
    (hv : vals.take size = good ++ bad :: rest) (hg : ∀ v ∈ good, ∃ x, conv v = .ok x)
    (hb : conv bad = .error e) :
    getParams conv (parseWords lines) tag size dflt req arr = .error e := by
  unfold getParams
  rw [C37_last_wins lines tag vals ht h]
  dsimp only
  rw [hv]
  have : (good ++ bad :: rest).mapM conv = .error e := by
    clear hv
    induction good with
    | nil => rw [List.nil_append, List.mapM_cons, hb]; rfl
    | cons g gs ih =>
      obtain ⟨x, hx⟩ := hg g (by simp)
      rw [List.cons_append, List.mapM_cons, hx]
      simp only [bind, Except.bind] at ih ⊢
      rw [ih (fun v hv => hg v (by simp [hv]))]
  rw [this]; rfl

example : LastLine [["cutoff".toList, "6".toList], ["cutoff".toList, "8".toList], []]
    "cutoff".toList ["8".toList] :=
  ⟨[["cutoff".toList, "6".toList]], [[]], rfl, by simp, by simp⟩

/-! ## C37: distances -/

/-- `line` is about the pair `a`, `b`, in either order. -/
def About (a b : PStr) (line : List PStr) : Prop :=
  line.take 2 = [a, b] ∨ line.take 2 = [b, a]

instance (a b : PStr) (line : List PStr) : Decidable (About a b line) := by
  unfold About; infer_instance

theorem sortPair_eq_iff (elements : List PStr) (a b : PStr) (pair : List PStr)
    (hab : elements.idxOf a < elements.idxOf b ∨ a = b) :
    sortPair elements pair = [a, b] ↔ pair = [a, b] ∨ pair = [b, a] := by
  unfold sortPair
  split
  · rename_i x y
    simp only [List.cons.injEq, and_true]
    split
    · rename_i hlt
      simp only [List.cons.injEq, and_true]
      constructor
      · rintro ⟨rfl, rfl⟩; right; exact ⟨rfl, rfl⟩
      · rintro (⟨rfl, rfl⟩ | ⟨rfl, rfl⟩)
        · rcases hab with h | h
          · omega
          · exact ⟨h.symm, h⟩
        · exact ⟨rfl, rfl⟩
    · rename_i hlt
      simp only [List.cons.injEq, and_true]
      constructor
      · rintro ⟨rfl, rfl⟩; left; exact ⟨rfl, rfl⟩
      · rintro (⟨rfl, rfl⟩ | ⟨rfl, rfl⟩)
        · exact ⟨rfl, rfl⟩
        · rcases hab with h | h
          · omega
          · exact ⟨h.symm, h⟩
  · rename_i h
    constructor
    · rintro rfl; exact absurd rfl (h a b)
    · rintro (rfl | rfl)
      · rfl
      · exact absurd rfl (h b a)

theorem foldlM_snoc {σ ε : Type} {τ : Type} (f : σ → τ → Except ε σ) (xs : List τ) (x : τ) (s : σ) :
    (xs ++ [x]).foldlM f s = (xs.foldlM f s) >>= fun s' => f s' x := by
  rw [List.foldlM_append]
  congr 1
  funext s'
  rw [List.foldlM_cons]
  simp only [List.foldlM_nil]
  cases f s' x <;> rfl

/-- C37: the distances of a pair of elements are those of the last `distance` line about it, in
whichever order the two elements are written; a pair without line has no entry. -/
theorem C37_distance {α : Type} (conv : PStr → Except Err α) (lines : List (List PStr))
    (elements : List PStr) (he : LastLine lines "elements".toList elements)
    (d : Dict (List PStr) (List α)) (hd : distance conv (parseWords lines) = .ok d)
    (a b : PStr) (hab : elements.idxOf a < elements.idxOf b ∨ a = b) :
    let last := (lines.filterMap distanceLine?).reverse.find? fun l => About a b l
    (last = none → d.get? [a, b] = none) ∧
    ∀ l, last = some l → ∃ ds, (l.drop 2).mapM conv = .ok ds ∧ d.get? [a, b] = some ds := by
  have hset : IsSettingTag "elements".toList := by
    refine ⟨by decide +kernel, by decide +kernel⟩
  unfold distance at hd
  rw [show tagElements = "elements".toList from rfl, C37_last_wins lines _ elements hset he,
    C37_distance_lines] at hd
  change (List.foldlM (distanceStep conv elements) [] (lines.filterMap distanceLine?)) = .ok d at hd
  dsimp only
  generalize lines.filterMap distanceLine? = ls at hd ⊢
  induction ls using List.reverseRecOn generalizing d with
  | nil =>
    simp only [List.foldlM_nil, pure, Except.pure, Except.ok.injEq] at hd
    subst hd
    simp [Dict.get?]
  | append_singleton ls l ih =>
    rw [foldlM_snoc] at hd
    cases h : List.foldlM (distanceStep conv elements) [] ls with
    | error e => rw [h] at hd; simp [bind, Except.bind] at hd
    | ok d0 =>
      rw [h] at hd
      simp only [bind, Except.bind] at hd
      obtain ⟨ih1, ih2⟩ := ih d0 h
      unfold distanceStep at hd
      split at hd
      · cases hm : (l.drop 2).mapM conv with
        | error e => rw [hm] at hd; simp [bind, Except.bind] at hd
        | ok ds =>
          rw [hm] at hd
          simp only [bind, Except.bind, pure, Except.pure, Except.ok.injEq] at hd
          subst hd
          rw [Dict.get?_set, List.reverse_append, List.reverse_singleton, List.singleton_append]
          by_cases hA : About a b l
          · rw [if_pos (((sortPair_eq_iff elements a b _ hab).2 hA).symm),
              List.find?_cons_of_pos (by simpa using hA)]
            refine ⟨by simp, ?_⟩
            intro l' hl'
            simp only [Option.some.injEq] at hl'
            subst hl'
            exact ⟨ds, hm, rfl⟩
          · rw [if_neg (fun e => hA ((sortPair_eq_iff elements a b _ hab).1 e.symm)),
              List.find?_cons_of_neg (by simpa using hA)]
            exact ⟨ih1, ih2⟩
      · simp at hd

/-- C37: a distance between elements that are not in the potential raises `RuntimeError`. -/
theorem C37_distance_unknown {α : Type} (conv : PStr → Except Err α) (lines : List (List PStr))
    (elements : List PStr) (he : LastLine lines "elements".toList elements)
    (l : List PStr) (before after : List (List PStr))
    (hl : lines.filterMap distanceLine? = before ++ l :: after)
    (hbefore : ∀ l' ∈ before, (∀ e ∈ l'.take 2, e ∈ elements) ∧
      ∀ v ∈ l'.drop 2, ∃ x, conv v = .ok x)
    (hbad : ∃ e ∈ l.take 2, e ∉ elements) :
    distance conv (parseWords lines) = .error .runtimeError := by
  have hset : IsSettingTag "elements".toList := by
    refine ⟨by decide +kernel, by decide +kernel⟩
  unfold distance
  rw [show tagElements = "elements".toList from rfl, C37_last_wins lines _ elements hset he,
    C37_distance_lines, hl]
  change (List.foldlM (distanceStep conv elements) [] (before ++ l :: after)) = _
  clear hl
  generalize ([] : Dict (List PStr) (List α)) = d0
  induction before generalizing d0 with
  | nil =>
    rw [List.nil_append, List.foldlM_cons]
    have : distanceStep conv elements d0 l = .error .runtimeError := by
      unfold distanceStep
      rw [if_neg]
      obtain ⟨e, he1, he2⟩ := hbad
      intro h
      rw [List.all_eq_true] at h
      exact he2 (by simpa using h e he1)
    rw [this]; rfl
  | cons x xs ih =>
    obtain ⟨h1, h2⟩ := hbefore x (by simp)
    rw [List.cons_append, List.foldlM_cons]
    have : ∃ d1, distanceStep conv elements d0 x = .ok d1 := by
      unfold distanceStep
      rw [if_pos (by rw [List.all_eq_true]; intro e he; simpa using h1 e he)]
      have : ∃ ds, (x.drop 2).mapM conv = .ok ds := by
        generalize x.drop 2 = ys at h2
        induction ys with
        | nil => exact ⟨[], rfl⟩
        | cons y ys ihy =>
          obtain ⟨z, hz⟩ := h2 y (by simp)
          obtain ⟨zs, hzs⟩ := ihy (fun v hv => h2 v (by simp [hv]))
          refine ⟨z :: zs, ?_⟩
          rw [List.mapM_cons, hz]
          simp only [bind, Except.bind, pure, Except.pure]
          rw [hzs]
      obtain ⟨ds, hds⟩ := this
      rw [hds]
      exact ⟨_, rfl⟩
    obtain ⟨d1, hd1⟩ := this
    rw [hd1]
    exact ih (fun l' hl' => hbefore l' (by simp [hl'])) d1

/-- Both orders of a pair, the last line wins. -/
example :
    let lines := [["elements".toList, "Sr".toList, "Ti".toList],
      ["distance".toList, "Ti".toList, "Sr".toList, "2".toList],
      ["distance".toList, "Sr".toList, "Ti".toList, "3".toList, "4".toList],
      ["distance".toList, "Ti".toList, "Ti".toList, "5".toList]]
    distance (fun s => .ok s) (parseWords lines) =
      .ok [(["Sr".toList, "Ti".toList], ["3".toList, "4".toList]),
        (["Ti".toList, "Ti".toList], ["5".toList])] := by
  decide +kernel

end Verif.Infile
