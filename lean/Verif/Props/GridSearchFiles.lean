import Verif.Props.GridSearchHist
import Verif.Lemmas.Dict
import Verif.Props.Params
import Mathlib.Data.Rat.Encodable

/-!
# C83: saved models are read back
-/

namespace Verif.GridSearch
open Verif.Spec.GridSearch
open Verif.Infile (PStr Parsed Value splitWs readlines parse parseWords getParams strtobool)
open Verif.Spec.Infile (IsSettingTag)

/-! ## Text and words -/

theorem split_line (ws : Char → Bool) (hs : ws ' ' = true) (words : List PStr)
    (hw : ∀ w ∈ words, w ≠ [] ∧ ∀ c ∈ w, ws c = false) :
    splitWs ws [] (List.intercalate [' '] words) = words := by
  induction words with
  | nil => rfl
  | cons w words ih =>
    obtain ⟨h1, h2⟩ := hw w (by simp)
    have ih' := ih fun x hx => hw x (by simp [hx])
    cases words with
    | nil =>
      have e : List.intercalate [' '] [w] = w ++ [] := by simp [List.intercalate]
      rw [e, Infile.splitWs_word ws [] w _ h2]
      simp [splitWs, h1]
    | cons v vs =>
      have e : List.intercalate [' '] (w :: v :: vs) = w ++ (' ' :: List.intercalate [' '] (v :: vs)) := by
        simp [List.intercalate]
      rw [e, Infile.splitWs_word ws [] w _ h2, List.nil_append, splitWs, if_pos hs, if_neg h1, ih']

theorem no_newline (ws : Char → Bool) (hn : ws '\n' = true) (words : List PStr)
    (hw : ∀ w ∈ words, ∀ c ∈ w, ws c = false) : '\n' ∉ List.intercalate [' '] words := by
  induction words with
  | nil => simp [List.intercalate]
  | cons w words ih =>
    have ih' := ih fun x hx => hw x (by simp [hx])
    have h0 : '\n' ∉ w := fun h => by
      have := hw w (by simp) _ h
      rw [hn] at this
      cases this
    cases words with
    | nil => simpa [List.intercalate] using h0
    | cons v vs =>
      have e : List.intercalate [' '] (w :: v :: vs) = w ++ (' ' :: List.intercalate [' '] (v :: vs)) := by
        simp [List.intercalate]
      rw [e]
      simp only [List.mem_append, List.mem_cons, not_or]
      exact ⟨h0, by decide, ih'⟩

theorem parse_text (ws : Char → Bool) (hs : ws ' ' = true) (hn : ws '\n' = true) (ls : List (List PStr))
    (hw : ∀ l ∈ ls, ∀ w ∈ l, w ≠ [] ∧ ∀ c ∈ w, ws c = false) :
    parse ws (ls.flatMap line) = parseWords ls := by
  unfold parse
  have e : ls.flatMap line = (ls.map fun l => List.intercalate [' '] l).flatMap fun l => l ++ ['\n'] := by
    rw [List.flatMap_map]
    rfl
  rw [e, Infile.C37_lines, List.map_map]
  · congr 1
    conv_rhs => rw [← List.map_id ls]
    refine List.map_congr_left fun l hl => ?_
    exact split_line ws hs l (hw l hl)
  · intro l hl
    obtain ⟨l', hl', rfl⟩ := List.mem_map.1 hl
    exact no_newline ws hn l' fun w hw' => (hw l' hl' w hw').2

/-! ## Settings -/

/-- The lines of some settings. -/
def settingLines (kvs : List (String × List PStr)) : List (List PStr) := kvs.map fun kv => kv.1.toList :: kv.2

theorem get_setting (kvs : List (String × List PStr)) (hk : (kvs.map (·.1)).Nodup)
    (ht : ∀ k ∈ kvs.map (·.1), IsSettingTag k.toList) (tag : String) (vals : List PStr) (hv : vals ≠ [])
    (h : (tag, vals) ∈ kvs) : (parseWords (settingLines kvs)).data.get? tag.toList = some vals := by
  refine Infile.C37_last_wins _ _ _ (ht tag (List.mem_map.2 ⟨_, h, rfl⟩)) ?_
  obtain ⟨a, b, rfl⟩ := List.append_of_mem h
  refine ⟨settingLines a, settingLines b, by simp [settingLines], hv, ?_⟩
  intro l hl v vs e
  obtain ⟨⟨k, ws⟩, hkb, rfl⟩ := List.mem_map.1 hl
  simp only [List.cons.injEq, String.toList_inj] at e
  obtain ⟨rfl, _⟩ := e
  rw [List.map_append, List.map_cons, List.nodup_append] at hk
  have := List.nodup_cons.1 hk.2.1
  exact this.1 (List.mem_map.2 ⟨_, hkb, rfl⟩)

theorem get_missing (kvs : List (String × List PStr)) (tag : String) (ht : IsSettingTag tag.toList)
    (h : tag ∉ kvs.map (·.1)) : (parseWords (settingLines kvs)).data.get? tag.toList = none := by
  refine Infile.C37_missing _ _ ht ?_
  intro l hl v vs e
  obtain ⟨⟨k, ws⟩, hkb, rfl⟩ := List.mem_map.1 hl
  simp only [List.cons.injEq, String.toList_inj] at e
  exact h (List.mem_map.2 ⟨_, hkb, e.1⟩)

theorem scalar_found {α : Type} {conv : PStr → Except Err α} {p : Parsed} {tag : String} {w : PStr} {x dflt : α}
    (h : p.data.get? tag.toList = some [w]) (hc : conv w = .ok x) : scalarOr conv p tag dflt = .ok x := by
  unfold scalarOr getParams
  rw [h]
  simp [hc, bind, Except.bind, pure, Except.pure, Infile.pack, orErr, Except.map]

theorem scalar_missing {α : Type} {conv : PStr → Except Err α} {p : Parsed} {tag : String} {dflt : α}
    (h : p.data.get? tag.toList = none) : scalarOr conv p tag dflt = .ok dflt := by
  unfold scalarOr getParams
  rw [h]
  simp [Except.map]

theorem array_found {α : Type} {conv : PStr → Except Err α} {p : Parsed} {tag : String} {ws : List PStr}
    {xs dflt : List α} {size : ℕ} {req : Bool}
    (h : p.data.get? tag.toList = some ws) (hs : ws.length = size)
    (hc : List.Forall₂ (fun w x => conv w = .ok x) ws xs) : arrayOr conv p tag size dflt req = .ok xs := by
  unfold arrayOr getParams
  rw [h]
  have hm : ws.mapM conv = .ok xs := by
    clear h hs
    induction hc with
    | nil => rfl
    | cons h1 _ ih =>
      rw [List.mapM_cons, h1]
      simp only [bind, Except.bind] at ih ⊢
      rw [ih]
      rfl
  dsimp only
  rw [List.take_of_length_le hs.le, hm]
  simp [bind, Except.bind, Infile.pack, Except.map]

theorem array_missing {α : Type} {conv : PStr → Except Err α} {p : Parsed} {tag : String} {size : ℕ}
    {dflt : List α} (h : p.data.get? tag.toList = none) : arrayOr conv p tag size dflt false = .ok dflt := by
  unfold arrayOr getParams
  rw [h]
  simp [Except.map]

/-! ## Evenly spaced numbers -/

theorem linspace_spaced (x y : ℚ) (k : ℕ) : ∃ l, linspace x y k = .ok l ∧ Spaced l x y k := by
  unfold linspace
  rw [if_neg (by omega)]
  refine ⟨_, rfl, by simp, ?_⟩
  intro i v hv
  rw [List.getElem?_map] at hv
  obtain ⟨j, hj, rfl⟩ := Option.map_eq_some_iff.1 hv
  rw [List.getElem?_eq_some_iff] at hj
  obtain ⟨hi, hj⟩ := hj
  rw [List.getElem_range] at hj
  subst hj
  rw [List.length_range] at hi
  simp only [Int.toNat_natCast] at hi
  by_cases h1 : k = 1
  · subst h1
    have : i = 0 := by omega
    subst this
    simp
  · have h2 : (2 : ℚ) ≤ k := by
      have : 2 ≤ k := by omega
      exact_mod_cast this
    have h3 : ((k : ℚ) - 1) ≠ 0 := by linarith
    refine ⟨?_, fun h => absurd h h1⟩
    rw [if_neg (by exact_mod_cast h1)]
    push_cast
    field_simp
    ring

theorem auto_gaussians (n : ℤ) (c : ℚ) (hn : 3 ≤ n) :
    ∃ gs, Params.gaussianAuto n (some c) = .ok gs ∧ GaussiansFor gs c n := by
  obtain ⟨k, rfl⟩ : ∃ k : ℕ, n = k + 3 := ⟨(n - 3).toNat, by omega⟩
  unfold Params.gaussianAuto linspace
  simp only [orErr, bind, Except.bind]
  rw [if_neg (by omega)]
  have e2 : (k : ℤ) + 3 - 1 = ((k + 2 : ℕ) : ℤ) := by push_cast; ring
  rw [e2]
  have hne : ¬ (((k + 2 : ℕ) : ℤ) = 1) := by omega
  simp only [if_neg hne, Int.toNat_natCast]
  have hq : ((k : ℚ) + 1) ≠ 0 := by positivity
  generalize hg : List.map (fun x => x * (c - 1)) (List.map (fun (i : ℕ) =>
    (0 : ℚ) + (i : ℚ) * ((1 - 0) / ((((k + 2 : ℕ) : ℤ) : ℚ) - 1))) (List.range (k + 2))) = g
  have hget : ∀ (i : ℕ), i < k + 2 → g[i]? = some ((i : ℚ) / ((k : ℚ) + 1) * (c - 1)) := by
    intro i hi
    rw [← hg]
    simp only [List.getElem?_map, List.getElem?_range hi, Option.map_some, Option.some.injEq]
    push_cast
    have : (k : ℚ) + 2 - 1 = k + 1 := by ring
    rw [this]
    ring
  have hlen : g.length = k + 2 := by rw [← hg]; simp
  rw [hget 1 (by omega), hget 0 (by omega)]
  simp only [pure, Except.pure]
  refine ⟨_, rfl, g, ⟨?_, ?_⟩, ?_⟩
  · rw [hlen]; omega
  · intro i x hx
    have hi : i < k + 2 := by
      have := (List.getElem?_eq_some_iff.1 hx).1
      omega
    rw [hget i hi] at hx
    cases hx
    have et : ((k : ℤ) + 3 - 1).toNat = k + 2 := by omega
    rw [et]
    refine ⟨?_, fun h => by omega⟩
    push_cast
    field_simp
    ring
  · congr 1
    refine List.map_congr_left fun x _ => ?_
    rw [Prod.mk.injEq]
    refine ⟨?_, rfl⟩
    congr 1
    push_cast
    have : (k : ℚ) + 3 - 2 = k + 1 := by ring
    rw [this]
    field_simp
    ring

/-! ## Reading back -/

/-- The settings of a saved model. -/
def settings (t : Text) (p : Params) (inv : List (String × List PStr)) (a0 a1 a2 : ℚ) : List (String × List PStr) :=
  [("feature_type", [showFeature p.feature]), ("cutoff", [t.ofRat p.cutoff]), ("n_gaussians", [t.ofInt p.n]),
    ("model_type", [t.ofInt p.modelType]), ("max_p", [t.ofInt p.maxP])] ++ (inv ++
  [("include_force", [showBool p.includeForce]), ("include_stress", [showBool p.includeStress]),
    ("reg_alpha_params", [t.ofRat a0, t.ofRat a1, t.ofRat a2]), ("n_type", [t.ofInt p.elements.length]),
    ("elements", p.elements)])

/-- The settings of the invariants. -/
def invSettings (t : Text) (p : Params) : List (String × List PStr) :=
  match p.feature, p.gtinv with
  | .gtinv, some x => [("gtinv_order", [t.ofInt x.order]), ("gtinv_maxl", x.maxl.map fun (l : ℕ) => t.ofInt l)]
  | _, _ => []

theorem fileLines_ok (t : Text) (p : Params) (a0 a1 a2 : ℚ) (ha : p.alpha = [a0, a1, a2])
    (hf : p.feature = .gtinv → p.gtinv ≠ none) :
    ∃ ls, fileLines t p = .ok ls ∧ parseWords ls = parseWords (settingLines (settings t p (invSettings t p) a0 a1 a2)) ∧
      ∀ l ∈ ls, l = [] ∨ l ∈ settingLines (settings t p (invSettings t p) a0 a1 a2) := by
  have step : ∀ (A B C : List (List PStr)), parseWords (A ++ [] :: B ++ [] :: C) = parseWords (A ++ B ++ C) := by
    intro A B C
    rw [Infile.C37_short_line _ _ [] (by simp), List.append_assoc, List.cons_append,
      Infile.C37_short_line _ _ [] (by simp), List.append_assoc]
  unfold fileLines invSettings
  rw [ha]
  cases hfe : p.feature with
  | pair =>
    simp only [orErr, bind, Except.bind, pure, Except.pure, List.getElem?_cons_zero, List.getElem?_cons_succ]
    refine ⟨_, rfl, ?_, ?_⟩
    · have := step [["feature_type".toList, showFeature .pair], ["cutoff".toList, t.ofRat p.cutoff],
        ["n_gaussians".toList, t.ofInt p.n], ["model_type".toList, t.ofInt p.modelType],
        ["max_p".toList, t.ofInt p.maxP]] [["include_force".toList, showBool p.includeForce],
        ["include_stress".toList, showBool p.includeStress],
        ["reg_alpha_params".toList, t.ofRat a0, t.ofRat a1, t.ofRat a2]]
        [["n_type".toList, t.ofInt p.elements.length], "elements".toList :: p.elements]
      simpa [settings, settingLines, hfe] using this
    · intro l hl
      simp [settings, settingLines, hfe] at hl ⊢
      tauto
  | gtinv =>
    cases hg : p.gtinv with
    | none => exact absurd hg (hf hfe)
    | some x =>
      simp only [orErr, bind, Except.bind, pure, Except.pure, List.getElem?_cons_zero, List.getElem?_cons_succ,
        Except.map]
      refine ⟨_, rfl, ?_, ?_⟩
      · have := step ([["feature_type".toList, showFeature .gtinv], ["cutoff".toList, t.ofRat p.cutoff],
          ["n_gaussians".toList, t.ofInt p.n], ["model_type".toList, t.ofInt p.modelType],
          ["max_p".toList, t.ofInt p.maxP]] ++ gtinvLines t x) [["include_force".toList, showBool p.includeForce],
          ["include_stress".toList, showBool p.includeStress],
          ["reg_alpha_params".toList, t.ofRat a0, t.ofRat a1, t.ofRat a2]]
          [["n_type".toList, t.ofInt p.elements.length], "elements".toList :: p.elements]
        simpa [settings, settingLines, hfe, gtinvLines] using this
      · intro l hl
        simp [settings, settingLines, hfe, gtinvLines] at hl ⊢
        tauto

/-- The tags of a saved file. -/
def savedTags : List String :=
  ["feature_type", "cutoff", "n_gaussians", "model_type", "max_p", "gtinv_order", "gtinv_maxl", "include_force",
    "include_stress", "reg_alpha_params", "n_type", "elements"]

/-- The tags the reader asks for. -/
def readTags : List String :=
  savedTags ++ ["atomic_energy", "gaussian_params1", "gaussian_params2", "dataset_type"]

/-- The words of a saved file that are not numbers or elements. -/
def savedWords : List String := savedTags ++ ["True", "False", "pair", "gtinv"]

theorem tags_ok : ∀ k ∈ readTags, IsSettingTag k.toList := by
  show ∀ k ∈ readTags, k.toList ≠ "distance".toList ∧ ¬ Spec.Infile.IsDataTag k.toList
  decide +kernel

theorem words_ok (ws : Char → Bool) (hws : Spaces ws) :
    ∀ q ∈ savedWords, q.toList ≠ [] ∧ ∀ c ∈ q.toList, ws c = false := by
  have h : ∀ q ∈ savedWords, q.toList ≠ [] ∧ ∀ c ∈ q.toList, c.isAlphanum = true ∨ c = '_' := by decide +kernel
  exact fun q hq => ⟨(h q hq).1, fun c hc => hws.2.2 c ((h q hq).2 c hc)⟩

theorem settings_keys (t : Text) (p : Params) (a0 a1 a2 : ℚ) :
    ((settings t p (invSettings t p) a0 a1 a2).map (·.1)).Nodup ∧
      ∀ q ∈ (settings t p (invSettings t p) a0 a1 a2).map (·.1), q ∈ savedTags := by
  unfold settings invSettings
  cases p.feature with
  | pair => exact ⟨by simp, by simp [savedTags]⟩
  | gtinv =>
    cases p.gtinv with
    | none => exact ⟨by simp, by simp [savedTags]⟩
    | some x => exact ⟨by simp, by simp [savedTags]⟩

theorem inv_words (t : Text) (p : Params) : ∀ q vs, (q, vs) ∈ invSettings t p → ∀ w ∈ vs, ∃ z, w = t.ofInt z := by
  intro q vs h w hw
  unfold invSettings at h
  cases hfe : p.feature with
  | pair => rw [hfe] at h; simp at h
  | gtinv =>
    cases hg : p.gtinv with
    | none => rw [hfe, hg] at h; simp at h
    | some x =>
      rw [hfe, hg] at h
      simp only [List.mem_cons, Prod.mk.injEq, List.not_mem_nil, or_false] at h
      rcases h with ⟨_, rfl⟩ | ⟨_, rfl⟩
      · exact ⟨_, by simpa using hw⟩
      · obtain ⟨z, _, rfl⟩ := List.mem_map.1 hw
        exact ⟨_, rfl⟩

theorem settings_words (t : Text) (ws : Char → Bool) (p : Params) (a0 a1 a2 : ℚ) (ht : Faithful t ws)
    (hws : Spaces ws) (hew : ∀ e ∈ p.elements, e ≠ [] ∧ ∀ c ∈ e, ws c = false) :
    ∀ l ∈ settingLines (settings t p (invSettings t p) a0 a1 a2), ∀ w ∈ l, w ≠ [] ∧ ∀ c ∈ w, ws c = false := by
  have hshow := words_ok ws hws
  have hbool : ∀ b, showBool b ≠ [] ∧ ∀ c ∈ showBool b, ws c = false := by
    intro b
    cases b
    · exact hshow "False" (by decide)
    · exact hshow "True" (by decide)
  have hfw : showFeature p.feature ≠ [] ∧ ∀ c ∈ showFeature p.feature, ws c = false := by
    cases p.feature
    · exact hshow "pair" (by decide)
    · exact hshow "gtinv" (by decide)
  intro l hs w hw
  obtain ⟨⟨q, vs⟩, hq, rfl⟩ := List.mem_map.1 hs
  rcases List.mem_cons.1 hw with rfl | hw
  · exact hshow q (List.mem_append_left _ ((settings_keys t p a0 a1 a2).2 q (List.mem_map.2 ⟨_, hq, rfl⟩)))
  · unfold settings at hq
    simp only [List.mem_append, List.mem_cons, Prod.mk.injEq, List.not_mem_nil, or_false] at hq
    rcases hq with (⟨_, rfl⟩ | ⟨_, rfl⟩ | ⟨_, rfl⟩ | ⟨_, rfl⟩ | ⟨_, rfl⟩) | hq |
      (⟨_, rfl⟩ | ⟨_, rfl⟩ | ⟨_, rfl⟩ | ⟨_, rfl⟩ | ⟨_, rfl⟩)
    · rw [List.mem_singleton] at hw; rw [hw]; exact hfw
    · rw [List.mem_singleton] at hw; rw [hw]; exact ht.ratWord _
    · rw [List.mem_singleton] at hw; rw [hw]; exact ht.intWord _
    · rw [List.mem_singleton] at hw; rw [hw]; exact ht.intWord _
    · rw [List.mem_singleton] at hw; rw [hw]; exact ht.intWord _
    · obtain ⟨z, rfl⟩ := inv_words t p q vs hq w hw
      exact ht.intWord z
    · rw [List.mem_singleton] at hw; rw [hw]; exact hbool _
    · rw [List.mem_singleton] at hw; rw [hw]; exact hbool _
    · simp only [List.mem_cons, List.not_mem_nil, or_false] at hw
      rcases hw with rfl | rfl | rfl <;> exact ht.ratWord _
    · rw [List.mem_singleton] at hw; rw [hw]; exact ht.intWord _
    · exact hew w hw

theorem bool_read (b : Bool) : strtobool (showBool b) = .ok b := by
  cases b <;> decide +kernel

theorem rint_nat (k : ℕ) : rint (k : ℚ) = k := by
  have := rint_int (k : ℤ)
  simpa using this

/-- **C83**: a saved model is read back with the same parameters. -/
theorem C83_read_back (t : Text) (ws : Char → Bool) (p : Params) (ht : Faithful t ws) (hws : Spaces ws)
    (hp : Writable ws p) :
    ∃ text r, fileText t p = .ok text ∧ readParams t (parse ws text) = .ok r ∧ ReadAs r p := by
  obtain ⟨hel, hew, hn, ⟨a0, a1, k, ha⟩, hfeat⟩ := hp
  have hf0 : p.feature = .gtinv → p.gtinv ≠ none := by
    intro h
    rw [h] at hfeat
    obtain ⟨x, hx, _⟩ := hfeat
    rw [hx]
    simp
  obtain ⟨ls, hls, hparse, hmem⟩ := fileLines_ok t p a0 a1 k ha hf0
  have hkeys := settings_keys t p a0 a1 k
  have htags : ∀ q ∈ (settings t p (invSettings t p) a0 a1 k).map (·.1), IsSettingTag q.toList :=
    fun q hq => tags_ok q (List.mem_append_left _ (hkeys.2 q hq))
  have hwords : ∀ l ∈ ls, ∀ w ∈ l, w ≠ [] ∧ ∀ c ∈ w, ws c = false := by
    intro l hl w hw
    rcases hmem l hl with rfl | hs
    · simp at hw
    · exact settings_words t ws p a0 a1 k ht hws hew l hs w hw
  obtain ⟨alphas, hal1, hal2⟩ := linspace_spaced a0 a1 k
  obtain ⟨gs, hg1, hg2⟩ := auto_gaussians p.n p.cutoff hn
  have hget : ∀ tag vals, vals ≠ [] → (tag, vals) ∈ settings t p (invSettings t p) a0 a1 k →
      (parseWords ls).data.get? tag.toList = some vals := by
    intro tag vals h1 h2
    rw [hparse]
    exact get_setting _ hkeys.1 htags tag vals h1 h2
  have hnone : ∀ tag ∈ ["atomic_energy", "gaussian_params1", "gaussian_params2", "dataset_type"],
      (parseWords ls).data.get? tag.toList = none := by
    intro tag htag
    rw [hparse]
    refine get_missing _ tag (tags_ok tag (List.mem_append_right _ htag)) fun hc => ?_
    have h2 : ∀ x ∈ ["atomic_energy", "gaussian_params1", "gaussian_params2", "dataset_type"], x ∉ savedTags := by
      decide +kernel
    exact h2 tag htag (hkeys.2 tag hc)
  -- the invariants
  have hinv : ∃ (order : ℤ) (maxl : List ℤ) (r : ℤ × List ℤ × ℤ),
      scalarOr t.toInt (parseWords ls) "gtinv_order" 3 = .ok order ∧
      arrayOr t.toInt (parseWords ls) "gtinv_maxl" (order - 1).toNat (List.replicate (order - 1).toNat 2) false =
        .ok maxl ∧
      gtinvOf (showFeature p.feature) order (fillMaxl maxl (order - 1).toNat) = .ok r ∧
      match p.feature with
      | .pair => r = (0, [], 0)
      | .gtinv => r.2.2 = p.maxL ∧ ∀ x, p.gtinv = some x → r.1 = x.order ∧ r.2.1 = x.maxl.map fun (l : ℕ) => (l : ℤ) := by
    cases hfe : p.feature with
    | pair =>
      have hno : ∀ tag ∈ ["gtinv_order", "gtinv_maxl"], (parseWords ls).data.get? tag.toList = none := by
        intro tag htag
        rw [hparse]
        have h2 : ∀ x ∈ ["gtinv_order", "gtinv_maxl"], x ∈ readTags := by decide +kernel
        refine get_missing _ tag (tags_ok tag (h2 tag htag)) ?_
        unfold settings invSettings
        rw [hfe]
        simp only [List.mem_cons, List.not_mem_nil, or_false] at htag
        rcases htag with rfl | rfl <;> simp
      refine ⟨3, [2, 2], (0, [], 0), scalar_missing (hno _ (by simp)), array_missing (hno _ (by simp)), ?_, rfl⟩
      unfold gtinvOf
      exact if_pos rfl
    | gtinv =>
      rw [hfe] at hfeat
      obtain ⟨x, hx, hxl, hm1, hm2⟩ := hfeat
      have h1 := hget "gtinv_order" [t.ofInt x.order] (by simp) (by
        unfold settings invSettings
        rw [hfe, hx]
        simp)
      have hne : x.maxl ≠ [] := by
        rintro h0
        rw [h0] at hm1
        simp at hm1
      have h2 := hget "gtinv_maxl" (x.maxl.map fun (l : ℕ) => t.ofInt l) (by simpa using hne) (by
        unfold settings invSettings
        rw [hfe, hx]
        simp)
      have hsz : ((x.order : ℤ) - 1).toNat = x.maxl.length := by omega
      refine ⟨x.order, x.maxl.map fun (l : ℕ) => (l : ℤ), ⟨x.order, x.maxl.map fun (l : ℕ) => (l : ℤ), p.maxL⟩,
        scalar_found h1 (ht.int _), ?_, ?_, rfl, ?_⟩
      · refine array_found h2 (by rw [List.length_map, hsz]) ?_
        rw [List.forall₂_map_left_iff, List.forall₂_map_right_iff]
        exact List.forall₂_same.2 fun l _ => ht.int l
      · unfold fillMaxl
        rw [hsz, List.length_map, Nat.sub_self, List.replicate_zero, List.append_nil]
        unfold gtinvOf
        rw [if_neg (by decide)]
        have : (x.maxl.map fun (l : ℕ) => (l : ℤ)).max? = some (p.maxL : ℤ) := by
          rw [List.max?_eq_some_iff]
          refine ⟨List.mem_map.2 ⟨_, hm1, rfl⟩, fun b hb => ?_⟩
          obtain ⟨l, hl, rfl⟩ := List.mem_map.1 hb
          exact_mod_cast hm2 l hl
        rw [this]
        rfl
      · intro y hy
        rw [hx] at hy
        cases hy
        exact ⟨rfl, rfl⟩
  obtain ⟨order, maxl, r, hr1, hr2, hr3, hr4⟩ := hinv
  have c1 := scalar_found (conv := strtobool) (dflt := true) (hget "include_force" [showBool p.includeForce] (by simp)
    (by simp [settings])) (bool_read _)
  have c2 := scalar_found (conv := strtobool) (dflt := true) (hget "include_stress" [showBool p.includeStress]
    (by simp) (by simp [settings])) (bool_read _)
  have cf : forceTags (parseWords ls) = .ok (p.includeForce, p.includeForce && p.includeStress) := by
    unfold forceTags
    rw [c1]
    simp only [bind, Except.bind]
    cases p.includeForce with
    | true => simp [c2, pure, Except.pure]
    | false => simp [pure, Except.pure]
  have c3 := scalar_found (conv := t.toInt) (dflt := 1) (hget "n_type" [t.ofInt p.elements.length] (by simp)
    (by simp [settings])) (ht.int _)
  have c4 := array_found (conv := fun w => Except.ok w) (dflt := []) (req := true) (hget "elements" p.elements hel
    (by simp [settings])) rfl (List.forall₂_same.2 fun _ _ => rfl)
  have c5 : ∀ n, arrayOr t.toRat (parseWords ls) "atomic_energy" n (List.replicate n 0) false =
      .ok (List.replicate n 0) := fun n => array_missing (hnone _ (by simp))
  have c6 := array_found (conv := t.toRat) (dflt := [-3, 1, 5]) (req := false) (size := 3)
    (hget "reg_alpha_params" [t.ofRat a0, t.ofRat a1, t.ofRat k] (by simp) (by simp [settings])) rfl
    (.cons (ht.rat _) (.cons (ht.rat _) (.cons (ht.rat _) .nil)))
  have c7 := scalar_found (conv := t.toRat) (dflt := 6) (hget "cutoff" [t.ofRat p.cutoff] (by simp)
    (by simp [settings])) (ht.rat _)
  have c8 := scalar_found (conv := t.toInt) (dflt := 1) (hget "model_type" [t.ofInt p.modelType] (by simp)
    (by simp [settings])) (ht.int _)
  have c9 := scalar_found (conv := t.toInt) (dflt := 1) (hget "max_p" [t.ofInt p.maxP] (by simp)
    (by simp [settings])) (ht.int _)
  have c10 := scalar_found (conv := fun w => Except.ok w) (dflt := "gtinv".toList) (hget "feature_type"
    [showFeature p.feature] (by simp) (by simp [settings])) rfl
  have c11 : arrayOr t.toRat (parseWords ls) "gaussian_params1" 3 [1, 1, 1] false = .ok [1, 1, 1] :=
    array_missing (hnone _ (by simp))
  have c12 : arrayOr t.toRat (parseWords ls) "gaussian_params2" 3 [0, p.cutoff - 1, 7] false =
    .ok [0, p.cutoff - 1, 7] := array_missing (hnone _ (by simp))
  have c13 := scalar_found (conv := fun w => (t.toInt w).map some) (dflt := none) (x := some p.n)
    (hget "n_gaussians" [t.ofInt p.n] (by simp) (by simp [settings])) (by rw [ht.int]; rfl)
  have c14 : scalarOr (fun w => Except.ok w) (parseWords ls) "dataset_type" "vasp".toList = .ok "vasp".toList :=
    scalar_missing (hnone _ (by simp))
  refine ⟨ls.flatMap line, ⟨p.cutoff, p.modelType, p.maxP, r.2.2, showFeature p.feature, r.1, r.2.1, gs,
    p.elements.length, p.elements, alphas, p.includeForce, p.includeForce && p.includeStress,
    List.replicate p.elements.length 0, "vasp".toList⟩, ?_, ?_, ?_⟩
  · unfold fileText
    rw [hls]
    rfl
  · rw [parse_text ws hws.1 hws.2.1 ls hwords]
    unfold readParams
    simp only [cf, c3, bind, Except.bind, Int.toNat_natCast, c4, c5, c6, c7, c8, c9, c10, hr1, hr2, hr3, c11, c12, c13,
      c14, alphasOf, rint_nat, hal1, gaussiansOf, hg1]
    simp [pure, Except.pure]
  · refine ⟨rfl, rfl, rfl, hg2, rfl, rfl, rfl, rfl, ?_, ?_, rfl, ?_⟩
    · intro x y j hj
      rw [ha] at hj
      simp only [List.cons.injEq, and_true] at hj
      obtain ⟨rfl, rfl, e⟩ := hj
      have : k = j := by exact_mod_cast e
      subst this
      exact hal2
    · simp
    · revert hr4
      cases p.feature with
      | pair =>
        rintro h
        dsimp only at h ⊢
        rw [h]
        exact ⟨rfl, rfl, rfl, rfl⟩
      | gtinv =>
        rintro ⟨h1, h2⟩
        exact ⟨rfl, h1, h2⟩

/-! ## Files -/

theorem zeros_value (k : ℕ) (l : List Char) :
    Nat.ofDigitChars 10 (List.replicate k '0' ++ l) 0 = Nat.ofDigitChars 10 l 0 := by
  induction k with
  | zero => rfl
  | succ k ih => exact ih

theorem zfill_inj {w i j : ℕ} (h : zfill w i = zfill w j) : i = j := by
  unfold zfill at h
  have := congrArg (fun l => Nat.ofDigitChars 10 l 0) h
  dsimp only at this
  rwa [zeros_value, zeros_value, Nat.ofDigitChars_ten_toDigits, Nat.ofDigitChars_ten_toDigits] at this

theorem modelPath_inj {path : PStr} {i j : ℕ} (h : modelPath path i = modelPath path j) : i = j := by
  unfold modelPath at h
  exact zfill_inj (List.append_cancel_left (List.append_cancel_right h))

theorem setAll_get {f : Files} {ws : List (PStr × PStr)} (hn : (ws.map (·.1)).Nodup) {k v : PStr}
    (h : (k, v) ∈ ws) : (Dict.setAll f ws).get? k = some v := by
  rw [Dict.get?_setAll]
  have : ws.reverse.find? (fun p => p.1 = k) = some (k, v) := by
    cases hf : ws.reverse.find? (fun p => p.1 = k) with
    | none =>
      rw [List.find?_eq_none] at hf
      have := hf (k, v) (by simpa using h)
      simp at this
    | some q =>
      have h1 := List.mem_of_find?_eq_some hf
      have h2 := List.find?_some hf
      simp only [decide_eq_true_eq] at h2
      rw [List.mem_reverse] at h1
      obtain ⟨a, b⟩ := q
      dsimp only at h2
      subst h2
      have := List.inj_on_of_nodup_map hn h1 h rfl
      rw [this]
  rw [this]
  rfl

theorem setAll_other {f : Files} {ws : List (PStr × PStr)} {k : PStr} (h : ∀ w ∈ ws, w.1 ≠ k) :
    (Dict.setAll f ws).get? k = f.get? k := by
  rw [Dict.get?_setAll]
  have : ws.reverse.find? (fun p => p.1 = k) = none := by
    rw [List.find?_eq_none]
    intro q hq
    simpa using h q (by simpa using hq)
  rw [this]
  rfl

/-- **C83**: `save_models` writes each model of the list to a file of its own, which is read back with
the same parameters, and no other file. -/
theorem C83_saved (t : Text) (ws : Char → Bool) (path : PStr) (firstId : ℕ) (s : State) (l : List Params) (f : Files)
    (ht : Faithful t ws) (hws : Spaces ws) (hl : s.params = some l) (hp : ∀ p ∈ l, Writable ws p) :
    ∃ f', saveModels t path firstId s f = .ok f' ∧
      (∀ (i : ℕ) (p : Params), l[i]? = some p → ∃ text r, f'.get? (modelPath path (i + firstId)) = some text ∧
        readParams t (parse ws text) = .ok r ∧ ReadAs r p) ∧
      ∀ k, (∀ (i : ℕ), i < l.length → k ≠ modelPath path (i + firstId)) → f'.get? k = f.get? k := by
  unfold saveModels
  rw [hl]
  simp only [orErr, bind, Except.bind]
  obtain ⟨wsl, hm⟩ := mapM_exists (l := l.zipIdx)
    (f := fun p => (fileText t p.1).map fun x => (modelPath path (p.2 + firstId), x)) (by
      rintro ⟨p, i⟩ hpi
      have hpl : p ∈ l := by
        have := List.mem_zipIdx hpi
        rw [this.2.2]
        exact List.getElem_mem _
      obtain ⟨text, r, h1, _⟩ := C83_read_back t ws p ht hws (hp p hpl)
      exact ⟨_, by rw [h1]; rfl⟩)
  rw [hm]
  have hf := mapM_all hm
  have hlen : wsl.length = l.length := by rw [← hf.length_eq, List.length_zipIdx]
  have hget : ∀ (i : ℕ) (hi : i < l.length), ∃ text, fileText t l[i] = .ok text ∧
      wsl[i]? = some (modelPath path (i + firstId), text) := by
    intro i hi
    have h1 := hf.get (i := i) (by rw [List.length_zipIdx]; exact hi) (by omega)
    simp only [List.get_eq_getElem, List.getElem_zipIdx, Nat.zero_add] at h1
    cases hx : fileText t l[i] with
    | error e => rw [hx] at h1; simp [Except.map] at h1
    | ok text =>
      rw [hx] at h1
      simp only [Except.map, Except.ok.injEq] at h1
      exact ⟨text, rfl, by rw [List.getElem?_eq_getElem (by omega), h1]⟩
  have hnd : (wsl.map (·.1)).Nodup := by
    rw [List.nodup_iff_injective_get]
    intro i j hij
    have hi : i.1 < l.length := lt_of_lt_of_eq i.2 ((List.length_map _).trans hlen)
    have hj : j.1 < l.length := lt_of_lt_of_eq j.2 ((List.length_map _).trans hlen)
    obtain ⟨t1, _, e1⟩ := hget i.1 hi
    obtain ⟨t2, _, e2⟩ := hget j.1 hj
    obtain ⟨q1, e1⟩ := List.getElem?_eq_some_iff.1 e1
    obtain ⟨q2, e2⟩ := List.getElem?_eq_some_iff.1 e2
    simp only [List.get_eq_getElem, List.getElem_map, e1, e2] at hij
    have := modelPath_inj hij
    exact Fin.ext (by omega)
  refine ⟨_, rfl, ?_, ?_⟩
  · intro i p hi
    obtain ⟨hi', rfl⟩ := List.getElem?_eq_some_iff.1 hi
    obtain ⟨text, r, h1, h2, h3⟩ := C83_read_back t ws l[i] ht hws (hp _ (List.getElem_mem hi'))
    obtain ⟨text', h4, h5⟩ := hget i hi'
    rw [h1] at h4
    cases h4
    exact ⟨text, r, setAll_get hnd (List.mem_of_getElem? h5), h2, h3⟩
  · intro k hk
    refine setAll_other ?_
    intro w hw
    obtain ⟨i, hi, rfl⟩ := List.mem_iff_getElem.1 hw
    obtain ⟨text, _, h5⟩ := hget i (by omega)
    obtain ⟨_, h5⟩ := List.getElem?_eq_some_iff.1 h5
    rw [h5]
    exact (hk i (by omega)).symm

theorem hybridDir_inj {path : PStr} {i j a b : ℕ} (ha : a = 1 ∨ a = 2) (hb : b = 1 ∨ b = 2)
    (h : hybridDir path i a = hybridDir path j b) : i = j ∧ a = b := by
  unfold hybridDir at h
  have hlen : (zfill 2 a).length = (zfill 2 b).length := by
    rcases ha with rfl | rfl <;> rcases hb with rfl | rfl <;> decide
  obtain ⟨h1, h2⟩ := List.append_inj' h hlen
  exact ⟨zfill_inj (List.append_cancel_left (List.append_cancel_right h1)), zfill_inj h2⟩

theorem hybridFiles_ok {t : Text} {path : PStr} {firstId : ℕ} {h : Hybrid} {w : List (PStr × PStr)}
    (hw : hybridFiles t path firstId h = .ok w) : ∃ x1 x2, fileText t h.main = .ok x1 ∧ fileText t h.aux = .ok x2 ∧
      w = [(hybridDir path (h.idMain + firstId) h.idHyb ++ "/polymlp.in.1".toList, x1),
        (hybridDir path (h.idMain + firstId) h.idHyb ++ "/polymlp.in.2".toList, x2)] := by
  unfold hybridFiles at hw
  simp only [bind, Except.bind] at hw
  cases h1 : fileText t h.main with
  | error e => rw [h1] at hw; simp at hw
  | ok x1 =>
    cases h2 : fileText t h.aux with
    | error e => rw [h1, h2] at hw; simp at hw
    | ok x2 =>
      rw [h1, h2] at hw
      simp only [pure, Except.pure, Except.ok.injEq] at hw
      exact ⟨x1, x2, rfl, rfl, hw.symm⟩

/-- **C83**: `save_hybrid_models`, called after `enum_hybrid_models`, writes the two models of each hybrid
model to two files of a directory of its own, which are read back with the same parameters. -/
theorem C83_saved_hybrid (t : Text) (ws : Char → Bool) (path : PStr) (firstId : ℕ) (s0 s : State) (hs : List Hybrid)
    (f : Files) (ht : Faithful t ws) (hws : Spaces ws) (h0 : hybridModels s0 = .ok s) (hl : s.hybrid = some hs)
    (hp : ∀ h ∈ hs, Writable ws h.main ∧ Writable ws h.aux) :
    ∃ f', saveHybrid t path firstId s f = .ok f' ∧ ∀ h ∈ hs, ∃ x1 x2 r1 r2,
      f'.get? (hybridDir path (h.idMain + firstId) h.idHyb ++ "/polymlp.in.1".toList) = some x1 ∧
      f'.get? (hybridDir path (h.idMain + firstId) h.idHyb ++ "/polymlp.in.2".toList) = some x2 ∧
      readParams t (parse ws x1) = .ok r1 ∧ ReadAs r1 h.main ∧ readParams t (parse ws x2) = .ok r2 ∧ ReadAs r2 h.aux := by
  obtain ⟨l, hs', hl1, _, hl2, hlen, hent⟩ := C83_hybrid s0 s h0
  rw [hl] at hl2
  cases hl2
  -- identifiers of the entries
  have hid : ∀ (j : ℕ) (h : Hybrid), hs[j]? = some h → h.idMain = j / 2 ∧ h.idHyb = j % 2 + 1 := by
    intro j h hj
    have hjl : j < 2 * l.length := by
      have := (List.getElem?_eq_some_iff.1 hj).1
      omega
    obtain ⟨a1, a2, e1, e2, _⟩ := hent (j / 2) l[j / 2] (List.getElem?_eq_getElem (by omega))
    rcases Nat.mod_two_eq_zero_or_one j with hm | hm
    · rw [show 2 * (j / 2) = j by omega, hj] at e1
      cases e1
      exact ⟨rfl, by rw [hm]⟩
    · rw [show 2 * (j / 2) + 1 = j by omega, hj] at e2
      cases e2
      exact ⟨rfl, by rw [hm]⟩
  unfold saveHybrid
  rw [hl]
  simp only [orErr, bind, Except.bind]
  obtain ⟨wsl, hm⟩ := mapM_exists (l := hs) (f := hybridFiles t path firstId) (by
    intro h hh
    obtain ⟨x1, _, e1, _⟩ := C83_read_back t ws h.main ht hws (hp h hh).1
    obtain ⟨x2, _, e2, _⟩ := C83_read_back t ws h.aux ht hws (hp h hh).2
    unfold hybridFiles
    simp only [e1, e2, bind, Except.bind]
    exact ⟨_, rfl⟩)
  rw [hm]
  have hf := mapM_all hm
  have hone : "/polymlp.in.1".toList.length = "/polymlp.in.2".toList.length := by decide
  have hne : "/polymlp.in.1".toList ≠ "/polymlp.in.2".toList := by decide
  have hnd : (wsl.flatten.map (·.1)).Nodup := by
    rw [List.map_flatten, List.nodup_flatten]
    constructor
    · intro k hk
      obtain ⟨w, hw, rfl⟩ := List.mem_map.1 hk
      obtain ⟨i, hi, rfl⟩ := List.mem_iff_getElem.1 hw
      have h1 := hf.get (i := i) (by rw [hf.length_eq]; exact hi) hi
      simp only [List.get_eq_getElem] at h1
      obtain ⟨x1, x2, _, _, e⟩ := hybridFiles_ok h1
      rw [e]
      simp only [List.map_cons, List.map_nil, List.nodup_cons, List.mem_singleton, List.not_mem_nil,
        not_false_eq_true, List.nodup_nil, and_true]
      exact fun h => hne (List.append_cancel_left h)
    · rw [List.pairwise_map, List.pairwise_iff_getElem]
      intro i j hi hj hij
      have h1 := hf.get (i := i) (by rw [hf.length_eq]; exact hi) hi
      have h2 := hf.get (i := j) (by rw [hf.length_eq]; exact hj) hj
      simp only [List.get_eq_getElem] at h1 h2
      have hil : i < hs.length := by rw [hf.length_eq]; exact hi
      have hjl : j < hs.length := by rw [hf.length_eq]; exact hj
      obtain ⟨x1, x2, _, _, e⟩ := hybridFiles_ok h1
      obtain ⟨y1, y2, _, _, e'⟩ := hybridFiles_ok h2
      have d1 := hid i _ (List.getElem?_eq_getElem hil)
      have d2 := hid j _ (List.getElem?_eq_getElem hjl)
      rw [e, e', d1.1, d1.2, d2.1, d2.2, List.disjoint_left]
      intro k hk hk'
      simp only [List.map_cons, List.map_nil, List.mem_cons, List.not_mem_nil, or_false] at hk hk'
      have key : hybridDir path (i / 2 + firstId) (i % 2 + 1) = hybridDir path (j / 2 + firstId) (j % 2 + 1) := by
        rcases hk with rfl | rfl <;> rcases hk' with hk' | hk'
        · exact (List.append_inj' hk' rfl).1
        · exact (List.append_inj' hk' hone).1
        · exact (List.append_inj' hk' hone.symm).1
        · exact (List.append_inj' hk' rfl).1
      have := hybridDir_inj (by omega) (by omega) key
      omega
  refine ⟨_, rfl, fun h hh => ?_⟩
  obtain ⟨i, hi, rfl⟩ := List.mem_iff_getElem.1 hh
  have hi' : i < wsl.length := by rw [← hf.length_eq]; exact hi
  have h1 := hf.get (i := i) hi hi'
  simp only [List.get_eq_getElem] at h1
  obtain ⟨x1, x2, e1, e2, e⟩ := hybridFiles_ok h1
  obtain ⟨y1, r1, q1, q2, q3⟩ := C83_read_back t ws hs[i].main ht hws (hp _ hh).1
  obtain ⟨y2, r2, p1, p2, p3⟩ := C83_read_back t ws hs[i].aux ht hws (hp _ hh).2
  rw [e1] at q1
  cases q1
  rw [e2] at p1
  cases p1
  have hmem : ∀ k ∈ wsl[i], k ∈ wsl.flatten := fun k hk => List.mem_flatten.2 ⟨_, List.getElem_mem hi', hk⟩
  exact ⟨x1, x2, r1, r2, setAll_get hnd (hmem _ (by rw [e]; simp)), setAll_get hnd (hmem _ (by rw [e]; simp)),
    q2, q3, p2, p3⟩

/-! ## A way to write numbers -/

/-- Numbers written as rows of a digit. -/
def tally : Text where
  ofInt k := List.replicate (Encodable.encode k + 1) '1'
  ofRat q := List.replicate (Encodable.encode q + 1) '1'
  toInt w := orErr .valueError (Encodable.decode (w.length - 1))
  toRat w := orErr .valueError (Encodable.decode (w.length - 1))

theorem tally_faithful : Faithful tally Char.isWhitespace where
  int k := by simp [tally, Encodable.encodek, orErr]
  rat q := by simp [tally, Encodable.encodek, orErr]
  intWord k := ⟨by simp [tally], fun c hc => by
    have := List.eq_of_mem_replicate hc
    rw [this]; decide⟩
  ratWord q := ⟨by simp [tally], fun c hc => by
    have := List.eq_of_mem_replicate hc
    rw [this]; decide⟩

theorem isWhitespace_spaces : Spaces Char.isWhitespace := by
  refine ⟨by decide, by decide, fun c hc => ?_⟩
  by_contra h
  have h' : c.isWhitespace = true := by simpa using h
  have : c = ' ' ∨ c = '\t' ∨ c = '\r' ∨ c = '\n' := by
    simpa [Char.isWhitespace, or_assoc] using h'
  rcases this with rfl | rfl | rfl | rfl <;> revert hc <;> decide

example : ∃ s l, s = calls (fun _ => none) [.setParams cubic, .run] { elements := ["Ti".toList] } ∧
    s.params = some l ∧ l.length = 2 ∧ ∀ p ∈ l, Writable Char.isWhitespace p := by
  refine ⟨_, _, rfl, rfl, rfl, ?_⟩
  intro p hp
  have hq : p.elements = ["Ti".toList] ∧ p.n = 7 ∧ p.alpha = [-4, 1, 6] ∧
      (p.feature = .pair ∨ (p.feature = .gtinv ∧ p.gtinv = some ⟨4, 2, [4]⟩ ∧ p.maxL = 4)) := by
    revert p
    decide +kernel
  obtain ⟨h1, h2, h3, h4⟩ := hq
  refine ⟨by rw [h1]; simp, ?_, by rw [h2]; decide, ⟨-4, 1, 6, by rw [h3]; norm_num⟩, ?_⟩
  · rw [h1]
    decide
  · rcases h4 with h4 | ⟨h4, h5, h6⟩
    · rw [h4]; trivial
    · rw [h4]
      exact ⟨_, h5, rfl, by rw [h6]; decide, by rw [h6]; decide⟩

/-! ## What is wrong -/

/-- **C83** violated: a model with stresses and without forces is read back without stresses. -/
theorem C83_stress_violation (t : Text) (ws : Char → Bool) (ht : Faithful t ws) (hws : Spaces ws) (p : Params)
    (hp : Writable ws p) (h1 : p.includeForce = false) (h2 : p.includeStress = true) :
    ∃ text r, fileText t p = .ok text ∧ readParams t (parse ws text) = .ok r ∧ r.includeStress ≠ p.includeStress := by
  obtain ⟨text, r, e1, e2, hr⟩ := C83_read_back t ws p ht hws hp
  obtain ⟨_, _, _, _, _, _, _, h, _⟩ := hr
  exact ⟨text, r, e1, e2, by rw [h, h1, h2]; decide⟩

/-- **C83** violated: after fewer models are listed, files of an earlier list stay in the directory and look
like models of the new list. -/
theorem C83_leftover_violation (t : Text) (ws : Char → Bool) (ht : Faithful t ws) (hws : Spaces ws) (path : PStr)
    (s1 s2 : State) (p q : Params) (h1 : s1.params = some [p, q]) (h2 : s2.params = some [p]) (hp : Writable ws p)
    (hq : Writable ws q) (f : Files) :
    ∃ f1 f2, saveModels t path 1 s1 f = .ok f1 ∧ saveModels t path 1 s2 f1 = .ok f2 ∧
      ∃ text r, f2.get? (modelPath path 2) = some text ∧ readParams t (parse ws text) = .ok r ∧ ReadAs r q := by
  obtain ⟨f1, e1, a1, _⟩ := C83_saved t ws path 1 s1 [p, q] f ht hws h1 (by simp [hp, hq])
  obtain ⟨f2, e2, _, b2⟩ := C83_saved t ws path 1 s2 [p] f1 ht hws h2 (by simp [hp])
  obtain ⟨text, r, h3, h4, h5⟩ := a1 1 q rfl
  refine ⟨f1, f2, e1, e2, text, r, ?_, h4, h5⟩
  rw [b2 _ (fun i hi h => ?_)]
  · exact h3
  · have := modelPath_inj h
    simp at hi
    omega

/-- **C83** violated: saving before anything is listed fails with an error that does not say so. -/
theorem C83_save_first_violation (t : Text) (path : PStr) (k : ℕ) (el : List PStr) (f : Files) :
    saveModels t path k { elements := el } f = .error .typeError ∧
    saveHybrid t path k { elements := el } f = .error .typeError := ⟨rfl, rfl⟩

end Verif.GridSearch
