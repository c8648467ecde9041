import Verif.Lemmas.MlpLegacy
import Verif.Props.MlpYamlCxx

/-!
# C36: old potential files

Spec: `Verif/Spec/Legacy.lean`.
-/

namespace Verif.MlpLegacy
open Verif.MlpYaml Verif.Params Verif.Spec.Legacy

/-- All parameters for all pairs of types. -/
def allPairs (f : File) : Dict (ℕ × ℕ) (List ℕ) :=
  (combos f.elements.length).map fun k => (k, List.range f.pairParams.length)

/-- `combos n` are the pairs `(i, j)` with `i ≤ j < n`, each once. -/
theorem mem_combos (n i j : ℕ) : (i, j) ∈ combos n ↔ i ≤ j ∧ j < n := by
  unfold combos
  simp only [List.mem_flatMap, List.mem_range, List.mem_map, List.mem_filter, decide_eq_true_eq,
    Prod.mk.injEq]
  constructor
  · rintro ⟨a, ha, b, ⟨hb, hab⟩, rfl, rfl⟩
    exact ⟨hab, hb⟩
  · rintro ⟨h1, h2⟩
    exact ⟨i, by omega, j, ⟨h2, h1⟩, rfl, rfl⟩

theorem nodup_combos (n : ℕ) : (combos n).Nodup := by
  unfold combos
  rw [List.nodup_flatMap]
  refine ⟨fun i _ => ?_, ?_⟩
  · exact ((List.nodup_range).filter _).map fun a b h => by simpa using h
  · refine List.Pairwise.imp ?_ (List.nodup_range (n := n))
    intro a b hab
    rw [Function.onFun, List.disjoint_left]
    rintro ⟨x, y⟩ h1 h2
    simp only [List.mem_map, Prod.mk.injEq] at h1 h2
    obtain ⟨_, _, rfl, _⟩ := h1
    obtain ⟨_, _, h, _⟩ := h2
    exact hab h.symm

theorem allPairs_keys (f : File) : (allPairs f).keys.Nodup := by
  unfold allPairs Dict.keys
  rw [List.map_map]
  have : ((fun x : (ℕ × ℕ) × List ℕ => x.1) ∘ fun k => (k, List.range f.pairParams.length)) = id := rfl
  rw [this, List.map_id]
  exact nodup_combos _

theorem pairDefault_nil (f : File) :
    pairDefault f.elements.length f.pairParams.length [] = allPairs f := by
  exact setAll_self (allPairs f) [] (by simpa using allPairs_keys f)

theorem has_comment {pat : String} {vs : List Txt} {c : Txt} (h : pat.toList <:+: c) :
    has pat (line vs c) = true := by
  unfold has line
  refine @decide_eq_true _ (List.instDecidableIsInfixOfDecidableEq _ _) ?_
  exact h.trans ((List.suffix_append (blanks vs ++ [' ', '#', ' ']) c).isInfix.trans (by simp))

/-- The parameters that a file describes: absent sections take their defaults. -/
def fieldsOf (f : File) : Fields :=
  ⟨⟨f.elements.length, f.elements, none, none, f.pairs.getD (allPairs f)⟩,
    ⟨f.cutoff, f.pairType, f.featureType, f.modelType, f.maxP,
      if f.featureType = "gtinv" then f.maxL else 0,
      if f.featureType = "gtinv" then ⟨f.order, f.orderMaxL, f.version.getD 1⟩ else ⟨0, [], 1⟩,
      f.pairParams⟩,
    some ((f.types.map (·.1)).getD true),
    (f.types.map (·.2)).getD (List.range f.elements.length)⟩

/-- The conditions on the lines of the optional sections: they carry their marker, and they are not
taken for another section. -/
structure Marked (com : String → Txt) (f : File) : Prop where
  version : "gtinv_version".toList <:+: com "gtinv_version"
  pairs : "n_type_pairs".toList <:+: com "n_type_pairs"
  types : "type_full".toList <:+: com "type_full"
  /-- No version line for features other than invariants. -/
  noVersion : f.featureType ≠ "gtinv" → f.version = none
  notVersion : ∀ ps, f.pairs = some ps →
    has "gtinv_version" (line [num ps.length] (com "n_type_pairs")) = false
  /-- The section of types comes after a section of pairs. -/
  order : f.types.isSome → f.pairs.isSome

theorem readVersion_lines (com : String → Txt) (f : File) (hm : Marked com f) :
    readVersion f.featureType (versionLines com f ++ (pairSection com f ++ typeSection com f)) =
      (f.version.getD 1, pairSection com f ++ typeSection com f) := by
  unfold readVersion
  by_cases hg : f.featureType = "gtinv"
  · rw [if_pos hg]
    unfold versionLines
    cases hv : f.version with
    | some v =>
      simp only [List.cons_append, List.nil_append, has_comment hm.version, if_true, readOne_num,
        Option.getD_some]
    | none =>
      simp only [List.nil_append, Option.getD_none]
      unfold pairSection
      cases hp : f.pairs with
      | some ps =>
        simp only [List.cons_append, hm.notVersion ps hp]
        rfl
      | none =>
        have ht : f.types = none := by
          cases ht : f.types with
          | none => rfl
          | some t =>
            have := hm.order (by rw [ht]; rfl)
            rw [hp] at this
            cases this
        unfold typeSection
        rw [ht]
        rfl
  · rw [if_neg hg]
    unfold versionLines
    rw [hm.noVersion hg]
    rfl

theorem readPairs_lines (com : String → Txt) (f : File) (hm : Marked com f)
    (hk : ∀ ps, f.pairs = some ps → (Dict.keys ps).Nodup) :
    readPairs f.elements.length f.pairParams.length (pairSection com f ++ typeSection com f) =
      (some f.pairs.isSome, f.pairs.getD (allPairs f), typeSection com f) := by
  unfold pairSection
  cases hp : f.pairs with
  | some ps =>
    simp only [List.cons_append, readPairs, has_comment hm.pairs, if_true, readOne_num, pairLoop_lines,
      Option.getD_some, Option.isSome_some]
    rw [setAll_self _ _ (by simpa using hk ps hp)]
    rfl
  | none =>
    have ht : f.types = none := by
      cases ht : f.types with
      | none => rfl
      | some t =>
        have := hm.order (by rw [ht]; rfl)
        rw [hp] at this
        cases this
    unfold typeSection
    rw [ht]
    simp only [List.append_nil, readPairs, pairDefault_nil]
    rfl

theorem readTypes_lines (com : String → Txt) (f : File) (hm : Marked com f) :
    readTypes f.elements.length (typeSection com f) =
      some ((f.types.map (·.1)).getD true, (f.types.map (·.2)).getD (List.range f.elements.length)) := by
  unfold typeSection
  cases ht : f.types with
  | some t =>
    simp only [readTypes, has_comment hm.types, if_true,
      readOne_line strtobool _ _ _ (token_flag t.1) (strtobool_flag t.1), readMany_num]
    rfl
  | none => rfl

/-- **C36.** A well-formed old file loads, with or without each optional section, and gives what it
describes: absent sections mean version 1, all parameters for all pairs of types, and all types. -/
theorem C36_load_partial (showF : ℚ → Txt) (com : String → Txt) (f : File)
    (hF : ∀ x, x = f.cutoff ∨ x ∈ f.coeffs ∨ x ∈ f.scales ∨ x ∈ f.mass ∨
      (∃ p ∈ f.pairParams, x ∈ p) → Token (showF x) ∧ stod (showF x) = .ok x)
    (hel : ∀ e ∈ f.elements, Token e.toList) (hpt : Token f.pairType.toList)
    (hft : Token f.featureType.toList) (hm : Marked com f)
    (hk : ∀ ps, f.pairs = some ps → (Dict.keys ps).Nodup)
    (hg : f.featureType = "gtinv" → f.order ≤ f.orderMaxL.length + 1)
    (hl : f.coeffs.length = f.scales.length) :
    loadLegacy (Spec.Legacy.lines showF com f) =
      .ok ⟨⟨fieldsOf f, fieldsOf f⟩, f.pairs.isSome, f.mass,
        List.zipWith (· / ·) f.coeffs f.scales⟩ := by
  have hg' : ¬ ((if f.featureType = "gtinv" then (f.order, f.orderMaxL, f.maxL)
      else (0, [], 0)).2.1.length + 1 < (if f.featureType = "gtinv" then (f.order, f.orderMaxL, f.maxL)
      else (0, [], 0)).1) := by
    split
    · rename_i h
      have := hg h
      dsimp only
      omega
    · simp
  have hobj : mkObj (fieldsOf f) = .ok ⟨fieldsOf f, fieldsOf f⟩ := by
    unfold mkObj
    rw [if_neg]
    · have hs : mkSingle (fieldsOf f).single = .ok (fieldsOf f).single := by
        apply C19_no_spins
        · simp [checkErrors, fieldsOf]
        · intro t h
          simp [fieldsOf] at h
      rw [hs]
      rfl
    · simp only [fieldsOf]
      split
      · rename_i h
        have := hg h
        dsimp only
        omega
      · simp
  have hfield : (⟨⟨f.elements.length, f.elements, none, none, f.pairs.getD (allPairs f)⟩,
      ⟨f.cutoff, f.pairType, f.featureType, f.modelType, f.maxP,
        (if f.featureType = "gtinv" then (f.order, f.orderMaxL, f.maxL) else (0, [], 0)).2.2,
        ⟨(if f.featureType = "gtinv" then (f.order, f.orderMaxL, f.maxL) else (0, [], 0)).1,
          (if f.featureType = "gtinv" then (f.order, f.orderMaxL, f.maxL) else (0, [], 0)).2.1,
          f.version.getD 1⟩, f.pairParams⟩,
      some ((f.types.map (·.1)).getD true),
      (f.types.map (·.2)).getD (List.range f.elements.length)⟩ : Fields) = fieldsOf f := by
    unfold fieldsOf
    by_cases h : f.featureType = "gtinv"
    · simp only [if_pos h]
    · simp only [if_neg h, hm.noVersion h, Option.getD_none]
  unfold loadLegacy Spec.Legacy.lines
  simp only [bind, Except.bind, readHead_lines showF com f _ hF hel hpt hft, readVersion_lines com f hm,
    readPairs_lines com f hm hk, readTypes_lines com f hm, if_neg hg', orErr, hfield, hobj, pure,
    Except.pure]
  rw [if_neg (by simpa using hl)]

/-- Any line after the required ones that is not the expected section, for instance an empty line at
the end of the file, makes the load fail with a name that was never assigned. -/
theorem C36_other_line (showF : ℚ → Txt) (com : String → Txt) (f : File) (l : Txt) (rest : List Txt)
    (hF : ∀ x, x = f.cutoff ∨ x ∈ f.coeffs ∨ x ∈ f.scales ∨ x ∈ f.mass ∨
      (∃ p ∈ f.pairParams, x ∈ p) → Token (showF x) ∧ stod (showF x) = .ok x)
    (hel : ∀ e ∈ f.elements, Token e.toList) (hpt : Token f.pairType.toList)
    (hft : Token f.featureType.toList)
    (hg : f.featureType = "gtinv" → f.order ≤ f.orderMaxL.length + 1)
    (h1 : has "gtinv_version" l = false) (h2 : has "n_type_pairs" l = false) :
    loadLegacy (head showF com f ++ l :: rest) = .error .nameError := by
  have hg' : ¬ ((if f.featureType = "gtinv" then (f.order, f.orderMaxL, f.maxL)
      else (0, [], 0)).2.1.length + 1 < (if f.featureType = "gtinv" then (f.order, f.orderMaxL, f.maxL)
      else (0, [], 0)).1) := by
    split
    · rename_i h
      have := hg h
      dsimp only
      omega
    · simp
  have hv : readVersion f.featureType (l :: rest) = (1, l :: rest) := by
    unfold readVersion
    split
    · simp only [h1]
      rfl
    · rfl
  have hp : readPairs f.elements.length f.pairParams.length (l :: rest) = (none, [], l :: rest) := by
    simp only [readPairs, h2]
    rfl
  unfold loadLegacy
  simp only [bind, Except.bind, readHead_lines showF com f _ hF hel hpt hft, hv, hp, if_neg hg', orErr]

/-- The same for a line between the section of pairs and the end of the file. -/
theorem C36_other_line_after_pairs (showF : ℚ → Txt) (com : String → Txt) (f : File) (l : Txt)
    (rest : List Txt) (ps : List ((ℕ × ℕ) × List ℕ)) (hps : f.pairs = some ps)
    (hF : ∀ x, x = f.cutoff ∨ x ∈ f.coeffs ∨ x ∈ f.scales ∨ x ∈ f.mass ∨
      (∃ p ∈ f.pairParams, x ∈ p) → Token (showF x) ∧ stod (showF x) = .ok x)
    (hel : ∀ e ∈ f.elements, Token e.toList) (hpt : Token f.pairType.toList)
    (hft : Token f.featureType.toList) (hm : Marked com f) (hpair : f.featureType ≠ "gtinv")
    (h1 : has "type_full" l = false) :
    loadLegacy (head showF com f ++ (pairSection com f ++ l :: rest)) = .error .nameError := by
  have hv : readVersion f.featureType (pairSection com f ++ l :: rest) =
      (1, pairSection com f ++ l :: rest) := by
    unfold readVersion
    rw [if_neg hpair]
  have hp : readPairs f.elements.length f.pairParams.length (pairSection com f ++ l :: rest) =
      (some true, Dict.setAll [] ps, l :: rest) := by
    unfold pairSection
    rw [hps]
    simp only [List.cons_append, readPairs, has_comment hm.pairs, if_true, readOne_num, pairLoop_lines]
  have ht : readTypes f.elements.length (l :: rest) = none := by
    simp only [readTypes, h1]
    rfl
  unfold loadLegacy
  simp only [bind, Except.bind, readHead_lines showF com f _ hF hel hpt hft, hv, hp, ht, if_neg hpair,
    orErr]
  rfl

/-- **C36, conversion.** Converting an old file gives a document that loads to the model of the old
file. -/
theorem C36_convert_partial (showF : ℚ → Txt) (com : String → Txt) (f : File)
    (hF : ∀ x, x = f.cutoff ∨ x ∈ f.coeffs ∨ x ∈ f.scales ∨ x ∈ f.mass ∨
      (∃ p ∈ f.pairParams, x ∈ p) → Token (showF x) ∧ stod (showF x) = .ok x)
    (hY : ∀ x, x = f.cutoff ∨ (∃ p ∈ f.pairParams, x ∈ p) → asNum (resolve (showF x)) = .ok x)
    (hel : ∀ e ∈ f.elements, Token e.toList) (hpt : Token f.pairType.toList)
    (hft : Token f.featureType.toList) (hm : Marked com f)
    (hk : ∀ ps, f.pairs = some ps → (Dict.keys ps).Nodup ∧ ps ≠ [])
    (hg : f.featureType = "gtinv" → f.order ≤ f.orderMaxL.length + 1)
    (hl : f.coeffs.length = f.scales.length) (hne : f.elements ≠ [])
    (hno : "No" ∉ f.elements) (hpt' : resolve f.pairType.toList = .str f.pairType)
    (hft' : resolve f.featureType.toList = .str f.featureType)
    (hcom : "ele".toList <+: com "elements")
    (hmass : ∀ e ∈ f.elements, ∃ t, massOf e = .ok t) :
    ∃ d o cs, convert showF (Spec.Legacy.lines showF com f) = .ok (some d) ∧ load d = .ok (o, cs) ∧
      o.cur.single.nType = f.elements.length ∧
      o.cur.single.elements = f.elements ∧
      o.cur.single.pairs = f.pairs.getD (allPairs f) ∧
      o.cur.single.enableSpins = some (f.elements.map fun _ => false) ∧
      o.cur.mod = (fieldsOf f).mod ∧
      o.cur.typeFull = (fieldsOf f).typeFull ∧
      o.cur.typeIndices = (fieldsOf f).typeIndices ∧
      cs.length = f.coeffs.length ∧
      (∀ (i : ℕ) (c s : ℚ), f.coeffs[i]? = some c → f.scales[i]? = some s →
        ∃ v, cs[i]? = some v ∧ |v - c / s| ≤ |c / s| / (2 * 10 ^ 15)) := by
  have hload := C36_load_partial showF com f hF hel hpt hft hm (fun ps h => (hk ps h).1) hg hl
  have hobj : mkObj (fieldsOf f) = .ok ⟨fieldsOf f, fieldsOf f⟩ := by
    unfold mkObj
    rw [if_neg]
    · have hs : mkSingle (fieldsOf f).single = .ok (fieldsOf f).single := by
        apply C19_no_spins
        · simp [checkErrors, fieldsOf]
        · intro t h
          simp [fieldsOf] at h
      rw [hs]
      rfl
    · simp only [fieldsOf]
      split
      · rename_i h
        have := hg h
        dsimp only
        omega
      · simp
  have hleg : isLegacy (Spec.Legacy.lines showF com f) = true := by
    unfold isLegacy Spec.Legacy.lines head
    simp only [List.cons_append, List.head?_cons, Option.getD_some]
    unfold has line
    refine @decide_eq_true _ (List.instDecidableIsInfixOfDecidableEq _ _) ?_
    obtain ⟨r, hr⟩ := hcom
    rw [← hr]
    exact ⟨blanks (f.elements.map String.toList) ++ [' '], r, by
      rw [show "# ele".toList = '#' :: ' ' :: "ele".toList by decide +kernel]; simp⟩
  obtain ⟨ms, hms⟩ := mapM_of_get massOf f.elements hmass
  have hsave : ∃ d, save showF ⟨fieldsOf f, fieldsOf f⟩ (List.zipWith (· / ·) f.coeffs f.scales)
      (List.replicate (List.zipWith (· / ·) f.coeffs f.scales).length 1) = .ok d := by
    unfold save
    simp only [bind, Except.bind, pure, Except.pure]
    rw [show (fieldsOf f).single.elements = f.elements from rfl, hms]
    simp only [List.length_replicate, ne_eq, not_true, if_false]
    exact ⟨_, rfl⟩
  obtain ⟨d, hd⟩ := hsave
  obtain ⟨o, cs, q1, q2, q3, q4, q5, q6, q7, q8, -, q10, q11, -⟩ :=
    C35_round_trip_partial showF (fieldsOf f) _ hobj _ _ d hd
    (by simpa [fieldsOf] using hY) hno hpt' hft' (by
      show f.pairs.getD (allPairs f) ≠ []
      cases hp : f.pairs with
      | some ps => exact (hk ps hp).2
      | none =>
        simp only [Option.getD_none, allPairs]
        obtain ⟨a, l, ha⟩ := List.exists_cons_of_ne_nil hne
        have : (0, 0) ∈ combos f.elements.length := by
          rw [mem_combos, ha]
          simp
        exact List.ne_nil_of_mem (List.mem_map.2 ⟨_, this, rfl⟩)) (by
      show (Dict.keys (f.pairs.getD (allPairs f))).Nodup
      cases hp : f.pairs with
      | some ps => exact (hk ps hp).1
      | none => exact allPairs_keys f)
  refine ⟨d, o, cs, ?_, q1, q2, q3, q4, ?_, ?_, ?_, ?_, ?_, ?_⟩
  · unfold convert
    rw [if_pos hleg]
    simp only [bind, Except.bind, hload, hd, pure, Except.pure]
  · rw [q5]
    rfl
  · rw [q6]
    have : savedGtinv (fieldsOf f).mod = (fieldsOf f).mod.gtinv := by
      unfold savedGtinv
      simp only [fieldsOf]
      split <;> rfl
    rw [this]
  · rw [q7]
    rfl
  · rw [q8]
    rfl
  · rw [q10, List.length_zipWith, ← hl, min_self]
  · intro i c s hc hs
    have h1 : (List.zipWith (· / ·) f.coeffs f.scales)[i]? = some (c / s) := by
      simp [List.getElem?_zipWith, hc, hs]
    have hi : i < (List.zipWith (· / ·) f.coeffs f.scales).length :=
      (List.getElem?_eq_some_iff.1 h1).1
    obtain ⟨v, hv, he⟩ := q11 i (c / s) 1 h1 (by rw [List.getElem?_replicate, if_pos hi])
    rw [div_one] at he
    exact ⟨v, hv, he⟩

/-- A file with invariants and a section of pairs, but no version and no section of types. -/
def demoFile : File :=
  ⟨["Sr", "O"], 6, "gaussian", "gtinv", 4, 2, 4, 3, [4, 4], [false, false], [1, 1 / 2], [1, 6],
    [[1, 0], [1, 1 / 2]], [6, 1], none, some [((0, 0), [0, 1]), ((0, 1), [1]), ((1, 1), [0])], none⟩

/-- The comments are the names of the entries. -/
def demoCom (s : String) : Txt := s.toList

/-- The hypotheses of `C36_load_partial` and `C36_convert_partial` hold for a concrete file. -/
example : (∀ x, x = demoFile.cutoff ∨ x ∈ demoFile.coeffs ∨ x ∈ demoFile.scales ∨ x ∈ demoFile.mass ∨
      (∃ p ∈ demoFile.pairParams, x ∈ p) →
      Token (demoF x) ∧ stod (demoF x) = .ok x ∧ asNum (resolve (demoF x)) = .ok x) ∧
    (∀ e ∈ demoFile.elements, Token e.toList) ∧ Token demoFile.pairType.toList ∧
    Token demoFile.featureType.toList ∧ Marked demoCom demoFile ∧
    (∀ ps, demoFile.pairs = some ps → (Dict.keys ps).Nodup ∧ ps ≠ []) ∧
    demoFile.order ≤ demoFile.orderMaxL.length + 1 ∧
    demoFile.coeffs.length = demoFile.scales.length ∧ demoFile.elements ≠ [] ∧
    "No" ∉ demoFile.elements ∧ resolve demoFile.pairType.toList = .str demoFile.pairType ∧
    resolve demoFile.featureType.toList = .str demoFile.featureType ∧
    "ele".toList <+: demoCom "elements" ∧ (∀ e ∈ demoFile.elements, ∃ t, massOf e = .ok t) := by
  refine ⟨?_, by decide +kernel, by decide +kernel, by decide +kernel, ⟨by decide +kernel,
    by decide +kernel, by decide +kernel, by decide, ?_, by decide⟩, ?_, by decide, by decide, by decide,
    by decide, by decide +kernel, by decide +kernel, by decide +kernel, ?_⟩
  · intro x hx
    have : x = 6 ∨ x = 1 ∨ x = 0 ∨ x = 1 / 2 := by
      rcases hx with h | h | h | h | ⟨p, hp, h⟩
      · exact Or.inl h
      · simp only [demoFile, List.mem_cons, List.not_mem_nil, or_false] at h
        tauto
      · simp only [demoFile, List.mem_cons, List.not_mem_nil, or_false] at h
        tauto
      · simp only [demoFile, List.mem_cons, List.not_mem_nil, or_false] at h
        tauto
      · simp only [demoFile, List.mem_cons, List.not_mem_nil, or_false] at hp
        rcases hp with rfl | rfl <;> simp only [List.mem_cons, List.not_mem_nil, or_false] at h <;> tauto
    rcases this with rfl | rfl | rfl | rfl <;> decide +kernel
  · intro ps hps
    simp only [demoFile, Option.some.injEq] at hps
    subst hps
    decide +kernel
  · intro ps hps
    simp only [demoFile, Option.some.injEq] at hps
    subst hps
    decide +kernel
  · intro e he
    simp only [demoFile, List.mem_cons, List.not_mem_nil, or_false] at he
    rcases he with rfl | rfl
    · exact ⟨"87.62".toList, by decide +kernel⟩
    · exact ⟨"16.0".toList, by decide +kernel⟩

/-- A file that ends with an empty line does not load. -/
theorem C36_blank_line_violation :
    loadLegacy (head demoF demoCom { demoFile with pairs := none } ++ [[]]) = .error .nameError ∧
    (∃ r, loadLegacy (head demoF demoCom { demoFile with pairs := none }) = .ok r) := by
  refine ⟨by decide +kernel, ?_⟩
  have h : (match loadLegacy (head demoF demoCom { demoFile with pairs := none }) with
    | .ok _ => true | .error _ => false) = true := by decide +kernel
  split at h
  · rename_i r hr
    exact ⟨r, hr⟩
  · cases h

end Verif.MlpLegacy
