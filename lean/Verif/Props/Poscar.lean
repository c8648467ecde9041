import Verif.Model.Poscar
import Verif.Spec.Poscar
import Verif.Lemmas.Py
import Verif.Lemmas.MlpYaml
import Verif.Lemmas.MlpYamlCxx
import Verif.Props.Infile
import Mathlib.Tactic.FieldSimp

/-!
# C64: structures written to POSCAR files
-/

namespace Verif.Poscar
open Verif.MlpYaml (Txt showNat pieces stod scan takeSign showNat_digit showNat_ne_nil showNat_value digit_ne
  takeWhile_digits pieces_none pieces_sep takeFrac takeExp Num)
open Verif.MlpLegacy (pyNat)
open Verif.Infile (readlines)
open Verif.Spec

/-! ## Numbers -/

theorem roundHalfEven_neg (x : ℚ) : roundHalfEven (-x) = -roundHalfEven x := by
  symm
  apply roundHalfEven_unique
  obtain ⟨h1, h2⟩ := roundHalfEven_spec x
  have e : |((-roundHalfEven x : ℤ) : ℚ) - -x| = |(roundHalfEven x : ℚ) - x| := by
    rw [← abs_neg]
    push_cast
    congr 1
    ring
  rw [IsRoundHalfEven, e]
  exact ⟨h1, fun h => (h2 h).neg⟩

/-- A number rounded to fifteen decimals. -/
def roundF (x : ℚ) : ℚ := roundHalfEven (x * 10 ^ 15) / 10 ^ 15

theorem roundF_spec (x : ℚ) : Rounded15 x (roundF x) := ⟨_, roundHalfEven_spec _, rfl⟩

theorem units_value (x : ℚ) : (if x < 0 then (-1 : ℚ) else 1) * units x = roundHalfEven (x * 10 ^ 15) := by
  have hnn : ∀ y : ℚ, 0 ≤ y → 0 ≤ roundHalfEven y := fun y hy => int_le_roundHalfEven (by simpa using hy)
  unfold units
  by_cases h : x < 0
  · rw [if_pos h, abs_of_neg h]
    have e : -x * 10 ^ 15 = -(x * 10 ^ 15) := by ring
    have h0 := hnn (-x * 10 ^ 15) (by
      have : (0 : ℚ) < -x := by linarith
      positivity)
    rw [e] at h0 ⊢
    rw [roundHalfEven_neg] at h0 ⊢
    have : (((-roundHalfEven (x * 10 ^ 15)).toNat : ℤ) : ℚ) = ((-roundHalfEven (x * 10 ^ 15) : ℤ) : ℚ) := by
      rw [Int.toNat_of_nonneg h0]
    rw [Int.cast_natCast] at this
    rw [this]
    push_cast
    ring
  · rw [if_neg h, abs_of_nonneg (not_lt.1 h)]
    have h0 := hnn (x * 10 ^ 15) (by
      have := not_lt.1 h
      positivity)
    have : (((roundHalfEven (x * 10 ^ 15)).toNat : ℤ) : ℚ) = ((roundHalfEven (x * 10 ^ 15) : ℤ) : ℚ) := by
      rw [Int.toNat_of_nonneg h0]
    rw [Int.cast_natCast] at this
    rw [this, one_mul]

theorem pad15_spec (m : ℕ) (h : m < 10 ^ 15) : (pad15 m).length = 15 ∧ (∀ c ∈ pad15 m, c.isDigit = true) ∧
    Nat.ofDigitChars 10 (pad15 m) 0 = m := by
  have hl := (Nat.length_toDigits_le_iff (b := 10) (n := m) (k := 15) (by decide) (by decide)).2 h
  have hl' : (showNat m).length ≤ 15 := hl
  refine ⟨?_, ?_, ?_⟩
  · unfold pad15
    simp only [List.length_append, List.length_replicate]
    omega
  · intro c hc
    unfold pad15 at hc
    rcases List.mem_append.1 hc with hc | hc
    · rw [List.mem_replicate] at hc
      rw [hc.2]
      decide
    · exact showNat_digit m c hc
  · unfold pad15
    rw [Nat.ofDigitChars_append, Nat.ofDigitChars_replicate_zero]
    simpa using showNat_value m

theorem fmtF_scan (x : ℚ) : scan (fmtF x) =
    some ⟨decide (x < 0), showNat (units x / 10 ^ 15), true, pad15 (units x % 10 ^ 15), none⟩ := by
  set a := showNat (units x / 10 ^ 15) with ha
  set b := pad15 (units x % 10 ^ 15) with hb
  have hda : ∀ c ∈ a, c.isDigit = true := showNat_digit _
  have hdb : ∀ c ∈ b, c.isDigit = true := (pad15_spec _ (Nat.mod_lt _ (by decide))).2.1
  have hs : takeSign (fmtF x) = (if x < 0 then some true else none, a ++ '.' :: b) := by
    unfold fmtF
    rw [← ha, ← hb]
    by_cases h : x < 0
    · simp [h, takeSign]
    · rw [if_neg h, if_neg h, List.nil_append]
      obtain ⟨d, ds, hd⟩ := List.exists_cons_of_ne_nil (showNat_ne_nil (units x / 10 ^ 15))
      rw [← ha] at hd
      have h1 := digit_ne (hda d (by rw [hd]; simp)) (d := '-') (by decide)
      have h2 := digit_ne (hda d (by rw [hd]; simp)) (d := '+') (by decide)
      rw [hd]
      simp [takeSign, h1, h2]
  have ht := takeWhile_digits (t := a) (r := '.' :: b) hda (by simp)
  have ht2 := takeWhile_digits (t := b) (r := []) hdb (by simp)
  rw [List.append_nil] at ht2
  have hne : a ≠ [] := showNat_ne_nil _
  unfold scan
  simp only [hs, ht.1, ht.2, takeFrac, if_true, ht2.1, ht2.2, takeExp, Option.map_some]
  rw [if_neg (by simp [hne])]
  by_cases h : x < 0 <;> simp [h]

theorem stod_fmtF (x : ℚ) : stod (fmtF x) = .ok (roundF x) := by
  unfold stod
  rw [fmtF_scan]
  show Except.ok (Num.value _) = _
  congr 1
  have hp := pad15_spec (units x % 10 ^ 15) (Nat.mod_lt _ (by decide))
  unfold Num.value Num.expVal
  simp only [decide_eq_true_eq, hp.1]
  rw [Nat.ofDigitChars_append, Nat.ofDigitChars_eq_ofDigitChars_zero, hp.1, hp.2.2, showNat_value,
    Nat.div_add_mod, units_value]
  unfold roundF
  rw [show (0 : ℤ) - ((15 : ℕ) : ℤ) = -15 by norm_num, zpow_neg, div_eq_mul_inv]
  norm_num

/-- Characters of a printed number. -/
theorem fmtF_chars (x : ℚ) : fmtF x ≠ [] ∧ ∀ c ∈ fmtF x, pyWs c = false ∧ c ≠ '\n' := by
  have key : ∀ c : Char, c.isDigit = true ∨ c = '-' ∨ c = '.' → pyWs c = false ∧ c ≠ '\n' := by
    rintro c (hc | rfl | rfl)
    · have h := fun d hd => digit_ne hc (d := d) hd
      have h1 := h ' ' (by decide)
      have h2 := h '\t' (by decide)
      have h3 := h '\n' (by decide)
      have h4 := h '\r' (by decide)
      have h5 := h '\x0b' (by decide)
      have h6 := h '\x0c' (by decide)
      simp [pyWs, h1, h2, h3, h4, h5, h6]
    · decide
    · decide
  constructor
  · unfold fmtF
    simp
  · intro c hc
    apply key
    unfold fmtF at hc
    simp only [List.mem_append, List.mem_cons] at hc
    rcases hc with (hc | hc) | rfl | hc
    · split at hc
      · simp only [List.mem_singleton] at hc
        exact Or.inr (Or.inl hc)
      · simp at hc
    · exact Or.inl (showNat_digit _ c hc)
    · simp
    · exact Or.inl ((pad15_spec _ (Nat.mod_lt _ (by decide))).2.1 c hc)

/-! ## Words -/

theorem pyWords_space (r : Txt) : pyWords (' ' :: r) = pyWords r := by
  unfold pyWords
  simp only [pieces, show pyWs ' ' = true from rfl, if_true]
  rw [List.filter_cons_of_neg (by simp)]

theorem pyWords_word {t : Txt} (hne : t ≠ []) (h : ∀ c ∈ t, pyWs c = false) (r : Txt) :
    pyWords (t ++ ' ' :: r) = t :: pyWords r := by
  unfold pyWords
  rw [pieces_sep h rfl, List.filter_cons_of_pos (by simpa using hne)]

theorem pyWords_last {t : Txt} (hne : t ≠ []) (h : ∀ c ∈ t, pyWs c = false) : pyWords t = [t] := by
  unfold pyWords
  rw [pieces_none h, List.filter_cons_of_pos (by simpa using hne)]
  rfl

theorem pyWords_vecLine (v : V3 ℚ) : pyWords (vecLine v) = [fmtF v.x, fmtF v.y, fmtF v.z] := by
  have hx := fmtF_chars v.x
  have hy := fmtF_chars v.y
  have hz := fmtF_chars v.z
  have e : vecLine v = ' ' :: ' ' :: ' ' :: (fmtF v.x ++ ' ' :: (fmtF v.y ++ ' ' :: fmtF v.z)) := by
    unfold vecLine
    rw [show "   ".toList = [' ', ' ', ' '] from rfl]
    simp
  rw [e, pyWords_space, pyWords_space, pyWords_space, pyWords_word hx.1 fun c hc => (hx.2 c hc).1,
    pyWords_word hy.1 fun c hc => (hy.2 c hc).1, pyWords_last hz.1 fun c hc => (hz.2 c hc).1]

/-- Componentwise rounding. -/
def roundV (v : V3 ℚ) : V3 ℚ := ⟨roundF v.x, roundF v.y, roundF v.z⟩

theorem floats3_vecLine (v : V3 ℚ) : floats3 (vecLine v) = .ok (roundV v) := by
  unfold floats3
  rw [pyWords_vecLine]
  simp only [List.take_succ_cons, List.take_zero, List.mapM_cons, List.mapM_nil, stod_fmtF, bind, Except.bind,
    pure, Except.pure]
  rfl

theorem vecLine_newline (v : V3 ℚ) : '\n' ∉ vecLine v := by
  intro h
  have hx := fmtF_chars v.x
  have hy := fmtF_chars v.y
  have hz := fmtF_chars v.z
  unfold vecLine at h
  simp only [List.mem_append, List.mem_cons] at h
  rcases h with ((h | h) | h | h) | h | h
  · revert h; decide
  · exact (hx.2 _ h).2 rfl
  · exact absurd h (by decide)
  · exact (hy.2 _ h).2 rfl
  · exact absurd h (by decide)
  · exact (hz.2 _ h).2 rfl

/-! ## Groups -/

/-- The name that is printed for a group. -/
def outName (n : ℕ) (e : String) : String := if 0 < n then e else "Z"

/-- A name that can be printed. -/
def IsName (e : String) : Prop := e.toList ≠ [] ∧ ∀ c ∈ e.toList, c.isAlpha = true

theorem nameCells_grouped (els : List String) (ns : List ℕ) (names : List String)
    (hlen : names.length = ns.length) (index : ℕ) (h : els.drop index = grouped ns names) :
    nameCells els index ns = .ok ((List.zipWith outName ns names).flatMap fun e => e.toList ++ [' ', ' ']) := by
  induction ns generalizing names index with
  | nil =>
    obtain rfl : names = [] := List.length_eq_zero_iff.1 hlen
    rfl
  | cons n ns ih =>
    cases names with
    | nil => simp at hlen
    | cons e names =>
      have hg : grouped (n :: ns) (e :: names) = List.replicate n e ++ grouped ns names := rfl
      rw [hg] at h
      have hl : names.length = ns.length := by simpa using hlen
      rw [List.zipWith_cons_cons, List.flatMap_cons]
      unfold nameCells
      by_cases hn : 0 < n
      · rw [if_pos hn]
        have h1 : els[index]? = some e := by
          have : (els.drop index)[0]? = some e := by
            rw [h, List.getElem?_append_left (by simpa using hn)]
            simp [hn]
          simpa using this
        have h2 : els.drop (index + n) = grouped ns names := by
          rw [← List.drop_drop, h, List.drop_append_of_le_length (by simp)]
          simp
        rw [h1, ih names hl (index + n) h2]
        simp [outName, hn, orErr, bind, Except.bind, pure, Except.pure]
      · obtain rfl : n = 0 := by omega
        rw [if_neg hn, ih names hl index (by simpa using h)]
        simp [outName, bind, Except.bind, pure, Except.pure]

theorem pyWords_cells {α : Type} (l : List α) (f : α → Txt) (h : ∀ a ∈ l, f a ≠ [] ∧ ∀ c ∈ f a, pyWs c = false) :
    pyWords (l.flatMap fun a => f a ++ [' ', ' ']) = l.map f := by
  induction l with
  | nil => rfl
  | cons a l ih =>
    rw [List.flatMap_cons, List.append_assoc]
    show pyWords (f a ++ ' ' :: ' ' :: (l.flatMap fun a => f a ++ [' ', ' '])) = _
    rw [pyWords_word (h a (by simp)).1 (h a (by simp)).2, pyWords_space, ih fun b hb => h b (by simp [hb])]
    rfl

theorem alpha_ws {c : Char} (h : c.isAlpha = true) : pyWs c = false := by
  have hne : ∀ d : Char, d.isAlpha = false → c ≠ d := by
    rintro d hd rfl
    rw [h] at hd
    exact absurd hd (by decide)
  have h1 := hne ' ' (by decide)
  have h2 := hne '\t' (by decide)
  have h3 := hne '\n' (by decide)
  have h4 := hne '\r' (by decide)
  have h5 := hne '\x0b' (by decide)
  have h6 := hne '\x0c' (by decide)
  simp [pyWs, h1, h2, h3, h4, h5, h6]

theorem outName_isName {ns : List ℕ} {names : List String} (h : ∀ e ∈ names, IsName e) :
    ∀ e ∈ List.zipWith outName ns names, IsName e := by
  intro e he
  rw [List.mem_iff_getElem?] at he
  obtain ⟨i, hi⟩ := he
  rw [List.getElem?_zipWith] at hi
  cases h1 : ns[i]? with
  | none => simp [h1] at hi
  | some n =>
    cases h2 : names[i]? with
    | none => simp [h1, h2] at hi
    | some a =>
      simp only [h1, h2, Option.some.injEq] at hi
      subst hi
      unfold outName
      split_ifs
      · exact h a (List.mem_iff_getElem?.2 ⟨i, h2⟩)
      · exact ⟨by decide, by decide⟩

theorem expand_grouped (all : List String) (ns : List ℕ) (names : List String) (hlen : names.length = ns.length)
    (i : ℕ) (h : all.drop i = List.zipWith outName ns names) :
    ∃ r, expand all i ns = .ok r ∧ r.map (·.2) = grouped ns names ∧
      r.map (·.1) = grouped ns (List.range' i ns.length) := by
  induction ns generalizing names i with
  | nil =>
    obtain rfl : names = [] := List.length_eq_zero_iff.1 hlen
    exact ⟨[], rfl, rfl, rfl⟩
  | cons n ns ih =>
    cases names with
    | nil => simp at hlen
    | cons e names =>
      have hl : names.length = ns.length := by simpa using hlen
      rw [List.zipWith_cons_cons] at h
      have h2 : all.drop (i + 1) = List.zipWith outName ns names := by
        rw [← List.drop_drop, h]
        rfl
      have h1 : all[i]? = some (outName n e) := by
        have : (all.drop i)[0]? = some (outName n e) := by rw [h]; rfl
        simpa using this
      obtain ⟨r, hr, hr2, hr1⟩ := ih names hl (i + 1) h2
      cases n with
      | zero =>
        refine ⟨r, by rw [expand]; exact hr, ?_, ?_⟩
        · rw [hr2]
          rfl
        · rw [hr1]
          rfl
      | succ n =>
        refine ⟨List.replicate (n + 1) (i, e) ++ r, ?_, ?_, ?_⟩
        · rw [expand, h1, hr]
          simp [outName, orErr, bind, Except.bind, pure, Except.pure]
        · rw [List.map_append, hr2, List.map_replicate]
          rfl
        · rw [List.map_append, hr1, List.map_replicate]
          rfl

theorem grouped_length {α : Type} (ns : List ℕ) (names : List α) (h : names.length = ns.length) :
    (grouped ns names).length = ns.sum := by
  induction ns generalizing names with
  | nil => simp [grouped]
  | cons n ns ih =>
    cases names with
    | nil => simp at h
    | cons e names =>
      have := ih names (by simpa using h)
      show (List.replicate n e ++ grouped ns names).length = _
      simp [this]

theorem pyNat_show (n : ℕ) : pyNat (showNat n) = .ok n := by
  unfold pyNat
  rw [if_pos ⟨showNat_ne_nil n, List.all_eq_true.2 (showNat_digit n)⟩, showNat_value]

theorem mapM_ok_of {α β : Type} (f : α → Except Err β) (g : α → β) (l : List α) (h : ∀ a ∈ l, f a = .ok (g a)) :
    l.mapM f = .ok (l.map g) := by
  induction l with
  | nil => rfl
  | cons a l ih =>
    rw [List.mapM_cons, h a (by simp), ih fun b hb => h b (by simp [hb])]
    rfl

theorem digit_ws {c : Char} (hc : c.isDigit = true) : pyWs c = false ∧ c ≠ '\n' := by
  have h := fun d hd => digit_ne hc (d := d) hd
  have h1 := h ' ' (by decide)
  have h2 := h '\t' (by decide)
  have h3 := h '\n' (by decide)
  have h4 := h '\r' (by decide)
  have h5 := h '\x0b' (by decide)
  have h6 := h '\x0c' (by decide)
  simp [pyWs, h1, h2, h3, h4, h5, h6]

/-- **C64.**  A structure whose atoms are grouped as its numbers of atoms say, written to a POSCAR file and read
back, has the same numbers of atoms, elements and order of atoms; axes and positions are rounded to fifteen
decimals, every atom gets the number of its group as its type, and the first line is the comment, i.e. the given
header, or else the comment of the structure, or else a standard text. -/
theorem C64_round_trip (st : Structure ℚ) (hwf : st.WF) (hne : st.positions ≠ []) (names : List String)
    (hlen : names.length = st.nAtoms.length) (hel : st.elements = grouped st.nAtoms names)
    (hnames : ∀ e ∈ names, IsName e) (header comment : Option Txt) (first : Txt)
    (hfirst : first = (header.or comment).getD "Generated by pypolymlp".toList) (hhead : '\n' ∉ first)
    (filename : String) :
    ∃ text st', write st header comment = .ok text ∧
      parse text false filename = .ok (st', first) ∧
      RoundedM st.axis st'.axis ∧ List.Forall₂ RoundedV st.positions st'.positions ∧
      st'.nAtoms = st.nAtoms ∧ st'.elements = st.elements ∧
      st'.types = grouped st.nAtoms (List.range st.nAtoms.length) ∧
      st'.volume = st'.axis.det ∧ st'.name = some filename := by
  have hfl : first = headLine header comment := by
    rw [hfirst]
    cases header <;> cases comment <;> rfl
  clear hfirst
  subst hfl
  have hcells := nameCells_grouped st.elements st.nAtoms names hlen 0 (by simpa using hel)
  set cells := (List.zipWith outName st.nAtoms names).flatMap fun e => e.toList ++ [' ', ' '] with hcd
  have hon := outName_isName (ns := st.nAtoms) hnames
  set L := headLine header comment :: "1.0".toList :: (axes st.axis).map vecLine ++
    [' ' :: cells, ' ' :: countCells st.nAtoms, "Direct".toList] ++ st.positions.map vecLine with hL
  have hw : write st header comment = .ok (L.flatMap fun l => l ++ ['\n']) := by
    unfold write writeLines
    rw [hcells]
    rfl
  -- no newlines inside lines
  have hnl : ∀ l ∈ L, '\n' ∉ l := by
    intro l hl
    rw [hL] at hl
    simp only [List.mem_append, List.mem_cons, List.mem_map, List.not_mem_nil, or_false] at hl
    rcases hl with (((rfl | rfl | ⟨v, _, rfl⟩) | rfl | rfl | rfl) | ⟨v, _, rfl⟩)
    · exact hhead
    · decide
    · exact vecLine_newline v
    · intro h
      rcases List.mem_cons.1 h with h | h
      · exact absurd h (by decide)
      · rw [hcd, List.mem_flatMap] at h
        obtain ⟨e, he, h⟩ := h
        rcases List.mem_append.1 h with h | h
        · have := alpha_ws ((hon e he).2 _ h)
          exact absurd this (by decide)
        · revert h; decide
    · intro h
      rcases List.mem_cons.1 h with h | h
      · exact absurd h (by decide)
      · unfold countCells at h
        rw [List.mem_flatMap] at h
        obtain ⟨e, he, h⟩ := h
        rcases List.mem_append.1 h with h | h
        · exact (digit_ws (showNat_digit _ _ h)).2 rfl
        · revert h; decide
    · decide
    · exact vecLine_newline v
  have hrl := Verif.Infile.C37_lines L hnl
  have hsum : st.nAtoms.sum = st.positions.length := by
    have := hwf
    unfold Structure.WF at this
    omega
  have hpos : 0 < st.nAtoms.sum := by
    rw [hsum]
    exact List.length_pos_iff.2 hne
  -- the words of the two lines of the groups
  have hw5 : pyWords (' ' :: cells) = (List.zipWith outName st.nAtoms names).map String.toList := by
    rw [pyWords_space, hcd]
    exact pyWords_cells _ _ fun e he => ⟨(hon e he).1, fun c hc => alpha_ws ((hon e he).2 c hc)⟩
  have hw6 : pyWords (' ' :: countCells st.nAtoms) = st.nAtoms.map showNat := by
    rw [pyWords_space]
    unfold countCells
    exact pyWords_cells _ _ fun n _ => ⟨showNat_ne_nil n, fun c hc => (digit_ws (showNat_digit n c hc)).1⟩
  have hlet : hasLetter (' ' :: cells) = true := by
    unfold hasLetter
    rw [List.any_eq_true]
    cases hz : List.zipWith outName st.nAtoms names with
    | nil =>
      exfalso
      have h0 : (List.zipWith outName st.nAtoms names).length = 0 := by rw [hz]; rfl
      rw [List.length_zipWith] at h0
      have : st.nAtoms = [] := List.length_eq_zero_iff.1 (by omega)
      rw [this] at hpos
      simp at hpos
    | cons e r =>
      obtain ⟨c, cs, hc⟩ := List.exists_cons_of_ne_nil (hon e (by rw [hz]; simp)).1
      refine ⟨c, ?_, ?_⟩
      · rw [hcd, hz, List.flatMap_cons, hc]
        simp
      · rw [(hon e (by rw [hz]; simp)).2 c (by rw [hc]; simp)]
        rfl
  obtain ⟨r, hr, hr2, hr1⟩ := expand_grouped (List.zipWith outName st.nAtoms names) st.nAtoms names hlen 0 (by simp)
  rw [← List.range_eq_range'] at hr1
  have hpl : ∀ i < st.positions.length, L[8 + i]? = (st.positions.map vecLine)[i]? := by
    intro i hi
    rw [hL, List.getElem?_append_right (by simp [axes])]
    congr 1
    simp [axes]
  have hposM : (List.range st.nAtoms.sum).mapM (fun i => do
      let l ← lineAt L (7 + (if false = true then 1 else 0) + 1 + i)
      floats3 l) = .ok (st.positions.map roundV) := by
    have h1 := mapM_ok_of (fun i => do
      let l ← lineAt L (7 + (if false = true then 1 else 0) + 1 + i)
      floats3 l) (fun i => roundV (st.positions.getD i ⟨0, 0, 0⟩)) (List.range st.nAtoms.sum) (by
        intro i hi
        rw [List.mem_range, hsum] at hi
        have h2 := hpl i hi
        rw [List.getElem?_map, List.getElem?_eq_getElem hi, Option.map_some] at h2
        unfold lineAt
        rw [show 7 + (if false = true then 1 else 0) + 1 + i = 8 + i by simp, h2]
        show floats3 _ = _
        rw [floats3_vecLine, List.getD_eq_getElem?_getD, List.getElem?_eq_getElem hi]
        rfl)
    rw [h1]
    congr 1
    apply List.ext_getElem
    · simp [hsum]
    · intro i h2 h3
      have h4 : i < st.positions.length := by simpa using h3
      simp [List.getElem?_eq_getElem h4]
  have hF : List.Forall₂ RoundedV st.positions (st.positions.map roundV) := by
    rw [List.forall₂_map_right_iff]
    exact List.forall₂_same.2 fun v _ => ⟨roundF_spec _, roundF_spec _, roundF_spec _⟩
  set ax := mkAxis 1 (roundV ⟨st.axis.r0.x, st.axis.r1.x, st.axis.r2.x⟩)
    (roundV ⟨st.axis.r0.y, st.axis.r1.y, st.axis.r2.y⟩) (roundV ⟨st.axis.r0.z, st.axis.r1.z, st.axis.r2.z⟩) with hax
  refine ⟨_, ⟨ax, st.positions.map roundV, st.nAtoms, r.map (·.2), r.map (·.1), ax.det, some filename⟩, hw, ?_, ?_,
    hF, rfl, by rw [hr2, hel], hr1, rfl, rfl⟩
  · have hl0 : L[0]? = some (headLine header comment) := rfl
    have hl1 : L[1]? = some "1.0".toList := rfl
    have hl2 : L[2]? = some (vecLine ⟨st.axis.r0.x, st.axis.r1.x, st.axis.r2.x⟩) := rfl
    have hl3 : L[3]? = some (vecLine ⟨st.axis.r0.y, st.axis.r1.y, st.axis.r2.y⟩) := rfl
    have hl4 : L[4]? = some (vecLine ⟨st.axis.r0.z, st.axis.r1.z, st.axis.r2.z⟩) := rfl
    have hl5 : L[5]? = some (' ' :: cells) := rfl
    have hl6 : L[6]? = some (' ' :: countCells st.nAtoms) := rfl
    have hc : (pyWords "1.0".toList)[0]? = some "1.0".toList := by decide
    have hone : stod "1.0".toList = .ok 1 := by decide +kernel
    have hbody : body L false filename ax ((pyWords (' ' :: cells)).map String.ofList) st.nAtoms 7 =
        .ok ⟨ax, st.positions.map roundV, st.nAtoms, r.map (·.2), r.map (·.1), ax.det, some filename⟩ := by
      have hn : (pyWords (' ' :: cells)).map String.ofList = List.zipWith outName st.nAtoms names := by
        rw [hw5, List.map_map]
        simp
      unfold body
      rw [hn, hr]
      simp only [bind, Except.bind] at hposM ⊢
      rw [hposM]
      simp only
      rw [if_neg (by omega)]
      unfold Structure.check
      rw [if_pos]
      simp only [hr2, hr1]
      refine ⟨?_, ?_, ?_⟩
      · rw [List.length_map, grouped_length _ _ hlen, hsum]
      · rw [grouped_length _ _ hlen, grouped_length _ _ (by simp)]
      · rw [grouped_length _ _ hlen]
    unfold parse
    simp only [hrl, lineAt, hl0, hl1, hl2, hl3, hl4, hl5, hlet, if_true, orErr, bind, Except.bind, hc, hone,
      floats3_vecLine, hl6, hw6, pure, Except.pure]
    have hcnt : (st.nAtoms.map showNat).mapM pyNat = .ok st.nAtoms := by
      rw [List.mapM_map, mapM_ok_of (pyNat ∘ showNat) id _ fun n _ => pyNat_show n, List.map_id]
    simp only [hcnt]
    rw [← hax, hbody]
  · rw [hax]
    unfold mkAxis roundV
    simp only [mul_one]
    exact ⟨⟨roundF_spec _, roundF_spec _, roundF_spec _⟩, ⟨roundF_spec _, roundF_spec _, roundF_spec _⟩,
      ⟨roundF_spec _, roundF_spec _, roundF_spec _⟩⟩

/-- Rounding again changes nothing: reading, writing and reading again gives the same numbers. -/
theorem C64_stable (x y z : ℚ) (h : Rounded15 x y) (h' : Rounded15 y z) : z = y := by
  obtain ⟨k, hk, rfl⟩ := h
  obtain ⟨m, hm, rfl⟩ := h'
  rw [roundHalfEven_unique hm, div_mul_cancel₀ _ (by norm_num), roundHalfEven_intCast]

/-- The error of a stored number. -/
theorem C64_error (x y : ℚ) (h : Rounded15 x y) : |y - x| ≤ 1 / (2 * 10 ^ 15) := by
  obtain ⟨k, hk, rfl⟩ := h
  have e : (k : ℚ) / 10 ^ 15 - x = (k - x * 10 ^ 15) / 10 ^ 15 := by field_simp
  rw [e, abs_div, abs_of_pos (show (0 : ℚ) < 10 ^ 15 by norm_num), div_le_iff₀ (by norm_num)]
  have := hk.1
  calc |(k : ℚ) - x * 10 ^ 15| ≤ 1 / 2 := this
    _ = 1 / (2 * 10 ^ 15) * 10 ^ 15 := by norm_num

/-- Three atoms of two elements in a cell meet the hypotheses; one group is empty. -/
def exSt : Structure ℚ where
  axis := ⟨⟨4, 1 / 3, 0⟩, ⟨0, 4, -1 / 7⟩, ⟨0, 0, 5⟩⟩
  positions := [⟨0, 0, 0⟩, ⟨1 / 2, 1 / 3, -1 / 4⟩, ⟨2 / 3, 1 / 7, 9 / 10⟩]
  nAtoms := [2, 0, 1]
  elements := ["Mg", "Mg", "O"]
  types := [0, 0, 2]
  volume := 80

example : exSt.WF ∧ exSt.positions ≠ [] ∧ (["Mg", "Si", "O"] : List String).length = exSt.nAtoms.length ∧
    exSt.elements = grouped exSt.nAtoms ["Mg", "Si", "O"] ∧ (∀ e ∈ ["Mg", "Si", "O"], IsName e) ∧
    '\n' ∉ ((none : Option Txt).or (some "test structure".toList)).getD "Generated by pypolymlp".toList := by
  refine ⟨by decide, by decide, by decide, by decide, ?_, by decide⟩
  unfold IsName
  decide

/-! ## Where the files do not keep the structure -/

/-- Atoms whose elements are interleaved do not come back: the elements are taken from the first atom of each
group, so that the written file describes another crystal. -/
theorem C64_interleaved_violation :
    ∃ st : Structure ℚ, st.WF ∧ ∃ text st' c, write st none none = .ok text ∧
      parse text false "POSCAR" = .ok (st', c) ∧ st'.positions = st.positions ∧ st'.elements ≠ st.elements := by
  refine ⟨⟨⟨⟨1, 0, 0⟩, ⟨0, 1, 0⟩, ⟨0, 0, 1⟩⟩, [⟨0, 0, 0⟩, ⟨1, 0, 0⟩, ⟨0, 1, 0⟩], [2, 1], ["Mg", "O", "Mg"], [0, 1, 0], 1,
    none⟩, by decide, _, ⟨⟨⟨1, 0, 0⟩, ⟨0, 1, 0⟩, ⟨0, 0, 1⟩⟩, [⟨0, 0, 0⟩, ⟨1, 0, 0⟩, ⟨0, 1, 0⟩], [2, 1],
    ["Mg", "Mg", "Mg"], [0, 0, 1], 1, some "POSCAR"⟩, "Generated by pypolymlp".toList, rfl, ?_, rfl, by decide⟩
  decide +kernel

/-- A file with Cartesian coordinates. -/
def cartesian : Txt :=
  "cell\n1.0\n2 0 0\n0 2 0\n0 0 2\nMg\n1\nCartesian\n1 1 1\n".toList

/-- A file with Cartesian coordinates is read as if its coordinates were direct: the atom at `(1, 1, 1)` of a cell
of length 2, whose direct coordinates are one half, is put on the corner of the cell. -/
theorem C64_cartesian_violation : ∃ st c, parse cartesian false "POSCAR" = .ok (st, c) ∧
    st.axis = ⟨⟨2, 0, 0⟩, ⟨0, 2, 0⟩, ⟨0, 0, 2⟩⟩ ∧ st.positions = [⟨1, 1, 1⟩] := by
  refine ⟨⟨⟨⟨2, 0, 0⟩, ⟨0, 2, 0⟩, ⟨0, 0, 2⟩⟩, [⟨1, 1, 1⟩], [1], ["Mg"], [0], 8, some "POSCAR"⟩, "cell".toList, ?_, rfl,
    rfl⟩
  decide +kernel

/-- A negative second line (which stands for the volume of the cell) is taken as a factor: the cell gets a
negative volume. -/
theorem C64_volume_violation : ∃ st c,
    parse "cell\n-8.0\n1 0 0\n0 1 0\n0 0 1\nMg\n1\nDirect\n0 0 0\n".toList false "POSCAR" = .ok (st, c) ∧
    st.volume = -512 := by
  refine ⟨⟨⟨⟨-8, 0, 0⟩, ⟨0, -8, 0⟩, ⟨0, 0, -8⟩⟩, [⟨0, 0, 0⟩], [1], ["Mg"], [0], -512, some "POSCAR"⟩, "cell".toList, ?_,
    rfl⟩
  decide +kernel

end Verif.Poscar
