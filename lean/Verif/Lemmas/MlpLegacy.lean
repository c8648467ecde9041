import Verif.Model.MlpLegacy
import Verif.Spec.Legacy
import Verif.Props.MlpYaml
import Verif.Lemmas.MlpYamlCxx

/-!
# Lemmas on the old text format
-/

namespace Verif.MlpLegacy
open Verif.MlpYaml Verif.Params Verif.Spec.Legacy

theorem token_num (n : ℕ) : Token (num n) := by
  refine ⟨showNat_ne_nil n, fun c hc => ?_⟩
  have := showNat_digit n c hc
  exact ⟨digit_ne this (by decide), digit_ne this (by decide), digit_ne this (by decide)⟩

theorem token_flag (b : Bool) : Token (flag b) := by cases b <;> decide

theorem pyNat_num (n : ℕ) : pyNat (num n) = .ok n := by
  unfold pyNat
  have h : num n ≠ [] ∧ (num n).all Char.isDigit = true :=
    ⟨showNat_ne_nil n, by rw [List.all_eq_true]; exact showNat_digit n⟩
  rw [if_pos h]
  exact congrArg Except.ok (showNat_value n)

theorem strtobool_flag (b : Bool) : strtobool (flag b) = .ok b := by cases b <;> decide +kernel

theorem pieces_token {t r : Txt} (h : Token t) :
    pieces isWs (t ++ ' ' :: r) = t :: pieces isWs r := by
  refine pieces_sep (fun c hc => ?_) (by decide)
  have := h.2 c hc
  simp [isWs, this.1, this.2.1]

theorem words_blanks {vs : List Txt} (h : ∀ t ∈ vs, Token t) : words (blanks vs ++ [' ']) = vs := by
  induction vs with
  | nil => rfl
  | cons a l ih =>
    have ha := h a (by simp)
    have hl := ih fun t ht => h t (by simp [ht])
    cases l with
    | nil =>
      simp only [blanks]
      unfold words
      rw [pieces_token ha]
      simp [pieces, ha.1]
    | cons b l =>
      simp only [blanks]
      rw [show a ++ ' ' :: blanks (b :: l) ++ [' '] = a ++ ' ' :: (blanks (b :: l) ++ [' ']) by simp]
      unfold words at hl ⊢
      rw [pieces_token ha, List.filter_cons_of_pos (by simp [ha.1]), hl]

theorem mem_blanks {vs : List Txt} (h : ∀ t ∈ vs, Token t) {c : Char} (hc : c ∈ blanks vs) :
    c ≠ '#' := by
  induction vs with
  | nil => simp [blanks] at hc
  | cons a l ih =>
    cases l with
    | nil => exact ((h a (by simp)).2 c hc).2.2
    | cons b l =>
      simp only [blanks, List.mem_append, List.mem_cons] at hc
      rcases hc with hc | rfl | hc
      · exact ((h a (by simp)).2 c hc).2.2
      · decide
      · exact ih (fun t ht => h t (by simp [ht])) hc

theorem toks_line {vs : List Txt} (h : ∀ t ∈ vs, Token t) (c : Txt) : toks (line vs c) = vs := by
  unfold toks line
  rw [show blanks vs ++ ' ' :: '#' :: ' ' :: c = (blanks vs ++ [' ']) ++ '#' :: ' ' :: c by simp,
    List.takeWhile_append_of_pos]
  · simpa using words_blanks h
  · intro a ha
    rw [List.mem_append] at ha
    rcases ha with ha | ha
    · simpa using mem_blanks h ha
    · simp only [List.mem_singleton] at ha
      subst ha
      decide

theorem readMany_line {α β : Type} (dtype : Txt → Except Err α) (pr : β → Txt) (g : β → α)
    (l : List β) (c : Txt) (h : ∀ x ∈ l, Token (pr x) ∧ dtype (pr x) = .ok (g x)) :
    readMany dtype (line (l.map pr) c) = .ok (l.map g) := by
  unfold readMany
  rw [toks_line]
  · exact mapM_map_ok dtype pr g l fun x hx => (h x hx).2
  · intro t ht
    obtain ⟨x, hx, rfl⟩ := List.mem_map.1 ht
    exact (h x hx).1

theorem readOne_line {α : Type} (dtype : Txt → Except Err α) (t : Txt) (x : α) (c : Txt)
    (h : Token t) (hx : dtype t = .ok x) : readOne dtype (line [t] c) = .ok x := by
  unfold readOne
  rw [toks_line (by simpa using h)]
  exact hx

theorem readOne_num (n : ℕ) (c : Txt) : readOne pyNat (line [num n] c) = .ok n :=
  readOne_line _ _ _ _ (token_num n) (pyNat_num n)

theorem readMany_num (l : List ℕ) (c : Txt) : readMany pyNat (line (l.map num) c) = .ok l := by
  have := readMany_line pyNat num id l c fun x _ => ⟨token_num x, pyNat_num x⟩
  simpa using this

theorem readParams_lines (showF : ℚ → Txt) (c : Txt) (ps : List (List ℚ)) (rest : List Txt)
    (h : ∀ p ∈ ps, ∀ x ∈ p, Token (showF x) ∧ pyFloat (showF x) = .ok x) :
    readParams ps.length ((ps.map fun p => line (p.map showF) c) ++ rest) = .ok (ps, rest) := by
  induction ps with
  | nil => rfl
  | cons p ps ih =>
    have h1 := readMany_line pyFloat showF id p c fun x hx => h p (by simp) x hx
    simp only [List.length_cons, readParams, List.map_cons, List.cons_append, next, bind, Except.bind,
      h1, ih fun q hq => h q (by simp [hq]), pure, Except.pure, List.map_id]

theorem readKey_line (p : (ℕ × ℕ) × List ℕ) (c : Txt) :
    readKey (line [num p.1.1, num p.1.2, num p.2.length] c) = .ok p.1 := by
  unfold readKey
  have := readMany_num [p.1.1, p.1.2, p.2.length] c
  simp only [List.map_cons, List.map_nil] at this
  rw [this]
  rfl

theorem pairLoop_lines (com : String → Txt) (ps : List ((ℕ × ℕ) × List ℕ)) (rest : List Txt)
    (d : Dict (ℕ × ℕ) (List ℕ)) :
    pairLoop ps.length (ps.flatMap (Spec.Legacy.pairLines com) ++ rest) d =
      (true, rest, Dict.setAll d ps) := by
  induction ps generalizing d with
  | nil => rfl
  | cons p ps ih =>
    simp only [List.flatMap_cons, Spec.Legacy.pairLines, List.cons_append, List.nil_append,
      List.length_cons, pairLoop, readKey_line, readMany_num]
    rw [ih]
    rfl

/-- The first part of a file is read back. -/
theorem readHead_lines (showF : ℚ → Txt) (com : String → Txt) (f : File) (rest : List Txt)
    (hF : ∀ x, x = f.cutoff ∨ x ∈ f.coeffs ∨ x ∈ f.scales ∨ x ∈ f.mass ∨
      (∃ p ∈ f.pairParams, x ∈ p) → Token (showF x) ∧ stod (showF x) = .ok x)
    (hel : ∀ e ∈ f.elements, Token e.toList) (hpt : Token f.pairType.toList)
    (hft : Token f.featureType.toList) :
    readHead (head showF com f ++ rest) = .ok (⟨f.elements, f.cutoff, f.pairType, f.featureType,
      f.modelType, f.maxP,
      if f.featureType = "gtinv" then (f.order, f.orderMaxL, f.maxL) else (0, [], 0),
      f.coeffs, f.scales, f.pairParams, f.mass⟩, rest) := by
  have many : ∀ (l : List ℚ) (c : Txt), (∀ x ∈ l, Token (showF x) ∧ stod (showF x) = .ok x) →
      readMany pyFloat (line (l.map showF) c) = .ok l := by
    intro l c h
    simpa using readMany_line pyFloat showF id l c h
  have h1 : readMany pyStr (line (f.elements.map String.toList) (com "elements")) =
      .ok f.elements := by
    have := readMany_line pyStr String.toList id f.elements (com "elements") fun e he =>
      ⟨hel e he, by unfold pyStr; rw [String.ofList_toList]; rfl⟩
    simpa using this
  have str : ∀ (s : String) (c : Txt), Token s.toList → readOne pyStr (line [s.toList] c) = .ok s := by
    intro s c h
    exact readOne_line pyStr _ _ _ h (by unfold pyStr; rw [String.ofList_toList])
  have h2 := readOne_line pyFloat (showF f.cutoff) f.cutoff (com "cutoff") (hF _ (Or.inl rfl)).1
    (hF _ (Or.inl rfl)).2
  have h3 := many f.coeffs (com "coeffs") fun x hx => hF x (Or.inr (Or.inl hx))
  have h4 := many f.scales (com "scales") fun x hx => hF x (Or.inr (Or.inr (Or.inl hx)))
  have h5 := many f.mass (com "mass") fun x hx => hF x (Or.inr (Or.inr (Or.inr (Or.inl hx))))
  have h6 : readOne strtobool (line [['F', 'a', 'l', 's', 'e']] (com "electrostatic")) = .ok false :=
    readOne_line _ _ _ _ (by decide) (by decide +kernel)
  have h7 : readMany strtobool (line (f.orderSym.map flag) (com "gtinv_sym")) = .ok f.orderSym := by
    simpa using readMany_line strtobool flag id f.orderSym (com "gtinv_sym") fun b _ =>
      ⟨token_flag b, strtobool_flag b⟩
  have h8 := fun r => readParams_lines showF (com "pair_params") f.pairParams r fun p hp x hx =>
    hF x (Or.inr (Or.inr (Or.inr (Or.inr ⟨p, hp, hx⟩))))
  by_cases hg : f.featureType = "gtinv"
  · simp only [readHead, head, if_pos hg, List.cons_append, List.nil_append, List.append_assoc, next,
      bind, Except.bind, h1, h2, str _ _ hpt, str _ _ hft, readOne_num, readGtinv, readMany_num, h7, h3,
      h4, h5, h6, h8, pure, Except.pure]
  · simp only [readHead, head, if_neg hg, List.cons_append, List.nil_append, List.append_assoc, next,
      bind, Except.bind, h1, h2, str _ _ hpt, str _ _ hft, readOne_num, readGtinv, h3,
      h4, h5, h6, h8, pure, Except.pure]

end Verif.MlpLegacy
