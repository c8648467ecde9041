import Verif.Model.LegacyCxx
import Verif.Props.MlpLegacy

/-!
# C119: old potential files in LAMMPS and in Python

Spec: `Verif/Spec/Legacy.lean`.
-/

namespace Verif.LegacyCxx
open Verif.MlpYaml Verif.Spec.Legacy Verif.MlpLegacy

/-- The stream with some lines left. -/
def fresh (nl : Bool) (r : List Txt) : Inp := ⟨r, r.isEmpty && !nl⟩

theorem getline_first (nl : Bool) (l : Txt) (r : List Txt) :
    getline nl ⟨l :: r, false⟩ = (l, fresh nl r) := by
  cases r <;> simp [getline, fresh]

theorem getline_fresh (nl : Bool) (l : Txt) (r : List Txt) :
    getline nl (fresh nl (l :: r)) = (l, fresh nl r) := by
  cases r <;> simp [getline, fresh]

theorem getline_end (nl : Bool) : getline nl (fresh nl []) = ([], ⟨[], true⟩) := by
  cases nl <;> rfl

theorem words_hash (c : Txt) : words ('#' :: ' ' :: c) = ['#'] :: words c := by
  unfold words
  have : pieces isWs ('#' :: ' ' :: c) = ['#'] :: pieces isWs c :=
    pieces_sep (a := ['#']) (c := ' ') (by decide) (by decide)
  rw [this]
  simp

theorem words_line {vs : List Txt} (h : ∀ t ∈ vs, Token t) (c : Txt) :
    words (line vs c) = vs ++ ['#'] :: words c := by
  induction vs with
  | nil =>
    unfold line blanks
    have : words (' ' :: '#' :: ' ' :: c) = words ('#' :: ' ' :: c) := by
      unfold words
      simp [pieces, isWs]
    rw [List.nil_append, this, words_hash]
    rfl
  | cons a l ih =>
    have ha := h a (by simp)
    have hl := ih fun t ht => h t (by simp [ht])
    have key : ∀ r : Txt, words (a ++ ' ' :: r) = a :: words r := by
      intro r
      unfold words
      rw [pieces_token ha]
      simp [ha.1]
    cases l with
    | nil =>
      unfold line blanks
      rw [key, words_hash]
      rfl
    | cons b l =>
      have e : line (a :: b :: l) c = a ++ ' ' :: line (b :: l) c := by
        unfold line
        simp [blanks]
      rw [e, key, hl]
      rfl

theorem value_line {α : Type} (conv : Txt → α × Bool) (junk : α) (t c : Txt) (h : Token t) :
    value conv junk (line [t] c) = (conv t).1 := by
  unfold value
  rw [words_line (by simpa using h)]
  rfl

theorem toInt_num (n : ℕ) : toInt (num n) = ((n : ℤ), true) := by
  unfold toInt
  have : stoi (num n) = .ok (n : ℤ) := stoi_showNat n
  rw [this]

theorem value_num (junk : ℤ) (n : ℕ) (c : Txt) : value toInt junk (line [num n] c) = (n : ℤ) := by
  rw [value_line _ _ _ _ (token_num n), toInt_num]

theorem fill_map {α β : Type} (conv : Txt → α × Bool) (pr : β → Txt) (g : β → α) (l : List β)
    (rest : List Txt) (junk : α) (h : ∀ x ∈ l, conv (pr x) = (g x, true)) :
    fill conv l.length (l.map pr ++ rest) junk = l.map g := by
  induction l generalizing junk with
  | nil => rfl
  | cons a l ih =>
    have ha := h a (by simp)
    simp only [List.length_cons, List.map_cons, List.cons_append, fill, ha, if_true]
    rw [ih _ fun x hx => h x (by simp [hx])]

theorem fill_line {α β : Type} (conv : Txt → α × Bool) (pr : β → Txt) (g : β → α) (l : List β)
    (c : Txt) (junk : α) (h : ∀ x ∈ l, Token (pr x) ∧ conv (pr x) = (g x, true)) :
    fill conv l.length (words (line (l.map pr) c)) junk = l.map g := by
  rw [words_line]
  · exact fill_map conv pr g l _ junk fun x hx => (h x hx).2
  · intro t ht
    obtain ⟨x, hx, rfl⟩ := List.mem_map.1 ht
    exact (h x hx).1

theorem array_line {α β : Type} (conv : Txt → α × Bool) (pr : β → Txt) (g : β → α) (l : List β)
    (c : Txt) (junk : α) (n : ℤ) (hn : n = l.length)
    (h : ∀ x ∈ l, Token (pr x) ∧ conv (pr x) = (g x, true)) :
    array conv junk n (line (l.map pr) c) = .ok (l.map g) := by
  subst hn
  unfold array
  rw [if_neg (by omega), Int.toNat_natCast, fill_line conv pr g l c junk h]

theorem fill_fail {α β : Type} (conv : Txt → α × Bool) (pr : β → Txt) (g : β → α) (l : List β)
    (w : Txt) (rest : List Txt) (v : α) (hw : conv w = (v, false)) (k : ℕ)
    (h : ∀ x ∈ l, conv (pr x) = (g x, true)) : ∀ junk : α,
    fill conv (l.length + (k + 1)) (l.map pr ++ w :: rest) junk = l.map g ++ List.replicate (k + 1) v := by
  have hk : ∀ (k : ℕ) (x : α), fill conv k [] x = List.replicate k x := by
    intro k
    induction k with
    | zero => intro x; rfl
    | succ k ih => intro x; rw [fill, ih]; rfl
  induction l with
  | nil =>
    intro junk
    simp only [List.length_nil, Nat.zero_add, List.map_nil, List.nil_append, fill, hw, Bool.false_eq_true, if_false, hk]
    rfl
  | cons a l ih =>
    intro junk
    have ha := h a (by simp)
    rw [List.length_cons, show l.length + 1 + (k + 1) = (l.length + (k + 1)) + 1 by omega]
    simp only [List.map_cons, List.cons_append, fill, ha, if_true]
    rw [ih (fun x hx => h x (by simp [hx])) _]

/-- **C119.** A line of numbers in which a text is not a number is no error: the numbers before it are read, and all others are
zero, also those after it. -/
theorem C119_not_a_number (showF : ℚ → Txt) (l l' : List ℚ) (w c : Txt) (junk : ℚ)
    (h : ∀ x ∈ l ++ l', Token (showF x) ∧ stod (showF x) = .ok x) (hw : Token w) (e : Err) (hbad : stod w = .error e) :
    array toReal junk ((l.length + 1 + l'.length : ℕ) : ℤ) (line (l.map showF ++ w :: l'.map showF) c) =
      .ok (l ++ List.replicate (1 + l'.length) 0) := by
  unfold array
  rw [if_neg (by omega), Int.toNat_natCast, words_line]
  · have := fill_fail toReal showF id l w (l'.map showF ++ ['#'] :: words c) 0 (by unfold toReal; rw [hbad]) l'.length
      (fun x hx => by unfold toReal; rw [(h x (by simp [hx])).2]; rfl) junk
    rw [List.map_id] at this
    rw [show l.length + 1 + l'.length = l.length + (l'.length + 1) by omega, Nat.add_comm 1]
    rw [List.append_assoc, List.cons_append, this]
  · intro t ht
    rcases List.mem_append.1 ht with ht | ht
    · obtain ⟨x, hx, rfl⟩ := List.mem_map.1 ht
      exact (h x (by simp [hx])).1
    · rcases List.mem_cons.1 ht with rfl | ht
      · exact hw
      · obtain ⟨x, hx, rfl⟩ := List.mem_map.1 ht
        exact (h x (by simp [hx])).1

theorem toReal_ok {t : Txt} {x : ℚ} (h : stod t = .ok x) : toReal t = (x, true) := by
  unfold toReal
  rw [h]

theorem gaussians_lines (nl : Bool) (junk : ℚ) (showF : ℚ → Txt) (c : Txt) (ps : List (List ℚ))
    (rest : List Txt) (h : ∀ p ∈ ps, ∀ x ∈ p, Token (showF x) ∧ stod (showF x) = .ok x)
    (h2 : ∀ p ∈ ps, p.length = 2) :
    gaussians nl junk ps.length (fresh nl ((ps.map fun p => line (p.map showF) c) ++ rest)) =
      (ps, fresh nl rest) := by
  induction ps with
  | nil => rfl
  | cons p ps ih =>
    have e := fill_line toReal showF id p c junk fun x hx =>
      ⟨(h p (by simp) x hx).1, toReal_ok (h p (by simp) x hx).2⟩
    rw [h2 p (by simp), List.map_id] at e
    simp only [List.length_cons, List.map_cons, List.cons_append, gaussians, getline_fresh, e]
    rw [ih (fun q hq => h q (by simp [hq])) fun q hq => h2 q (by simp [hq])]

theorem pairLoop_lines' (nl : Bool) (junk : ℤ) (com : String → Txt) (n : ℕ)
    (ps : List ((ℕ × ℕ) × List ℕ)) (hp : ∀ p ∈ ps, p.1.1 < n ∧ p.1.2 < n) (hk : (Dict.keys ps).Nodup)
    (rest : List Txt) (tab : List (List (List ℤ))) (hn : tab.length = n)
    (hr : ∀ r ∈ tab, r.length = n) :
    ∃ tab', pairLoop nl junk ps.length
        (fresh nl (ps.flatMap (Spec.Legacy.pairLines com) ++ rest)) tab =
        .ok (tab', fresh nl rest) ∧
      tab'.length = n ∧ (∀ r ∈ tab', r.length = n) ∧
      ∀ a b : ℕ, (tab'[a]?).bind (fun r => r[b]?) =
        match Dict.get? ps (a, b) with
        | some v => some (v.map Int.ofNat)
        | none => (tab[a]?).bind (fun r => r[b]?) := by
  induction ps generalizing tab with
  | nil => exact ⟨tab, rfl, hn, hr, fun _ _ => rfl⟩
  | cons p ps ih =>
    obtain ⟨h1, h2⟩ := hp p (by simp)
    have hk' : (Dict.keys ps).Nodup := by
      have : (p.1 :: Dict.keys ps).Nodup := hk
      exact (List.nodup_cons.1 this).2
    have hk1 : p.1 ∉ Dict.keys ps := by
      have : (p.1 :: Dict.keys ps).Nodup := hk
      exact (List.nodup_cons.1 this).1
    obtain ⟨t1, e1, e2, e3, e4⟩ := put2_ok tab n p.1.1 p.1.2 hn hr h1 h2 (p.2.map Int.ofNat)
    obtain ⟨t2, f1, f2, f3, f4⟩ := ih (fun q hq => hp q (by simp [hq])) hk' t1 e2 e3
    have k3 : fill toInt 3 (words (line [num p.1.1, num p.1.2, num p.2.length] (com "pair"))) junk =
        [(p.1.1 : ℤ), (p.1.2 : ℤ), (p.2.length : ℤ)] := by
      have := fill_line toInt num Int.ofNat [p.1.1, p.1.2, p.2.length] (com "pair") junk fun x _ =>
        ⟨token_num x, toInt_num x⟩
      simpa using this
    have ki := array_line toInt num Int.ofNat p.2 (com "indices") junk (p.2.length : ℤ) rfl
      fun x _ => ⟨token_num x, toInt_num x⟩
    refine ⟨t2, ?_, f2, f3, ?_⟩
    · simp only [List.length_cons, List.flatMap_cons, Spec.Legacy.pairLines, List.cons_append,
        List.nil_append, pairLoop, getline_fresh, k3, List.getD_cons_succ, List.getD_cons_zero, ki,
        bind, Except.bind, e1]
      exact f1
    · intro a b
      rw [f4]
      have hget : Dict.get? (p :: ps) (a, b) =
          if p.1 = (a, b) then some p.2 else Dict.get? ps (a, b) := by
        obtain ⟨k, v⟩ := p
        by_cases hh : k = (a, b)
        · subst hh
          simp [Dict.get?]
        · simp [Dict.get?, hh]
      rw [hget]
      by_cases hab : p.1 = (a, b)
      · rw [if_pos hab]
        have : Dict.get? ps (a, b) = none := by
          rw [← hab]
          exact (Dict.get?_eq_none _ _).2 hk1
        rw [this]
        simp only
        rw [e4, if_pos]
        rw [hab]
        exact ⟨rfl, rfl⟩
      · rw [if_neg hab]
        cases hg : Dict.get? ps (a, b) with
        | some v => rfl
        | none =>
          simp only
          rw [e4, if_neg]
          rintro ⟨rfl, rfl⟩
          exact hab rfl

/-- What the C++ reader needs in addition: a comment of one word in the first line, a line with the
version if the features are invariants, two numbers per function, and a complete and valid table. -/
structure Ready (com : String → Txt) (f : File) : Prop where
  word : Token (com "elements")
  order : f.featureType = "gtinv" → f.orderMaxL.length + 1 = f.order
  version : f.featureType = "gtinv" → f.version = some 1 ∨ f.version = some 2
  params : ∀ p ∈ f.pairParams, p.length = 2
  mass : f.mass.length = f.elements.length
  pairs : ∀ ps, f.pairs = some ps →
    ps ≠ [] ∧ ∀ p ∈ ps, p.1.1 < f.elements.length ∧ p.1.2 < f.elements.length

theorem getLast_ws {vs : List Txt} {c : Txt} (hc : Token c) :
    ((line vs c).getLast?.all isWs) = false := by
  unfold line
  obtain ⟨x, c', rfl⟩ : ∃ c' x, c = c' ++ [x] := by
    rcases List.eq_nil_or_concat c with h | ⟨l, x, h⟩
    · exact absurd h hc.1
    · exact ⟨l, x, by simpa using h⟩
  have hx := hc.2 c' (by simp)
  rw [show blanks vs ++ ' ' :: '#' :: ' ' :: (x ++ [c']) = (blanks vs ++ ' ' :: '#' :: ' ' :: x) ++ [c']
    by simp, List.getLast?_append]
  simp [isWs, hx.1, hx.2.1]

theorem words_token {c : Txt} (hc : Token c) : words c = [c] := by
  unfold words
  rw [pieces_none (fun x hx => by simp [isWs, (hc.2 x hx).1, (hc.2 x hx).2.1])]
  simp [hc.1]

theorem readAll_line {vs : List Txt} (h : ∀ t ∈ vs, Token t) {c : Txt} (hc : Token c) :
    readAll (line vs c) = vs ++ [['#'], c] := by
  have e : words (line vs c) = vs ++ [['#'], c] := by rw [words_line h, words_token hc]
  have g : readAll (line vs c) = if ((line vs c).getLast?.all isWs) = true then
      words (line vs c) ++ [(words (line vs c)).getLast?.getD []] else words (line vs c) := rfl
  rw [g, getLast_ws hc, if_neg (by decide), e]

theorem elements_eq (l : Txt) (w : List Txt) (h : readAll l = w) (hlen : ¬ w.length < 2) :
    elements l = .ok (has "# element" l, w.take (w.length - 2)) := by
  subst h
  exact if_neg hlen

theorem elements_line {vs : List Txt} (h : ∀ t ∈ vs, Token t) {c : Txt} (hc : Token c) :
    elements (line vs c) = .ok (has "# element" (line vs c), vs) := by
  have ht : (vs ++ [['#'], c]).take ((vs ++ [['#'], c]).length - 2) = vs := by simp
  have hlen : ¬ (vs ++ [['#'], c]).length < 2 := by simp
  have := elements_eq _ _ (readAll_line h hc) hlen
  rw [ht] at this
  exact this

theorem allParams_get (n m i j : ℕ) (hi : i < n) (hj : j < n) :
    ((allParams n m)[i]?).bind (fun r => r[j]?) =
      some (if i ≤ j then (List.range m).map Int.ofNat else []) := by
  unfold allParams
  rw [List.getElem?_map, List.getElem?_range hi]
  simp only [Option.map_some, Option.bind_some]
  rw [List.getElem?_map, List.getElem?_range hj]
  rfl

theorem allPairs_get (f : File) (i j : ℕ) (hj : j < f.elements.length) :
    Dict.get? (allPairs f) (i, j) =
      if i ≤ j then some (List.range f.pairParams.length) else none := by
  have hmem := mem_combos f.elements.length i j
  split
  · rename_i h
    have : ((i, j), List.range f.pairParams.length) ∈ allPairs f :=
      List.mem_map.2 ⟨(i, j), hmem.2 ⟨h, hj⟩, rfl⟩
    cases hg : Dict.get? (allPairs f) (i, j) with
    | none =>
      rw [Dict.get?_eq_none] at hg
      exact absurd (List.mem_map.2 ⟨_, this, rfl⟩) hg
    | some v =>
      have := Dict.mem_of_get? hg
      obtain ⟨k, _, hk⟩ := List.mem_map.1 this
      rw [Prod.mk.injEq] at hk
      rw [hk.2]
  · rename_i h
    rw [Dict.get?_eq_none]
    intro hm
    obtain ⟨x, hx, e⟩ := List.mem_map.1 hm
    obtain ⟨k, hk, rfl⟩ := List.mem_map.1 hx
    simp only at e
    subst e
    exact h (hmem.1 hk).1

theorem conditional_lines (nl : Bool) (junk : ℤ) (com : String → Txt) (f : File)
    (hr : Ready com f) (ht : f.types.isSome → f.pairs.isSome)
    (hk : ∀ ps, f.pairs = some ps → (Dict.keys ps).Nodup) :
    ∃ tab s, conditional nl junk f.elements.length f.pairParams.length
        (fresh nl (pairSection com f ++ typeSection com f)) = .ok (tab, s) ∧
      tab.length = f.elements.length ∧
      ∀ i j : ℕ, i < f.elements.length → j < f.elements.length →
        (tab[i]?).bind (fun r => r[j]?) =
          some (((Dict.get? (f.pairs.getD (allPairs f)) (i, j)).getD []).map Int.ofNat) := by
  unfold pairSection
  cases hp : f.pairs with
  | some ps =>
    obtain ⟨hne, hin⟩ := hr.pairs ps hp
    obtain ⟨tab, h1, h2, _, h4⟩ := pairLoop_lines' nl junk com f.elements.length ps hin (hk ps hp)
      (typeSection com f) (List.replicate f.elements.length (List.replicate f.elements.length []))
      (by simp) (by intro r h; rw [List.eq_of_mem_replicate h]; simp)
    refine ⟨tab, fresh nl (typeSection com f), ?_, h2, ?_⟩
    · unfold conditional
      have hpos : 0 < ps.length := List.length_pos_of_ne_nil hne
      have hnil : ps.flatMap (Spec.Legacy.pairLines com) ≠ [] := by
        cases ps with
        | nil => exact absurd rfl hne
        | cons a l => simp [Spec.Legacy.pairLines]
      simp only [List.cons_append, getline_fresh, value_num, Int.toNat_natCast]
      rw [if_pos ⟨by simp [fresh, hnil], by omega⟩]
      exact h1
    · intro i j hi hj
      rw [h4]
      simp only [Option.getD_some]
      cases Dict.get? ps (i, j) with
      | some v => rfl
      | none => simp [List.getElem?_replicate, hi, hj]
  | none =>
    have htn : f.types = none := by
      cases h : f.types with
      | none => rfl
      | some t =>
        have := ht (by rw [h]; rfl)
        rw [hp] at this
        cases this
    refine ⟨allParams f.elements.length f.pairParams.length, ⟨[], true⟩, ?_, by simp [allParams], ?_⟩
    · unfold conditional typeSection
      rw [htn]
      simp only [List.append_nil, getline_end]
      rw [if_neg (by simp)]
    · intro i j hi hj
      rw [allParams_get _ _ _ _ hi hj, Option.getD_none, allPairs_get f i j hj]
      split <;> rfl

theorem parse_lines (nl : Bool) (junk : ℤ) (junkF : ℚ) (showF : ℚ → Txt) (com : String → Txt)
    (f : File)
    (hF : ∀ x, x = f.cutoff ∨ x ∈ f.coeffs ∨ x ∈ f.scales ∨ x ∈ f.mass ∨
      (∃ p ∈ f.pairParams, x ∈ p) → Token (showF x) ∧ stod (showF x) = .ok x)
    (hel : ∀ e ∈ f.elements, Token e.toList) (hpt : Token f.pairType.toList)
    (hft : Token f.featureType.toList) (hr : Ready com f) (hl : f.coeffs.length = f.scales.length)
    (rest : List Txt) (v : Option (ℤ × List ℤ × ℤ)) (s s' : Inp) (tab : List (List (List ℤ)))
    (hv : version nl junk (if f.featureType = "gtinv" then
      some ((f.order : ℤ), f.orderMaxL.map Int.ofNat) else none) (fresh nl rest) = (v, s))
    (hc : conditional nl junk f.elements.length f.pairParams.length s = .ok (tab, s')) :
    parse nl junk junkF (head showF com f ++ rest) =
      .ok ⟨f.elements.map String.toList, f.cutoff, f.pairType.toList, f.featureType.toList,
        f.modelType, f.maxP, f.maxL, v, List.zipWith (fun r s => r * (2 / s)) f.coeffs f.scales,
        f.pairParams, f.mass, tab⟩ := by
  have many : ∀ (l : List ℚ) (c : Txt) (n : ℤ), n = l.length →
      (∀ x ∈ l, Token (showF x) ∧ stod (showF x) = .ok x) →
      array toReal junkF n (line (l.map showF) c) = .ok l := by
    intro l c n hn h
    have := array_line toReal showF id l c junkF n hn fun x hx => ⟨(h x hx).1, toReal_ok (h x hx).2⟩
    simpa using this
  have h1 : elements (line (f.elements.map String.toList) (com "elements")) =
      .ok (has "# element" (line (f.elements.map String.toList) (com "elements")),
        f.elements.map String.toList) := elements_line (by
    intro t ht
    obtain ⟨e, he, rfl⟩ := List.mem_map.1 ht
    exact hel e he) hr.word
  have h2 : value toReal junkF (line [showF f.cutoff] (com "cutoff")) = f.cutoff := by
    rw [value_line _ _ _ _ (hF _ (Or.inl rfl)).1, toReal_ok (hF _ (Or.inl rfl)).2]
  have h3 := many f.coeffs (com "coeffs") f.coeffs.length rfl fun x hx => hF x (Or.inr (Or.inl hx))
  have h4 := many f.scales (com "scales") f.coeffs.length (by rw [hl])
    fun x hx => hF x (Or.inr (Or.inr (Or.inl hx)))
  have h5 : fill toReal f.elements.length (words (line (f.mass.map showF) (com "mass"))) junkF =
      f.mass := by
    have := fill_line toReal showF id f.mass (com "mass") junkF fun x hx =>
      ⟨(hF x (Or.inr (Or.inr (Or.inr (Or.inl hx))))).1,
        toReal_ok (hF x (Or.inr (Or.inr (Or.inr (Or.inl hx))))).2⟩
    rw [hr.mass] at this
    simpa using this
  have h6 : value toStr [] (line [f.pairType.toList] (com "pair_type")) = f.pairType.toList :=
    value_line _ _ _ _ hpt
  have h7 : value toStr [] (line [f.featureType.toList] (com "feature_type")) =
      f.featureType.toList := value_line _ _ _ _ hft
  have h8 := fun r => gaussians_lines nl junkF showF (com "pair_params") f.pairParams r
    (fun p hp x hx => hF x (Or.inr (Or.inr (Or.inr (Or.inr ⟨p, hp, hx⟩))))) hr.params
  have hneg : ¬ ((f.pairParams.length : ℤ) < 0) := by omega
  by_cases hg : f.featureType = "gtinv"
  · have hg' : f.featureType.toList = "gtinv".toList := by rw [hg]
    have h9 := array_line toInt num Int.ofNat f.orderMaxL (com "gtinv_max_l") junk
      ((f.order : ℤ) - 1) (by have := hr.order hg; omega) fun x _ => ⟨token_num x, toInt_num x⟩
    rw [if_pos hg] at hv
    simp only [parse, head, if_pos hg, List.cons_append, List.nil_append, List.append_assoc,
      getline_first, getline_fresh, h1, h2, h3, h4, h5, h6, h7, h8, value_num, gtinvParams, if_pos hg',
      h9, bind, Except.bind, pure, Except.pure, if_neg hneg, Int.toNat_natCast, List.length_map, hv, hc]
  · have hg' : ¬ f.featureType.toList = "gtinv".toList := fun h => hg (String.toList_inj.1 h)
    rw [if_neg hg] at hv
    simp only [parse, head, if_neg hg, List.cons_append, List.nil_append, List.append_assoc,
      getline_first, getline_fresh, h1, h2, h3, h4, h5, h6, h7, h8, value_num, gtinvParams, if_neg hg',
      bind, Except.bind, pure, Except.pure, if_neg hneg, Int.toNat_natCast, List.length_map, hv, hc]

theorem twice (a b : List ℚ) : List.zipWith (fun r s => r * (2 / s)) a b =
    (List.zipWith (· / ·) a b).map (2 * ·) := by
  rw [List.map_zipWith]
  congr 1
  funext r s
  ring

/-- The two readers agree: same elements, cutoff, types, orders, functions and masses, the same table of
functions for each pair of types, and the coefficients of C++ are twice those of Python. -/
structure Agree (r : Loaded) (p : Pot) : Prop where
  elements : p.elements = r.obj.cur.single.elements.map String.toList
  cutoff : p.cutoff = r.obj.cur.mod.cutoff
  pairType : p.pairType = r.obj.cur.mod.pairType.toList
  featureType : p.featureType = r.obj.cur.mod.featureType.toList
  modelType : p.modelType = r.obj.cur.mod.modelType
  maxP : p.maxP = r.obj.cur.mod.maxP
  maxL : r.obj.cur.mod.featureType = "gtinv" → p.maxL = r.obj.cur.mod.maxL
  gtinv : p.gtinv = if r.obj.cur.mod.featureType = "gtinv" then
    some ((r.obj.cur.mod.gtinv.order : ℤ), r.obj.cur.mod.gtinv.maxL.map Int.ofNat,
      (r.obj.cur.mod.gtinv.version : ℤ)) else none
  coeffs : p.coeffs = r.coeffs.map (2 * ·)
  params : p.params = r.obj.cur.mod.pairParams
  mass : p.mass = r.mass
  rows : p.pairs.length = r.obj.cur.single.nType
  pairs : ∀ i j : ℕ, i < r.obj.cur.single.nType → j < r.obj.cur.single.nType →
    (p.pairs[i]?).bind (fun row => row[j]?) =
      some (((Dict.get? r.obj.cur.single.pairs (i, j)).getD []).map Int.ofNat)

/-- **C119.** The C++ reader and the Python reader of old potential files agree on every file with a
version line for invariants and a comment of one word in its first line, with or without the sections
of pairs and of types, and with or without a final end of line.  Nothing depends on memory that is not
initialised. -/
theorem C119_same (nl : Bool) (junk : ℤ) (junkF : ℚ) (showF : ℚ → Txt) (com : String → Txt)
    (f : File)
    (hF : ∀ x, x = f.cutoff ∨ x ∈ f.coeffs ∨ x ∈ f.scales ∨ x ∈ f.mass ∨
      (∃ p ∈ f.pairParams, x ∈ p) → Token (showF x) ∧ stod (showF x) = .ok x)
    (hel : ∀ e ∈ f.elements, Token e.toList) (hpt : Token f.pairType.toList)
    (hft : Token f.featureType.toList) (hm : Marked com f) (hr : Ready com f)
    (hk : ∀ ps, f.pairs = some ps → (Dict.keys ps).Nodup)
    (hl : f.coeffs.length = f.scales.length) :
    ∃ r p, loadLegacy (Spec.Legacy.lines showF com f) = .ok r ∧
      parse nl junk junkF (Spec.Legacy.lines showF com f) = .ok p ∧ Agree r p := by
  obtain ⟨tab, s', hc, hrows, htab⟩ := conditional_lines nl junk com f hr hm.order hk
  have hload := C36_load_partial showF com f hF hel hpt hft hm hk
    (fun h => by have := hr.order h; omega) hl
  have hver : version nl junk (if f.featureType = "gtinv" then
      some ((f.order : ℤ), f.orderMaxL.map Int.ofNat) else none)
      (fresh nl (versionLines com f ++ (pairSection com f ++ typeSection com f))) =
      (if f.featureType = "gtinv" then
        some ((f.order : ℤ), f.orderMaxL.map Int.ofNat, ((f.version.getD 1 : ℕ) : ℤ)) else none,
        fresh nl (pairSection com f ++ typeSection com f)) := by
    by_cases hg : f.featureType = "gtinv"
    · rw [if_pos hg, if_pos hg]
      unfold versionLines version
      rcases hr.version hg with h | h <;>
        · rw [h]
          simp only [List.cons_append, List.nil_append, getline_fresh, value_num, Option.getD_some]
          norm_num
    · rw [if_neg hg, if_neg hg]
      unfold versionLines version
      rw [hm.noVersion hg]
      rfl
  refine ⟨_, _, hload, parse_lines nl junk junkF showF com f hF hel hpt hft hr hl _ _ _ s' tab hver hc,
    ?_⟩
  constructor
  · rfl
  · rfl
  · rfl
  · rfl
  · rfl
  · rfl
  · intro h
    simp only [fieldsOf] at h ⊢
    rw [if_pos h]
  · simp only [fieldsOf]
    by_cases h : f.featureType = "gtinv"
    · simp only [if_pos h]
    · simp only [if_neg h]
  · exact twice _ _
  · rfl
  · rfl
  · exact hrows
  · intro i j hi hj
    exact htab i j hi hj

/-- **C119.** An old file without a version line and without further sections: the version of the
invariants that C++ uses is whatever an uninitialised variable holds, while Python uses 1.  The rest
agrees. -/
theorem C119_no_version (nl : Bool) (junk : ℤ) (junkF : ℚ) (showF : ℚ → Txt) (com : String → Txt)
    (f : File)
    (hF : ∀ x, x = f.cutoff ∨ x ∈ f.coeffs ∨ x ∈ f.scales ∨ x ∈ f.mass ∨
      (∃ p ∈ f.pairParams, x ∈ p) → Token (showF x) ∧ stod (showF x) = .ok x)
    (hel : ∀ e ∈ f.elements, Token e.toList) (hpt : Token f.pairType.toList)
    (hg : f.featureType = "gtinv") (hv : f.version = none) (hp : f.pairs = none)
    (ht : f.types = none) (hw : Token (com "elements")) (hord : f.orderMaxL.length + 1 = f.order)
    (h2 : ∀ p ∈ f.pairParams, p.length = 2) (hmass : f.mass.length = f.elements.length)
    (hl : f.coeffs.length = f.scales.length) :
    ∃ p, parse nl junk junkF (Spec.Legacy.lines showF com f) = .ok p ∧
      p.gtinv = some ((f.order : ℤ), f.orderMaxL.map Int.ofNat, if junk = 2 then 2 else 1) ∧
      p.coeffs = List.zipWith (fun c s => 2 * c / s) f.coeffs f.scales ∧
      ∀ i j : ℕ, i < f.elements.length → j < f.elements.length →
        (p.pairs[i]?).bind (fun row => row[j]?) =
          some (if i ≤ j then (List.range f.pairParams.length).map Int.ofNat else []) := by
  -- the version is read past the end of the file
  have hlines : Spec.Legacy.lines showF com f = head showF com f ++ [] := by
    simp [Spec.Legacy.lines, versionLines, pairSection, typeSection, hv, hp, ht]
  have hver : version nl junk (if f.featureType = "gtinv" then
      some ((f.order : ℤ), f.orderMaxL.map Int.ofNat) else none) (fresh nl []) =
      (some ((f.order : ℤ), f.orderMaxL.map Int.ofNat, if junk = 2 then 2 else 1), ⟨[], true⟩) := by
    rw [if_pos hg]
    unfold version
    simp only [getline_end]
    rfl
  have hcon : conditional nl junk f.elements.length f.pairParams.length ⟨[], true⟩ =
      .ok (allParams f.elements.length f.pairParams.length, ⟨[], true⟩) := by
    unfold conditional
    simp [getline]
  -- the other conditions do not involve the version: use a file with one
  let f' : File := { f with version := some 1 }
  have hr : Ready com f' := ⟨hw, fun _ => hord, fun _ => Or.inl rfl, h2, hmass, by
    intro ps h
    have : f.pairs = some ps := h
    rw [hp] at this
    cases this⟩
  have hft : Token f.featureType.toList := by rw [hg]; decide
  have := parse_lines nl junk junkF showF com f' hF hel hpt hft hr hl [] _ _ _ _ hver hcon
  refine ⟨⟨f.elements.map String.toList, f.cutoff, f.pairType.toList, f.featureType.toList,
    f.modelType, f.maxP, f.maxL,
    some ((f.order : ℤ), f.orderMaxL.map Int.ofNat, if junk = 2 then 2 else 1),
    List.zipWith (fun r s => r * (2 / s)) f.coeffs f.scales, f.pairParams, f.mass,
    allParams f.elements.length f.pairParams.length⟩, ?_, rfl, ?_, ?_⟩
  · rw [hlines]
    exact this
  · have e : (fun r s : ℚ => r * (2 / s)) = fun c s => 2 * c / s := by
      funext r s
      ring
    exact congrArg (fun g => List.zipWith g f.coeffs f.scales) e
  · intro i j hi hj
    exact allParams_get _ _ _ _ hi hj

/-- **C119.** Whatever the file, if C++ takes it for an old one, so does Python. -/
theorem C119_detect (nl : Bool) (lines : List Txt) (h : isLegacyCxx nl lines = .ok true) :
    isLegacy lines = true := by
  unfold isLegacyCxx at h
  cases lines with
  | nil => cases nl <;> revert h <;> decide +kernel
  | cons l r =>
    rw [getline_first] at h
    simp only [bind, Except.bind] at h
    unfold elements at h
    dsimp only at h
    split at h
    · cases h
    · rename_i e he
      split at he
      · cases he
      · cases he
        simp only [pure, Except.pure, Except.ok.injEq] at h
        unfold has at h
        have h := @of_decide_eq_true _ (List.instDecidableIsInfixOfDecidableEq _ _) h
        unfold isLegacy has
        refine @decide_eq_true _ (List.instDecidableIsInfixOfDecidableEq _ _) ?_
        have h0 : "# ele".toList <:+: "# element".toList := by decide +kernel
        exact h0.trans h

/-- **C119.** A file of the old format whose first comment is one word that begins with `element` is
recognised by C++, and by Python. -/
theorem C119_detect_old (nl : Bool) (showF : ℚ → Txt) (com : String → Txt) (f : File)
    (hel : ∀ e ∈ f.elements, Token e.toList) (hw : Token (com "elements"))
    (hp : "element".toList <+: com "elements") :
    isLegacyCxx nl (Spec.Legacy.lines showF com f) = .ok true ∧
      isLegacy (Spec.Legacy.lines showF com f) = true := by
  have h : isLegacyCxx nl (Spec.Legacy.lines showF com f) = .ok true := by
    have hin : "# element".toList <:+: line (f.elements.map String.toList) (com "elements") := by
      obtain ⟨t, ht⟩ := hp
      rw [← ht]
      exact ⟨blanks (f.elements.map String.toList) ++ [' '], t, by simp [line]⟩
    unfold isLegacyCxx Spec.Legacy.lines head
    simp only [List.cons_append, getline_first]
    rw [elements_line (by
      intro t ht
      obtain ⟨e, he, rfl⟩ := List.mem_map.1 ht
      exact hel e he) hw]
    simp only [bind, Except.bind, pure, Except.pure]
    have : has "# element" (line (f.elements.map String.toList) (com "elements")) = true := by
      unfold has
      exact @decide_eq_true _ (List.instDecidableIsInfixOfDecidableEq _ _) hin
    rw [this]
  exact ⟨h, C119_detect nl _ h⟩

/-- The demonstration file of C36 with a version line and a section of types. -/
def fullFile : File := { demoFile with version := some 2, types := some (true, [0, 1]) }

theorem demo_tokens : ∀ x, x = demoFile.cutoff ∨ x ∈ demoFile.coeffs ∨ x ∈ demoFile.scales ∨
    x ∈ demoFile.mass ∨ (∃ p ∈ demoFile.pairParams, x ∈ p) →
    Token (demoF x) ∧ stod (demoF x) = .ok x := by
  intro x hx
  have : x = 6 ∨ x = 1 ∨ x = 0 ∨ x = 1 / 2 := by
    rcases hx with h | h | h | h | ⟨p, hp, h⟩
    · exact Or.inl h
    · simp only [demoFile, List.mem_cons, List.not_mem_nil, or_false] at h
      tauto
    · simp only [demoFile, List.mem_cons, List.not_mem_nil, or_false] at h
      tauto
    · simp only [demoFile, List.mem_cons, List.not_mem_nil, or_false] at h
      tauto
    · simp only [demoFile, List.mem_cons, List.not_mem_nil, or_false] at hp
      rcases hp with rfl | rfl <;> simp only [List.mem_cons, List.not_mem_nil, or_false] at h <;> tauto
  rcases this with rfl | rfl | rfl | rfl <;> decide +kernel

/-- The hypotheses of `C119_same` hold for a concrete file with all the sections. -/
example : ∃ r p, loadLegacy (Spec.Legacy.lines demoF demoCom fullFile) = .ok r ∧
    parse false 5 7 (Spec.Legacy.lines demoF demoCom fullFile) = .ok p ∧ Agree r p := by
  refine C119_same false 5 7 demoF demoCom fullFile demo_tokens (by decide +kernel) (by decide +kernel)
    (by decide +kernel) ⟨by decide +kernel, by decide +kernel, by decide +kernel, by decide, ?_, by decide⟩
    ⟨by decide +kernel, by decide, fun _ => Or.inr rfl, by decide, by decide, ?_⟩ ?_ rfl
  · intro ps hps
    simp only [fullFile, demoFile, Option.some.injEq] at hps
    subst hps
    decide +kernel
  · intro ps hps
    simp only [fullFile, demoFile, Option.some.injEq] at hps
    subst hps
    decide +kernel
  · intro ps hps
    simp only [fullFile, demoFile, Option.some.injEq] at hps
    subst hps
    decide +kernel

/-- The hypotheses of `C119_no_version` hold for a concrete file, and of `C119_detect_old`. -/
example : (∃ p, parse true 2 0 (Spec.Legacy.lines demoF demoCom { demoFile with pairs := none }) =
    .ok p ∧ p.gtinv = some (3, [4, 4], 2)) ∧
    isLegacyCxx true (Spec.Legacy.lines demoF demoCom demoFile) = .ok true := by
  obtain ⟨p, h1, h2, _⟩ := C119_no_version true 2 0 demoF demoCom { demoFile with pairs := none }
    demo_tokens (by decide +kernel) (by decide +kernel) rfl rfl rfl rfl (by decide +kernel) rfl
    (by decide) rfl rfl
  exact ⟨⟨p, h1, h2⟩, (C119_detect_old true demoF demoCom demoFile (by decide +kernel)
    (by decide +kernel) (by decide +kernel)).1⟩

/-- An old file without a version line: the version depends on memory that is not initialised, and may
differ from that of Python. -/
theorem C119_version_violation :
    ((parse true 2 0 (Spec.Legacy.lines demoF demoCom { demoFile with pairs := none })).toOption.bind
        (·.gtinv)) = some (3, [4, 4], 2) ∧
    ((parse true 0 0 (Spec.Legacy.lines demoF demoCom { demoFile with pairs := none })).toOption.bind
        (·.gtinv)) = some (3, [4, 4], 1) ∧
    ((loadLegacy (Spec.Legacy.lines demoF demoCom { demoFile with pairs := none })).toOption.map
        (·.obj.cur.mod.gtinv.version)) = some 1 := by
  refine ⟨by decide +kernel, by decide +kernel, by decide +kernel⟩

/-- Without a version line the number of pairs is taken for the version, and the table of functions is
lost: C++ uses all functions for all pairs, Python the table of the file. -/
theorem C119_pairs_violation :
    ((parse true 0 0 (Spec.Legacy.lines demoF demoCom demoFile)).toOption.map (·.pairs)) =
      some [[[0, 1], [0, 1]], [[], [0, 1]]] ∧
    ((loadLegacy (Spec.Legacy.lines demoF demoCom demoFile)).toOption.map
        (·.obj.cur.single.pairs)) = some [((0, 0), [0, 1]), ((0, 1), [1]), ((1, 1), [0])] := by
  refine ⟨by decide +kernel, by decide +kernel⟩

/-- Comments of two words, or a blank at the end of the first line: `#` becomes an element. -/
theorem C119_comment_violation :
    (elements (line ["Sr".toList, "O".toList] "element names".toList)).toOption =
      some (true, ["Sr".toList, "O".toList, "#".toList]) ∧
    (elements (line ["Sr".toList, "O".toList] "elements ".toList)).toOption =
      some (true, ["Sr".toList, "O".toList, "#".toList]) ∧
    (readMany pyStr (line ["Sr".toList, "O".toList] "element names".toList)).toOption =
      some ["Sr", "O"] := by
  refine ⟨by decide +kernel, by decide +kernel, by decide +kernel⟩

/-- A first comment that Python recognises and C++ does not. -/
theorem C119_detect_violation :
    isLegacy [line ["Sr".toList] "eles".toList] = true ∧
    (isLegacyCxx true [line ["Sr".toList] "eles".toList]).toOption = some false := by
  refine ⟨by decide +kernel, by decide +kernel⟩

/-- An empty table of pairs: Python uses no functions, C++ all of them. -/
theorem C119_empty_table_violation :
    ((parse true 0 0 (Spec.Legacy.lines demoF demoCom { fullFile with pairs := some [] })).toOption.map
        (·.pairs)) = some [[[0, 1], [0, 1]], [[], [0, 1]]] ∧
    ((loadLegacy (Spec.Legacy.lines demoF demoCom { fullFile with pairs := some [] })).toOption.map
        (·.obj.cur.single.pairs)) = some [] := by
  refine ⟨by decide +kernel, by decide +kernel⟩

/-- `nan` among the numbers of a line. -/
example : (array toReal 7 4 "1.5 nan 2.5 3.5 # masses".toList).toOption = some [3 / 2, 0, 0, 0] := by
  decide +kernel

end Verif.LegacyCxx
