import Verif.Lemmas.MlpYaml

/-!
# Lemmas on the C++ reader of potential files
-/

namespace Verif.MlpYaml
open Verif.Params

/-- A token the writer can print inside a list or after a colon. -/
def Clean (t : Txt) : Prop :=
  t ≠ [] ∧ ∀ c ∈ t, c ≠ ' ' ∧ c ≠ '\t' ∧ c ≠ ',' ∧ c ≠ ':' ∧ c ≠ '[' ∧ c ≠ ']'

instance (t : Txt) : Decidable (Clean t) := inferInstanceAs (Decidable (_ ∧ _))

theorem Clean.ws {t : Txt} (h : Clean t) : ∀ c ∈ t, isWs c = false := by
  intro c hc
  have := h.2 c hc
  simp [isWs, this.1, this.2.1]

theorem clean_digits {t : Txt} (hne : t ≠ []) (h : ∀ c ∈ t, c.isDigit = true) : Clean t :=
  ⟨hne, fun c hc => ⟨digit_ne (h c hc) (by decide), digit_ne (h c hc) (by decide),
    digit_ne (h c hc) (by decide), digit_ne (h c hc) (by decide), digit_ne (h c hc) (by decide),
    digit_ne (h c hc) (by decide)⟩⟩

theorem clean_showNat (n : ℕ) : Clean (showNat n) := clean_digits (showNat_ne_nil n) (showNat_digit n)

theorem clean_fmtE (x : ℚ) : Clean (fmtE x) := by
  by_cases h : x = 0
  · subst h
    decide +kernel
  · have hp := abs_pos.2 h
    obtain ⟨h1, h2, _⟩ := sig16_spec hp
    obtain ⟨d, ds, hd, hds, hlen, hval, hm⟩ := showMant_spec _ h1 h2
    obtain ⟨es, hne, hes, heval, hexp⟩ := showExp_spec (sig16 |x|).2
    have key : ∀ c : Char, c.isDigit = true ∨ c = '-' ∨ c = '+' ∨ c = '.' ∨ c = 'e' →
        c ≠ ' ' ∧ c ≠ '\t' ∧ c ≠ ',' ∧ c ≠ ':' ∧ c ≠ '[' ∧ c ≠ ']' := by
      rintro c (hc | rfl | rfl | rfl | rfl)
      · exact (clean_digits (t := [c]) (by simp) (by simpa using hc)).2 c (by simp)
      all_goals decide
    unfold fmtE
    rw [if_neg h, hm, hexp]
    refine ⟨by simp, ?_⟩
    intro c hc
    apply key
    simp only [List.mem_append, List.mem_cons] at hc
    rcases hc with (hc | rfl | rfl | hc) | rfl | rfl | hc
    · split at hc
      · simp only [List.mem_singleton] at hc
        exact Or.inr (Or.inl hc)
      · simp at hc
    · exact Or.inl hd
    · simp
    · exact Or.inl (hds c hc)
    · simp
    · split <;> simp
    · exact Or.inl (hes c hc)

/-! ## Splitting -/

theorem pieces_none {p : Char → Bool} {s : Txt} (h : ∀ c ∈ s, p c = false) : pieces p s = [s] := by
  induction s with
  | nil => rfl
  | cons c s ih =>
    simp [pieces, h c (by simp), ih fun d hd => h d (by simp [hd])]

theorem pieces_sep {p : Char → Bool} {a r : Txt} {c : Char} (ha : ∀ c ∈ a, p c = false)
    (hc : p c = true) : pieces p (a ++ c :: r) = a :: pieces p r := by
  induction a with
  | nil => simp [pieces, hc]
  | cons d a ih =>
    simp [pieces, ha d (by simp), ih fun e he => ha e (by simp [he])]

theorem pieces_spaces {p : Char → Bool} (hp : p ' ' = true) (n : ℕ) (s : Txt) :
    (pieces p (List.replicate n ' ' ++ s)).filter (· ≠ []) = (pieces p s).filter (· ≠ []) := by
  induction n with
  | zero => rfl
  | succ n ih =>
    rw [List.replicate_succ, List.cons_append]
    simp only [pieces, hp, if_true]
    rw [List.filter_cons_of_neg (by simp), ih]

theorem words_clean {t : Txt} (h : Clean t) : words t = [t] := by
  unfold words
  rw [pieces_none h.ws]
  simp [h.1]

theorem words_pad {t : Txt} (h : Clean t) (n : ℕ) : words (List.replicate n ' ' ++ t) = [t] := by
  unfold words
  rw [pieces_spaces (by decide)]
  exact words_clean h

theorem joinComma_ne {l : List Txt} (hne : l ≠ []) (h : ∀ t ∈ l, Clean t) : joinComma l ≠ [] := by
  cases l with
  | nil => exact absurd rfl hne
  | cons a l =>
    cases l with
    | nil => exact (h a (by simp)).1
    | cons b l => simp [joinComma]

theorem mem_joinComma {l : List Txt} (h : ∀ t ∈ l, Clean t) {c : Char} (hc : c ∈ joinComma l) :
    c ≠ ':' ∧ c ≠ '[' ∧ c ≠ ']' := by
  induction l with
  | nil => simp [joinComma] at hc
  | cons a l ih =>
    have ha := (h a (by simp)).2
    cases l with
    | nil =>
      have := ha c hc
      exact ⟨this.2.2.2.1, this.2.2.2.2.1, this.2.2.2.2.2⟩
    | cons b l =>
      simp only [joinComma, List.mem_append, List.mem_cons] at hc
      rcases hc with hc | rfl | rfl | hc
      · have := ha c hc
        exact ⟨this.2.2.2.1, this.2.2.2.2.1, this.2.2.2.2.2⟩
      · decide
      · decide
      · exact ih (fun t ht => h t (by simp [ht])) hc

/-- Commas become spaces. -/
def uncomma (s : Txt) : Txt := s.map fun c => if c = ',' then ' ' else c

theorem uncomma_clean {t : Txt} (h : Clean t) : uncomma t = t := by
  unfold uncomma
  conv_rhs => rw [← List.map_id t]
  apply List.map_congr_left
  intro c hc
  simp [(h.2 c hc).2.2.1]

theorem words_join {l : List Txt} (h : ∀ t ∈ l, Clean t) : words (uncomma (joinComma l)) = l := by
  induction l with
  | nil => rfl
  | cons a l ih =>
    cases l with
    | nil =>
      rw [joinComma, uncomma_clean (h a (by simp)), words_clean (h a (by simp))]
    | cons b l =>
      have ha := h a (by simp)
      have e : uncomma (joinComma (a :: b :: l)) = a ++ ' ' :: ' ' :: uncomma (joinComma (b :: l)) := by
        have := uncomma_clean ha
        unfold uncomma at this ⊢
        rw [joinComma, List.map_append, this]
        simp
      rw [e]
      unfold words
      rw [pieces_sep ha.ws (by decide)]
      have e2 : pieces isWs (' ' :: uncomma (joinComma (b :: l))) =
          [] :: pieces isWs (uncomma (joinComma (b :: l))) := by
        simp [pieces, isWs]
      rw [e2, List.filter_cons_of_pos (by simpa using ha.1), List.filter_cons_of_neg (by simp)]
      have := ih fun t ht => h t (by simp [ht])
      unfold words at this
      rw [this]

theorem joinComma_last {l : List Txt} (hne : l ≠ []) (h : ∀ t ∈ l, Clean t) :
    ∃ c, (uncomma (joinComma l)).getLast? = some c ∧ isWs c = false := by
  induction l with
  | nil => exact absurd rfl hne
  | cons a l ih =>
    have ha := h a (by simp)
    cases l with
    | nil =>
      rw [joinComma, uncomma_clean ha, List.getLast?_eq_some_getLast ha.1]
      exact ⟨_, rfl, ha.ws _ (List.getLast_mem ha.1)⟩
    | cons b l =>
      obtain ⟨c, h1, h2⟩ := ih (by simp) fun t ht => h t (by simp [ht])
      refine ⟨c, ?_, h2⟩
      have e : uncomma (joinComma (a :: b :: l)) =
          uncomma a ++ ([' ', ' '] ++ uncomma (joinComma (b :: l))) := by
        simp [joinComma, uncomma]
      rw [e, List.getLast?_append, List.getLast?_append, h1]
      rfl

theorem readAll_join {l : List Txt} (hne : l ≠ []) (h : ∀ t ∈ l, Clean t) :
    readAll (uncomma (joinComma l)) = l := by
  obtain ⟨c, h1, h2⟩ := joinComma_last hne h
  unfold readAll
  simp only [words_join h, h1]
  simp [h2]

theorem splitList_list {pre : Txt} {l : List Txt} (hp : pre ≠ []) (hpb : ∀ c ∈ pre, c ≠ '[')
    (hne : l ≠ []) (h : ∀ t ∈ l, Clean t) : splitList (pre ++ showList l) = .ok l := by
  have hj := joinComma_ne hne h
  have hm : '[' ∈ pre ++ showList l := by simp [showList]
  have e1 : splitC '[' (pre ++ showList l) = [pre, joinComma l ++ [']']] := by
    unfold splitC showList
    rw [show pre ++ ('[' :: joinComma l ++ [']']) = pre ++ '[' :: (joinComma l ++ [']']) by simp,
      pieces_sep (fun c hc => by simpa using hpb c hc) (by decide), pieces_none]
    · simp [hp]
    · intro c hc
      rcases List.mem_append.1 hc with hc | hc
      · simpa using (mem_joinComma h hc).2.1
      · simp only [List.mem_singleton] at hc
        subst hc
        decide
  have e2 : splitC ']' (joinComma l ++ [']']) = [joinComma l] := by
    unfold splitC
    rw [pieces_sep (fun c hc => by simpa using (mem_joinComma h hc).2.2) (by decide)]
    simp [pieces, hj]
  unfold splitList
  rw [if_pos hm, e1]
  simp only [orErr, bind, Except.bind, List.getElem?_cons_succ, List.getElem?_cons_zero, e2, pure,
    Except.pure]
  congr 1
  exact readAll_join hne h

theorem splitList_scalar {t : Txt} (h : Clean t) (n : ℕ) :
    splitList (List.replicate n ' ' ++ t) = .ok [t] := by
  unfold splitList
  rw [if_neg, words_pad h]
  · rfl
  · intro hm
    rcases List.mem_append.1 hm with hm | hm
    · have := List.eq_of_mem_replicate hm
      exact absurd this (by decide)
    · exact (h.2 _ hm).2.2.2.2.1 rfl

/-- A line `key: value` splits at the colon. -/
theorem splitC_kv {key : String} {pad : ℕ} {val : Txt} (hk : key.toList ≠ [])
    (hkc : ∀ c ∈ key.toList, c ≠ ':') (hv : val ≠ []) (hvc : ∀ c ∈ val, c ≠ ':') :
    splitC ':' (kv key pad val) = [key.toList, List.replicate pad ' ' ++ val] := by
  unfold splitC kv
  rw [show key.toList ++ ':' :: List.replicate pad ' ' ++ val =
    key.toList ++ ':' :: (List.replicate pad ' ' ++ val) by simp,
    pieces_sep (fun c hc => by simpa using hkc c hc) (by decide), pieces_none]
  · simp [hk, hv]
  · intro c hc
    rcases List.mem_append.1 hc with hc | hc
    · have := List.eq_of_mem_replicate hc
      subst this
      decide
    · simpa using hvc c hc

theorem showList_colon {l : List Txt} (h : ∀ t ∈ l, Clean t) : ∀ c ∈ showList l, c ≠ ':' := by
  intro c hc
  simp only [showList, List.cons_append, List.mem_cons, List.mem_append, List.not_mem_nil, or_false]
    at hc
  rcases hc with rfl | hc | rfl
  · decide
  · exact (mem_joinComma h hc).1
  · decide

/-! ## The main loop -/

/-- The loop over `lines` from state `st` ends with `r`, if it may read all lines. -/
def Runs (lines : List Txt) (st : St) (r : Except Err St) : Prop :=
  ∀ f, lines.length ≤ f → parseLoop f lines st = r

theorem Runs.nil (st : St) : Runs [] st (.ok st) := by
  intro f _
  cases f <;> rfl

theorem Runs.blank {rest : List Txt} {st : St} {r : Except Err St} (h : Runs rest st r) :
    Runs ([] :: rest) st r := by
  intro f hf
  cases f with
  | zero => simp at hf
  | succ f =>
    have : splitC ':' [] = [] := by decide
    simp only [parseLoop, this]
    exact h f (by simpa using hf)

/-- The state after a line `key: value`. -/
def St.put (st : St) (key : String) (v : List Txt) : St :=
  { st with key := key.toList, params := st.params.set key.toList v }

theorem Runs.step {line : Txt} {rest rest' : List Txt} {st st' : St} {key : String} {w : Txt}
    {v : List Txt} {r : Except Err St} (hs : splitC ':' line = [key.toList, w])
    (hkey : Clean key.toList) (hw : splitList w = .ok v)
    (ha : assign (st.put key v) rest = .ok (st', rest')) (hl : rest'.length ≤ rest.length)
    (h : Runs rest' st' r) : Runs (line :: rest) st r := by
  intro f hf
  cases f with
  | zero => simp at hf
  | succ f =>
    have hf' : rest.length ≤ f := by simpa using hf
    simp only [parseLoop, hs, hw, words_clean hkey, List.head?_cons, Option.getD_some, bind,
      Except.bind]
    unfold St.put at ha
    rw [ha]
    exact h f (hl.trans hf')

theorem assign_plain {st : St} {rest : List Txt} (h1 : st.key ≠ "n_pair_params".toList)
    (h2 : st.key ≠ "n_type_pairs".toList) : assign st rest = .ok (st, rest) := by
  unfold assign
  rw [if_neg h1, if_neg h2]

theorem Runs.scalar {key : String} {pad : ℕ} {t : Txt} {rest : List Txt} {st : St}
    {r : Except Err St} (hkey : Clean key.toList) (ht : Clean t)
    (h1 : key.toList ≠ "n_pair_params".toList) (h2 : key.toList ≠ "n_type_pairs".toList)
    (h : Runs rest (st.put key [t]) r) : Runs (kv key pad t :: rest) st r :=
  Runs.step (splitC_kv hkey.1 (fun c hc => (hkey.2 c hc).2.2.2.1) ht.1
    fun c hc => (ht.2 c hc).2.2.2.1) hkey (splitList_scalar ht pad) (assign_plain h1 h2) (le_refl _) h

theorem Runs.list {key : String} {pad : ℕ} {l : List Txt} {rest : List Txt} {st : St}
    {r : Except Err St} (hkey : Clean key.toList) (hpad : 0 < pad) (hne : l ≠ [])
    (ht : ∀ t ∈ l, Clean t)
    (h1 : key.toList ≠ "n_pair_params".toList) (h2 : key.toList ≠ "n_type_pairs".toList)
    (h : Runs rest (st.put key l) r) : Runs (kv key pad (showList l) :: rest) st r :=
  Runs.step (splitC_kv hkey.1 (fun c hc => (hkey.2 c hc).2.2.2.1) (by simp [showList])
      (showList_colon ht)) hkey
    (splitList_list (by simpa using hpad.ne') (fun c hc => by
      rw [List.eq_of_mem_replicate hc]; decide) hne ht)
    (assign_plain h1 h2) (le_refl _) h

theorem parse2d_lines (ps : List (List Txt)) (hp : ∀ p ∈ ps, p ≠ [] ∧ ∀ t ∈ p, Clean t)
    (rest : List Txt) (acc : List (List Txt)) :
    parse2d ps.length (ps.map (fun p => '-' :: ' ' :: showList p) ++ rest) acc =
      .ok (acc ++ ps, rest) := by
  induction ps generalizing acc with
  | nil => simp [parse2d]
  | cons p ps ih =>
    have hp0 := hp p (by simp)
    have hs : splitList ('-' :: ' ' :: showList p) = .ok p :=
      splitList_list (pre := ['-', ' ']) (by simp) (by decide) hp0.1 hp0.2
    rw [List.map_cons, List.cons_append, List.length_cons]
    simp only [parse2d, hs, bind, Except.bind]
    rw [ih (fun q hq => hp q (by simp [hq]))]
    simp

theorem put2_ok {α : Type} (tab : List (List α)) (n i j : ℕ) (hn : tab.length = n)
    (hr : ∀ r ∈ tab, r.length = n) (hi : i < n) (hj : j < n) (v : α) :
    ∃ tab', put2 tab i j v = .ok tab' ∧ tab'.length = n ∧ (∀ r ∈ tab', r.length = n) ∧
      ∀ a b : ℕ, (tab'[a]?).bind (fun r => r[b]?) =
        if a = i ∧ b = j then some v else (tab[a]?).bind (fun r => r[b]?) := by
  have hi' : i < tab.length := by omega
  have hrow := hr tab[i] (List.getElem_mem hi')
  refine ⟨tab.set i (tab[i].set j v), ?_, by simpa using hn, ?_, ?_⟩
  · unfold put2
    simp [orErr, List.getElem?_eq_getElem hi', bind, Except.bind, hrow, hj]
  · intro r hm
    rcases List.mem_or_eq_of_mem_set hm with h | rfl
    · exact hr r h
    · simpa using hrow
  · intro a b
    rw [List.getElem?_set]
    by_cases ha : i = a
    · subst ha
      rw [if_pos rfl, if_pos hi', List.getElem?_eq_getElem hi']
      simp only [Option.bind_some, List.getElem?_set, true_and]
      by_cases hb : j = b
      · subst hb
        simp [hrow, hj]
      · rw [if_neg hb, if_neg (fun h => hb h.symm)]
    · rw [if_neg ha, if_neg (fun h => ha h.1.symm)]

/-- The two lines of a type pair. -/
def pairLines (p : (ℕ × ℕ) × List ℕ) : List Txt :=
  [kv "- atom_type_pair" 6 (showList [showNat p.1.1, showNat p.1.2]),
    kv "  pair_params_indices" 1 (showList (p.2.map showNat))]

theorem splitList_kv {key : String} {pad : ℕ} {l : List Txt} (hk : ∀ c ∈ key.toList, c ≠ '[')
    (hne : l ≠ []) (h : ∀ t ∈ l, Clean t) : splitList (kv key pad (showList l)) = .ok l := by
  unfold kv
  exact splitList_list (by simp) (by
    intro c hc
    simp only [List.append_assoc, List.cons_append, List.mem_append, List.mem_cons] at hc
    rcases hc with hc | rfl | hc
    · exact hk c hc
    · decide
    · rw [List.eq_of_mem_replicate hc]; decide) hne h

theorem parsePairs_lines (ps : List ((ℕ × ℕ) × List ℕ)) (n : ℕ)
    (hp : ∀ p ∈ ps, p.1.1 < n ∧ p.1.2 < n ∧ p.2 ≠ []) (hk : (ps.map (·.1)).Nodup)
    (rest : List Txt) (tab : List (List (List Txt))) (hn : tab.length = n)
    (hr : ∀ r ∈ tab, r.length = n) :
    ∃ tab', parsePairs ps.length (ps.flatMap pairLines ++ rest) tab = .ok (tab', rest) ∧
      tab'.length = n ∧ (∀ r ∈ tab', r.length = n) ∧
      ∀ a b : ℕ, (tab'[a]?).bind (fun r => r[b]?) =
        match Dict.get? ps (a, b) with
        | some v => some (v.map showNat)
        | none => (tab[a]?).bind (fun r => r[b]?) := by
  induction ps generalizing tab with
  | nil => exact ⟨tab, rfl, hn, hr, fun _ _ => rfl⟩
  | cons p ps ih =>
    obtain ⟨h1, h2, h3⟩ := hp p (by simp)
    obtain ⟨t1, e1, e2, e3, e4⟩ := put2_ok tab n p.1.1 p.1.2 hn hr h1 h2 (p.2.map showNat)
    rw [List.map_cons, List.nodup_cons] at hk
    obtain ⟨t2, g1, g2, g3, g4⟩ := ih (fun q hq => hp q (by simp [hq])) hk.2 t1 e2 e3
    refine ⟨t2, ?_, g2, g3, ?_⟩
    · rw [List.flatMap_cons, List.length_cons, List.append_assoc]
      have s1 : splitList (kv "- atom_type_pair" 6 (showList [showNat p.1.1, showNat p.1.2])) =
          .ok [showNat p.1.1, showNat p.1.2] :=
        splitList_kv (by decide) (by simp) (by
          intro t ht
          simp only [List.mem_cons, List.not_mem_nil, or_false] at ht
          rcases ht with rfl | rfl <;> exact clean_showNat _)
      have s2 : splitList (kv "  pair_params_indices" 1 (showList (p.2.map showNat))) =
          .ok (p.2.map showNat) :=
        splitList_kv (by decide) (by simpa using h3) (by
          intro t ht
          obtain ⟨a, _, rfl⟩ := List.mem_map.1 ht
          exact clean_showNat _)
      have hpl : pairLines p ++ (ps.flatMap pairLines ++ rest) =
          kv "- atom_type_pair" 6 (showList [showNat p.1.1, showNat p.1.2]) ::
          kv "  pair_params_indices" 1 (showList (p.2.map showNat)) ::
            (ps.flatMap pairLines ++ rest) := rfl
      rw [hpl, parsePairs]
      simp only [s1, s2, bind, Except.bind, orErr, List.getElem?_cons_zero,
        List.getElem?_cons_succ, stoi_showNat, e1]
      exact g1
    · intro a b
      rw [g4, e4]
      by_cases hab : (a, b) = p.1
      · have : Dict.get? ps (a, b) = none := by
          unfold Dict.get?
          rw [Option.map_eq_none_iff, List.find?_eq_none]
          intro q hq
          simp only [decide_eq_true_eq]
          intro h
          exact hk.1 (List.mem_map.2 ⟨q, hq, h.trans hab⟩)
        rw [this]
        have h5 : Dict.get? (p :: ps) (a, b) = some p.2 := by
          unfold Dict.get?
          simp [List.find?_cons, hab]
        rw [h5]
        dsimp only
        rw [if_pos]
        rw [← hab]
        exact ⟨rfl, rfl⟩
      · have h5 : Dict.get? (p :: ps) (a, b) = Dict.get? ps (a, b) := by
          unfold Dict.get?
          have hne : ¬ p.1 = (a, b) := fun h => hab h.symm
          simp [List.find?_cons, hne]
        rw [h5]
        cases Dict.get? ps (a, b) with
        | some v => rfl
        | none =>
          dsimp only
          rw [if_neg]
          rintro ⟨rfl, rfl⟩
          exact hab rfl

end Verif.MlpYaml
