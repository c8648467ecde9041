import Verif.Spec.AtomicEnergies
import Verif.Props.Infile
import Verif.Lemmas.Params
import Verif.Lemmas.Py
import Verif.Props.Vasprun

/-!
# C100: atomic energies for an input file
-/

namespace Verif.AtomicEnergies
open Verif.Infile Verif.Spec Verif.Spec.Infile

/-! ## Formulas -/

theorem begins_pre (i : ℕ) (pre t : PStr) (h : ∀ c ∈ pre, ¬ ('A' ≤ c ∧ c ≤ 'Z')) :
    begins i (pre ++ t) = begins (i + pre.length) t := by
  induction pre generalizing i with
  | nil => simp
  | cons c pre ih =>
    have hc := h c (by simp)
    rw [List.cons_append, begins, if_neg (by simpa [isCapital] using hc), ih _ (fun d hd => h d (by simp [hd]))]
    rw [List.length_cons, Nat.add_assoc, Nat.add_comm 1]

theorem begins_word (i : ℕ) (w t : PStr) (h : ElementWord w) :
    begins i (w ++ t) = i :: begins (i + w.length) t := by
  obtain ⟨c, rest, rfl, hc, hr⟩ := h
  rw [List.cons_append, begins, if_pos (by simpa [isCapital] using hc),
    begins_pre _ _ _ (fun d hd => (hr d hd).1), List.length_cons, Nat.add_assoc, Nat.add_comm 1]

theorem slices (p : PStr) (ws : List PStr) (h : ∀ w ∈ ws, ElementWord w) :
    ((begins p.length ws.flatten).zip
      ((begins p.length ws.flatten).drop 1 ++ [(p ++ ws.flatten).length])).map
        (fun q => slice (p ++ ws.flatten) q.1 q.2) = ws := by
  induction ws generalizing p with
  | nil => rfl
  | cons w ws ih =>
    have ih' := ih (p ++ w) (fun x hx => h x (by simp [hx]))
    have e : p ++ (w :: ws).flatten = (p ++ w) ++ ws.flatten := by simp
    rw [e, List.flatten_cons, begins_word _ _ _ (h w (by simp))]
    rw [List.length_append] at ih'
    cases ws with
    | nil =>
      simp only [List.flatten_nil, begins, List.drop_succ_cons, List.drop_zero, List.nil_append,
        List.append_nil, List.zip_cons_cons, List.zip_nil_left, List.map_cons, List.map_nil]
      rw [slice, List.take_length, List.drop_left]
    | cons w2 ws =>
      rw [List.flatten_cons, begins_word _ _ _ (h w2 (by simp))] at ih' ⊢
      simp only [List.drop_succ_cons, List.drop_zero, List.cons_append, List.zip_cons_cons,
        List.map_cons] at ih' ⊢
      rw [ih']
      congr 1
      simp [slice, List.take_append]

/-- C100: the elements of a text are its parts from one capital letter to the next, without
digits; what stands before the first capital letter is dropped. -/
theorem C100_elements (s : PStr) (ws : List PStr) :
    getElements s = ws ↔ CutAtCapitals s ws := by
  have key : ∀ ws, CutAtCapitals s ws → getElements s = ws := by
    rintro ws ⟨pre, hp, hw, e⟩
    have e' : s.filter (fun c => !isDigit c) = pre ++ ws.flatten := e
    unfold getElements
    simp only [e']
    rw [begins_pre _ _ _ hp, Nat.zero_add]
    exact slices pre ws hw
  refine ⟨?_, key ws⟩
  have ex : ∀ t : PStr, (∀ c ∈ t, ¬ ('0' ≤ c ∧ c ≤ '9')) →
      ∃ (pre : PStr) (ws : List PStr), (∀ c ∈ pre, ¬ ('A' ≤ c ∧ c ≤ 'Z')) ∧
        (∀ w ∈ ws, ElementWord w) ∧ t = pre ++ ws.flatten := by
    intro t
    induction t with
    | nil => intro _; exact ⟨[], [], by simp, by simp, rfl⟩
    | cons c t ih =>
      intro hd
      obtain ⟨pre, ws, hp, hw, e⟩ := ih (fun x hx => hd x (by simp [hx]))
      by_cases hc : 'A' ≤ c ∧ c ≤ 'Z'
      · refine ⟨[], (c :: pre) :: ws, by simp, ?_, by simp [e]⟩
        intro w hw'
        rcases List.mem_cons.1 hw' with rfl | hw'
        · exact ⟨c, pre, rfl, hc, fun d hd' => ⟨hp d hd', hd d (by simp [e, hd'])⟩⟩
        · exact hw w hw'
      · refine ⟨c :: pre, ws, ?_, hw, by simp [e]⟩
        intro d hd'
        rcases List.mem_cons.1 hd' with rfl | hd'
        · exact hc
        · exact hp d hd'
  obtain ⟨pre, ws', hp, hw, e⟩ := ex (s.filter fun c => !decide ('0' ≤ c ∧ c ≤ '9'))
    (fun c hc => by
      have := (List.mem_filter.1 hc).2
      rwa [Bool.not_eq_true', decide_eq_false_iff_not] at this)
  have hcut : CutAtCapitals s ws' := ⟨pre, hp, hw, e⟩
  intro h
  rw [← h, key ws' hcut]
  exact hcut

example : getElements "Al2O3".toList = ["Al".toList, "O".toList] := by decide +kernel

/-- C100: a formula written from elements and numbers gives its elements, in order. -/
theorem C100_formula (parts : List (PStr × PStr)) (he : ∀ p ∈ parts, ElementWord p.1)
    (hn : ∀ p ∈ parts, CountWord p.2) :
    getElements (formulaText parts) = parts.map (·.1) := by
  rw [C100_elements]
  refine ⟨[], by simp, ?_, ?_⟩
  · intro w hw
    obtain ⟨p, hp, rfl⟩ := List.mem_map.1 hw
    exact he p hp
  · rw [List.nil_append]
    unfold formulaText
    induction parts with
    | nil => rfl
    | cons p parts ih =>
      rw [List.flatMap_cons, List.filter_append, ih (fun q hq => he q (by simp [hq]))
        (fun q hq => hn q (by simp [hq])), List.map_cons, List.flatten_cons, List.filter_append]
      have h1 : p.1.filter (fun c => !decide ('0' ≤ c ∧ c ≤ '9')) = p.1 := by
        rw [List.filter_eq_self]
        obtain ⟨c, rest, e, hc, hr⟩ := he p (by simp)
        intro d hd
        rw [e] at hd
        rcases List.mem_cons.1 hd with rfl | hd
        · have : ¬ ('0' ≤ d ∧ d ≤ '9') := by
            rintro ⟨_, h⟩
            exact absurd (Char.le_trans hc.1 h) (by decide)
          rwa [Bool.not_eq_true', decide_eq_false_iff_not]
        · rw [Bool.not_eq_true', decide_eq_false_iff_not]
          exact (hr d hd).2
      have h2 : p.2.filter (fun c => !decide ('0' ≤ c ∧ c ≤ '9')) = [] := by
        rw [List.filter_eq_nil_iff]
        intro d hd
        simpa using hn p (by simp) d hd
      rw [h1, h2, List.append_nil]

example : ElementWord "Al".toList ∧ CountWord "2".toList := by
  constructor
  · exact ⟨'A', ['l'], rfl, by decide, by decide⟩
  · unfold CountWord; decide

/-! ## Tables -/

theorem get_table (rows : List (String × String)) (hnd : (rows.map (·.1)).Nodup) (k v : PStr) :
    (loadTable rows).get? k = some v ↔ ∃ r ∈ rows, r.1.toList = k ∧ r.2.toList = v := by
  have inj : ∀ a b : String, a.toList = b.toList → a = b := fun a b h => String.toList_inj.1 h
  have uniq : ∀ k w v, (k, w) ∈ rows.map (fun r => (r.1.toList, r.2.toList)) →
      (k, v) ∈ rows.map (fun r => (r.1.toList, r.2.toList)) → w = v := by
    intro k w v h1 h2
    obtain ⟨a, ha, e1⟩ := List.mem_map.1 h1
    obtain ⟨b, hb, e2⟩ := List.mem_map.1 h2
    simp only [Prod.mk.injEq] at e1 e2
    have : a = b := List.inj_on_of_nodup_map hnd ha hb (inj _ _ (by rw [e1.1, e2.1]))
    rw [← e1.2, ← e2.2, this]
  constructor
  · intro h
    have hm : ∃ w, (k, w) ∈ rows.map (fun r => (r.1.toList, r.2.toList)) := by
      by_contra hn
      have := Verif.Params.get?_setAll_none (items := rows.map (fun r => (r.1.toList, r.2.toList))) (k := k)
        (fun w hw => hn ⟨w, hw⟩)
      unfold loadTable at h
      rw [this] at h
      cases h
    obtain ⟨w, hw⟩ := hm
    have hs := Verif.Params.get?_setAll_some hw (fun x hx => uniq _ _ _ hx hw)
    unfold loadTable at h
    rw [hs] at h
    obtain ⟨r, hr, e⟩ := List.mem_map.1 hw
    simp only [Prod.mk.injEq] at e
    exact ⟨r, hr, e.1, by rw [e.2]; exact Option.some.inj h⟩
  · rintro ⟨r, hr, rfl, rfl⟩
    have hw : (r.1.toList, r.2.toList) ∈ rows.map (fun r => (r.1.toList, r.2.toList)) :=
      List.mem_map.2 ⟨r, hr, rfl⟩
    exact Verif.Params.get?_setAll_some hw (fun x hx => uniq _ _ _ hx hw)

theorem pbe_nodup : (pbeText.map (·.1)).Nodup := by decide +kernel
theorem pbesol_nodup : (pbesolText.map (·.1)).Nodup := by decide +kernel

theorem table_cases (f : PStr) (hf : KnownFunctional f) :
    ∃ d, table f "vasp".toList = .ok d ∧ ∀ k v, d.get? k = some v ↔ TableRow f k v := by
  rcases hf with rfl | rfl
  · refine ⟨loadTable pbeText, by simp [table], ?_⟩
    intro k v
    rw [get_table _ pbe_nodup]
    unfold TableRow
    constructor
    · exact fun h => Or.inl ⟨rfl, h⟩
    · rintro (⟨_, h⟩ | ⟨h, _⟩)
      · exact h
      · exact absurd h (by decide)
  · refine ⟨loadTable pbesolText, by simp [table], ?_⟩
    intro k v
    rw [get_table _ pbesol_nodup]
    unfold TableRow
    constructor
    · exact fun h => Or.inr ⟨rfl, h⟩
    · rintro (⟨h, _⟩ | ⟨_, h⟩)
      · exact absurd h (by decide)
      · exact h

theorem energyOf_ok {K : Type} (conv : PStr → Except Err K) (f : PStr) (d : Dict PStr PStr)
    (hd : ∀ k v, d.get? k = some v ↔ TableRow f k v) (e : PStr) (x : K) :
    energyOf conv d e = .ok x ↔ ∃ t, TableRow f e t ∧ conv t = .ok x := by
  unfold energyOf
  cases h : d.get? e with
  | none =>
    simp only [orErr, bind, Except.bind]
    constructor
    · intro h'; cases h'
    · rintro ⟨t, ht, _⟩
      rw [(hd e t).2 ht] at h
      cases h
  | some t =>
    simp only [orErr, bind, Except.bind]
    constructor
    · intro h'; exact ⟨t, (hd e t).1 h, h'⟩
    · rintro ⟨t', ht, hc⟩
      rw [(hd e t').2 ht] at h
      cases h
      exact hc

/-- C100: the energies returned for a list of elements are those of the rows of the table of the
functional, in the order of the elements; they are returned exactly if all elements are in the
table. -/
theorem C100_energies {K : Type} (conv : PStr → Except Err K) (f : PStr) (hf : KnownFunctional f)
    (els : List PStr) (es : List K) (els' : List PStr) :
    getAtomicEnergies conv { elements := some els, functional := f } = .ok (es, els') ↔
      els' = els ∧ List.Forall₂ (fun e x => ∃ t, TableRow f e t ∧ conv t = .ok x) els es := by
  obtain ⟨d, ht, hd⟩ := table_cases f hf
  unfold getAtomicEnergies
  simp only [ht, asked, orErr, bind, Except.bind]
  have hm : els.mapM (energyOf conv d) = .ok es ↔
      List.Forall₂ (fun e x => ∃ t, TableRow f e t ∧ conv t = .ok x) els es := by
    rw [Verif.Vasprun.mapM_iff]
    constructor
    · exact fun h => h.imp fun _ _ hx => (energyOf_ok conv f d hd _ _).1 hx
    · exact fun h => h.imp fun _ _ hx => (energyOf_ok conv f d hd _ _).2 hx
  cases h : els.mapM (energyOf conv d) with
  | error e =>
    simp only [reduceCtorEq, false_iff]
    rintro ⟨_, h'⟩
    rw [hm.2 h'] at h
    cases h
  | ok r =>
    simp only [pure, Except.pure, Except.ok.injEq, Prod.mk.injEq]
    rw [h, Except.ok.injEq] at hm
    rw [hm]
    constructor
    · rintro ⟨h1, h2⟩; exact ⟨h2.symm, h1⟩
    · rintro ⟨h1, h2⟩; exact ⟨h2, h1.symm⟩

example : getAtomicEnergies (K := PStr) (fun t => .ok t)
    { elements := some ["O".toList, "Mg".toList], functional := "PBE".toList } =
    .ok (["-1.85321219".toList, "-0.00040000".toList], ["O".toList, "Mg".toList]) := by
  decide +kernel

theorem row_unique (f : PStr) (hf : KnownFunctional f) (e t t' : PStr) (h : TableRow f e t)
    (h' : TableRow f e t') : t = t' := by
  obtain ⟨d, _, hd⟩ := table_cases f hf
  have := (hd e t).2 h
  rw [(hd e t').2 h'] at this
  exact (Option.some.inj this).symm

/-- C100: the dictionary returned on request holds, for each of the elements asked for and for no
other key, the number of its row. -/
theorem C100_dict {K : Type} (conv : PStr → Except Err K) (f : PStr) (hf : KnownFunctional f)
    (els : List PStr) (d : Dict PStr K)
    (h : getAtomicEnergiesDict conv { elements := some els, functional := f } = .ok d)
    (e : PStr) (x : K) :
    d.get? e = some x ↔ e ∈ els ∧ ∃ t, TableRow f e t ∧ conv t = .ok x := by
  unfold getAtomicEnergiesDict at h
  cases hg : getAtomicEnergies conv { elements := some els, functional := f } with
  | error er => rw [hg] at h; cases h
  | ok r =>
    obtain ⟨es, els'⟩ := r
    obtain ⟨rfl, hfor⟩ := (C100_energies conv f hf els es els').1 hg
    rw [hg] at h
    simp only [bind, Except.bind, pure, Except.pure, Except.ok.injEq] at h
    subst h
    have hz : ∀ a b, (a, b) ∈ els'.zip es → ∃ t, TableRow f a t ∧ conv t = .ok b := by
      intro a b hm
      exact (List.forall₂_iff_zip.1 hfor).2 hm
    have hz' : ∀ a ∈ els', ∃ b, (a, b) ∈ els'.zip es := by
      intro a ha
      obtain ⟨i, hi, rfl⟩ := List.getElem_of_mem ha
      have hi' : i < es.length := by rw [← hfor.length_eq]; exact hi
      exact ⟨es[i], List.mem_iff_getElem.2 ⟨i, by simp [hi, hi'], by simp⟩⟩
    have same : ∀ a b b', (∃ t, TableRow f a t ∧ conv t = .ok b) →
        (∃ t, TableRow f a t ∧ conv t = .ok b') → b = b' := by
      rintro a b b' ⟨t, ht, hb⟩ ⟨t', ht', hb'⟩
      rw [row_unique f hf a t t' ht ht', hb'] at hb
      exact (Except.ok.inj hb).symm
    by_cases he : e ∈ els'
    · obtain ⟨b, hb⟩ := hz' e he
      rw [Verif.Params.get?_setAll_some hb (fun w hw => same e w b (hz e w hw) (hz e b hb))]
      constructor
      · intro hx
        rw [← Option.some.inj hx]
        exact ⟨he, hz e b hb⟩
      · rintro ⟨_, hx⟩
        rw [same e b x (hz e b hb) hx]
    · rw [Verif.Params.get?_setAll_none (fun w hw => he (List.of_mem_zip hw).1)]
      simp [he]

example : getAtomicEnergiesDict (K := PStr) (fun t => .ok t)
    { formula := some "MgO".toList, functional := "PBE".toList } =
    .ok [("Mg".toList, "-0.00040000".toList), ("O".toList, "-1.85321219".toList)] := by
  decide +kernel

/-- C100: a formula is read before the list of elements: with a formula the energies are those of
its elements. -/
theorem C100_by_formula {K : Type} (conv : PStr → Except Err K) (f s : PStr)
    (els : Option (List PStr)) (ws : List PStr) (h : CutAtCapitals s ws) :
    getAtomicEnergies conv { elements := els, formula := some s, functional := f } =
      getAtomicEnergies conv { elements := some ws, functional := f } := by
  unfold getAtomicEnergies
  simp only [asked, orErr, (C100_elements s ws).2 h]

/-- C100: an element without a row in the table, and a functional without a table, are refused
with `KeyError`, whatever else is asked for. -/
theorem C100_refused {K : Type} (conv : PStr → Except Err K) (f : PStr) (els : List PStr)
    (hconv : ∀ e t, TableRow f e t → ∃ x, conv t = .ok x)
    (h : ¬ KnownFunctional f ∨ ∃ e ∈ els, ∀ t, ¬ TableRow f e t) :
    getAtomicEnergies conv { elements := some els, functional := f } = .error .keyError := by
  by_cases hf : KnownFunctional f
  · obtain ⟨e, he, hno⟩ := h.resolve_left (fun x => x hf)
    obtain ⟨d, ht, hd⟩ := table_cases f hf
    unfold getAtomicEnergies
    simp only [ht, asked, orErr, bind, Except.bind]
    have : els.mapM (energyOf conv d) = .error .keyError := by
      induction els with
      | nil => cases he
      | cons a els ih =>
        rw [List.mapM_cons]
        cases ha : d.get? a with
        | none => simp [energyOf, ha, orErr, bind, Except.bind]
        | some t =>
          obtain ⟨x, hx⟩ := hconv a t ((hd a t).1 ha)
          have hne : e ≠ a := by
            rintro rfl
            exact hno t ((hd e t).1 ha)
          have := ih (Or.inr ⟨e, (List.mem_cons.1 he).resolve_left hne, hno⟩)
            ((List.mem_cons.1 he).resolve_left hne)
          simp [energyOf, ha, orErr, bind, Except.bind, hx, this]
    rw [this]
  · unfold KnownFunctional at hf
    push Not at hf
    unfold getAtomicEnergies table
    rw [if_neg (fun h => hf.1 h.1), if_neg (fun h => hf.2 h.1)]
    rfl

example : ¬ KnownFunctional "LDA".toList := by
  unfold KnownFunctional; decide +kernel

/-! ## The text for the input file -/

theorem splitWs_words (ws : Char → Bool) (hsp : ws ' ' = true) (w : PStr) (vs : List PStr)
    (hw0 : w ≠ []) (hw : ∀ c ∈ w, ws c = false)
    (hv : ∀ v ∈ vs, v ≠ [] ∧ ∀ c ∈ v, ws c = false) :
    splitWs ws [] (w ++ vs.flatMap fun v => ' ' :: v) = w :: vs := by
  rw [splitWs_word ws [] w _ hw, List.nil_append]
  induction vs generalizing w with
  | nil => simp [splitWs, hw0]
  | cons v vs ih =>
    rw [List.flatMap_cons, List.cons_append, splitWs, if_pos hsp, if_neg hw0,
      splitWs_word ws [] v _ (hv v (by simp)).2, List.nil_append,
      ih v (hv v (by simp)).1 (hv v (by simp)).2 (fun x hx => hv x (by simp [hx]))]

theorem readlines_text (t : PStr) (vs : List PStr) (rest : PStr) (ht : '\n' ∉ t)
    (hv : ∀ v ∈ vs, '\n' ∉ v) :
    readlines [] (textLine t vs ++ rest) =
      (t ++ vs.flatMap fun v => ' ' :: v) :: readlines [] rest := by
  unfold textLine
  rw [List.append_assoc, List.singleton_append, readlines_line]
  · simp
  · intro h
    rcases List.mem_append.1 h with h | h
    · exact ht h
    · obtain ⟨v, hv', h⟩ := List.mem_flatMap.1 h
      rcases List.mem_cons.1 h with h | h
      · exact absurd h (by decide)
      · exact hv v hv' h

theorem row_name (f e t : PStr) (h : TableRow f e t) :
    e ≠ [] ∧ ∀ c ∈ e, c.isAlpha = true := by
  have h1 : ∀ r ∈ pbeText, r.1.toList ≠ [] ∧ ∀ c ∈ r.1.toList, c.isAlpha = true := by
    decide +kernel
  have h2 : ∀ r ∈ pbesolText, r.1.toList ≠ [] ∧ ∀ c ∈ r.1.toList, c.isAlpha = true := by
    decide +kernel
  rcases h with ⟨_, r, hr, rfl, _⟩ | ⟨_, r, hr, rfl, _⟩
  · exact h1 r hr
  · exact h2 r hr

/-- C100: the text printed for an input file is read back as the number of types, the elements and
their energies.  `rest` is what follows in the file. -/
theorem C100_input {K : Type} (conv : PStr → Except Err K) (convNat : PStr → Except Err ℕ)
    (shw : K → PStr) (shwNat : ℕ → PStr) (ws : Char → Bool)
    (hsp : ws ' ' = true) (hal : ∀ c : Char, c.isAlpha = true → ws c = false)
    (hus : ws '_' = false) (hnl : ws '\n' = true)
    (hshw : ∀ x, conv (shw x) = .ok x ∧ shw x ≠ [] ∧ ∀ c ∈ shw x, ws c = false)
    (hnat : ∀ n, convNat (shwNat n) = .ok n ∧ shwNat n ≠ [] ∧ ∀ c ∈ shwNat n, ws c = false)
    (f : PStr) (hf : KnownFunctional f) (els : List PStr) (h0 : els ≠ []) (text rest : PStr)
    (htext : polymlpIn conv shw shwNat { elements := some els, functional := f } = .ok text)
    (hrest : ∀ tag ∈ ["n_type".toList, "elements".toList, "atomic_energy".toList],
      NoLine ((readlines [] rest).map (splitWs ws [])) tag) :
    ∃ es, getAtomicEnergies conv { elements := some els, functional := f } = .ok (es, els) ∧
      getParams convNat (parse ws (text ++ rest)) "n_type".toList 1 () false false =
        .ok (.scalar els.length) ∧
      getParams (.ok ·) (parse ws (text ++ rest)) "elements".toList els.length () true true =
        .ok (.array els) ∧
      getParams conv (parse ws (text ++ rest)) "atomic_energy".toList els.length () false true =
        .ok (.array es) := by
  unfold polymlpIn at htext
  cases hg : getAtomicEnergies conv { elements := some els, functional := f } with
  | error e =>
    rw [hg] at htext
    cases htext
  | ok r =>
    obtain ⟨es, els'⟩ := r
    obtain ⟨he, hfor⟩ := (C100_energies conv f hf els es els').1 hg
    subst he
    simp only [hg, bind, Except.bind, pure, Except.pure, Except.ok.injEq] at htext
    have hlen := hfor.length_eq
    have hels : ∀ v ∈ els', v ≠ [] ∧ ∀ c ∈ v, ws c = false := by
      intro v hv
      obtain ⟨i, hi, rfl⟩ := List.getElem_of_mem hv
      obtain ⟨t, ht, _⟩ := hfor.get hi (by omega)
      have := row_name f _ t ht
      exact ⟨by simpa using this.1, fun c hc => hal c (this.2 c (by simpa using hc))⟩
    have hes : ∀ v ∈ es.map shw, v ≠ [] ∧ ∀ c ∈ v, ws c = false := by
      intro v hv
      obtain ⟨x, _, rfl⟩ := List.mem_map.1 hv
      exact (hshw x).2
    have hn : ∀ v ∈ [shwNat els'.length], v ≠ [] ∧ ∀ c ∈ v, ws c = false := by
      intro v hv
      rw [List.mem_singleton.1 hv]
      exact (hnat _).2
    have nonl : ∀ v : PStr, (∀ c ∈ v, ws c = false) → '\n' ∉ v := by
      intro v hv hm
      rw [hv _ hm] at hnl
      cases hnl
    have hlines : (readlines [] (text ++ rest)).map (splitWs ws []) =
        ("n_type".toList :: [shwNat els'.length]) :: ("elements".toList :: els') ::
          ("atomic_energy".toList :: es.map shw) ::
            (readlines [] rest).map (splitWs ws []) := by
      have tagws : ∀ t ∈ ["n_type".toList, "elements".toList, "atomic_energy".toList],
          t ≠ [] ∧ (∀ c ∈ t, ws c = false) := by
        intro t ht
        have : t ≠ [] ∧ ∀ c ∈ t, c.isAlpha = true ∨ c = '_' := by
          revert t; decide
        refine ⟨this.1, fun c hc => ?_⟩
        rcases this.2 c hc with h | rfl
        · exact hal c h
        · exact hus
      rw [← htext, List.append_assoc, List.append_assoc,
        readlines_text _ _ _ (nonl _ (tagws _ (by simp)).2) (fun v hv => nonl v (hn v hv).2),
        readlines_text _ _ _ (nonl _ (tagws _ (by simp)).2) (fun v hv => nonl v (hels v hv).2),
        readlines_text _ _ _ (nonl _ (tagws _ (by simp)).2) (fun v hv => nonl v (hes v hv).2)]
      rw [List.map_cons, List.map_cons, List.map_cons,
        splitWs_words ws hsp _ _ (tagws _ (by simp)).1 (tagws _ (by simp)).2 hn,
        splitWs_words ws hsp _ _ (tagws _ (by simp)).1 (tagws _ (by simp)).2 hels,
        splitWs_words ws hsp _ _ (tagws _ (by simp)).1 (tagws _ (by simp)).2 hes]
    have hpos := List.length_pos_of_ne_nil h0
    refine ⟨es, rfl, ?_, ?_, ?_⟩
    · have := (C37_get_params convNat _ "n_type".toList 1 () false false ⟨by decide, by decide⟩ _
        (⟨[], _, hlines, by simp, ?_⟩) [els'.length] ?_).2 rfl rfl
      · obtain ⟨x, hx, h⟩ := this
        rw [← List.singleton_inj.1 hx] at h
        exact h
      · intro l hl v vs
        rcases List.mem_cons.1 hl with rfl | hl
        · intro e; injection e with e _; exact absurd e (by decide)
        rcases List.mem_cons.1 hl with rfl | hl
        · intro e; injection e with e _; exact absurd e (by decide)
        exact hrest _ (by simp) l hl v vs
      · exact .cons (hnat _).1 .nil
    · refine (C37_get_params (.ok ·) _ "elements".toList els'.length () true true ⟨by decide, by decide⟩ els'
        (⟨[_], _, hlines, h0, ?_⟩) els' ?_).1 (Or.inl rfl)
      · intro l hl v vs
        rcases List.mem_cons.1 hl with rfl | hl
        · intro e; injection e with e _; exact absurd e (by decide)
        exact hrest _ (by simp) l hl v vs
      · rw [List.take_length, List.forall₂_same]
        exact fun _ _ => rfl
    · refine (C37_get_params conv _ "atomic_energy".toList els'.length () false true ⟨by decide, by decide⟩
        (es.map shw) (⟨[_, _], _, hlines, ?_, ?_⟩) es ?_).1 (Or.inl rfl)
      · intro e
        rw [List.map_eq_nil_iff] at e
        rw [e] at hlen
        simp at hlen
        exact h0 hlen
      · intro l hl v vs
        exact hrest _ (by simp) l hl v vs
      · rw [List.take_of_length_le (by simp; omega), List.forall₂_map_left_iff, List.forall₂_same]
        exact fun x _ => (hshw x).1

example : polymlpIn (K := PStr) (fun t => .ok t) id (fun n => (toString n).toList)
    { formula := some "MgO".toList } =
    .ok "n_type 2\nelements Mg O\natomic_energy -0.00040000 -1.85321219\n".toList := by
  decide +kernel

example : NoLine ((readlines [] "cutoff 8.0\n".toList).map
    (splitWs (fun c => decide (c = ' ' ∨ c = '\n')) [])) "n_type".toList := by
  have : (readlines [] "cutoff 8.0\n".toList).map
      (splitWs (fun c => decide (c = ' ' ∨ c = '\n')) []) =
      [["cutoff".toList, "8.0".toList]] := by decide +kernel
  rw [this]
  intro l hl v vs e
  rw [List.mem_singleton.1 hl] at e
  injection e with e _
  exact absurd e (by decide)

/-! ## What the formulas do not cover -/

/-- C100 (F159): an element that occurs twice in a formula is listed twice: for `CH3COOH` the
input file has six types. -/
theorem C100_repeat_violation :
    ∃ parts : List (PStr × PStr), (∀ p ∈ parts, ElementWord p.1 ∧ CountWord p.2) ∧
      ¬ (getElements (formulaText parts)).Nodup ∧
      (∀ e ∈ getElements (formulaText parts), ∃ t, TableRow "PBE".toList e t) := by
  refine ⟨[("C".toList, []), ("H".toList, "3".toList), ("C".toList, []), ("O".toList, []),
    ("O".toList, []), ("H".toList, [])], ?_, by decide +kernel, ?_⟩
  · have hw : ∀ c : Char, 'A' ≤ c ∧ c ≤ 'Z' → ElementWord [c] :=
      fun c hc => ⟨c, [], rfl, hc, by simp⟩
    intro p hp
    simp only [List.mem_cons, List.not_mem_nil, or_false] at hp
    rcases hp with rfl | rfl | rfl | rfl | rfl | rfl
    · exact ⟨hw 'C' (by decide), by unfold CountWord; decide⟩
    · exact ⟨hw 'H' (by decide), by unfold CountWord; decide⟩
    · exact ⟨hw 'C' (by decide), by unfold CountWord; decide⟩
    · exact ⟨hw 'O' (by decide), by unfold CountWord; decide⟩
    · exact ⟨hw 'O' (by decide), by unfold CountWord; decide⟩
    · exact ⟨hw 'H' (by decide), by unfold CountWord; decide⟩
  · have : ∀ e ∈ getElements (formulaText [("C".toList, []), ("H".toList, "3".toList),
        ("C".toList, []), ("O".toList, []), ("O".toList, []), ("H".toList, [])]),
        ∃ r ∈ pbeText, r.1.toList = e := by decide +kernel
    intro e he
    obtain ⟨r, hr, h⟩ := this e he
    exact ⟨r.2.toList, Or.inl ⟨rfl, r, hr, h, rfl⟩⟩

/-- C100 (F160): brackets are taken for parts of names: `Ca(OH)2`, all of whose elements are in the
table, is refused with `KeyError`. -/
theorem C100_bracket_violation :
    (∀ e ∈ ["Ca".toList, "O".toList, "H".toList], ∃ t, TableRow "PBE".toList e t) ∧
      ∀ {K : Type} (conv : PStr → Except Err K),
        getAtomicEnergies conv { formula := some "Ca(OH)2".toList } = .error .keyError := by
  constructor
  · have : ∀ e ∈ ["Ca".toList, "O".toList, "H".toList], ∃ r ∈ pbeText, r.1.toList = e := by
      decide +kernel
    intro e he
    obtain ⟨r, hr, h⟩ := this e he
    exact ⟨r.2.toList, Or.inl ⟨rfl, r, hr, h, rfl⟩⟩
  · intro K conv
    have e : getElements "Ca(OH)2".toList = ["Ca(".toList, "O".toList, "H)".toList] := by
      decide +kernel
    have n : (loadTable pbeText).get? "Ca(".toList = none := by decide +kernel
    unfold getAtomicEnergies
    simp only [asked, e, table, bind, Except.bind, List.mapM_cons, energyOf]
    simp only [and_self, if_true, n, orErr]

end Verif.AtomicEnergies
