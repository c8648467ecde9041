import Verif.Props.Crash

/-!
# C120: reading of potential files that were cut off
-/

namespace Verif.Crash
open Verif.MlpYaml Verif.Params Verif.Spec

/-! ## Lines -/

theorem text_append (a b : List Txt) : text (a ++ b) = text a ++ text b := by
  simp [text]

theorem text_cons (l : Txt) (b : List Txt) : text (l :: b) = l ++ '\n' :: text b := by
  simp [text]

theorem pieces_text (L : List Txt) (q : Txt) (hL : ∀ l ∈ L, '\n' ∉ l) (hq : '\n' ∉ q) :
    pieces (· == '\n') (text L ++ q) = L ++ [q] := by
  induction L with
  | nil =>
    rw [show text [] ++ q = q from rfl, pieces_none]
    · rfl
    · intro c hc
      simp only [beq_eq_false_iff_ne, ne_eq]
      rintro rfl
      exact hq hc
  | cons l L ih =>
    rw [text_cons, List.append_assoc, List.cons_append, pieces_sep _ (by decide),
      ih fun m hm => hL m (by simp [hm])]
    · rfl
    · intro c hc
      simp only [beq_eq_false_iff_ne, ne_eq]
      rintro rfl
      exact hL l (by simp) hc

theorem linesOf_cut (L : List Txt) (q : Txt) (hL : ∀ l ∈ L, '\n' ∉ l) (hq : '\n' ∉ q) :
    linesOf (text L ++ q) = L ++ if q = [] then [] else [q] := by
  unfold linesOf
  simp only [pieces_text L q hL hq, List.getLast?_concat, Option.some.injEq, List.dropLast_concat]
  split <;> simp

theorem linesOf_text (L : List Txt) (hL : ∀ l ∈ L, '\n' ∉ l) : linesOf (text L) = L := by
  have := linesOf_cut L [] hL (by simp)
  simpa using this

theorem prefix_cases {x a b : Txt} (h : x <+: a ++ b) : x <+: a ∨ ∃ r, x = a ++ r ∧ r <+: b := by
  rcases List.prefix_or_prefix_of_prefix h (List.prefix_append a b) with h' | ⟨r, hr⟩
  · exact Or.inl h'
  · subst hr
    rw [List.prefix_append_right_inj] at h
    exact Or.inr ⟨r, rfl, h⟩

/-- An occurrence at the beginning of a line. -/
theorem line_start (L : List Txt) (hL : ∀ l ∈ L, '\n' ∉ l) (a w : Txt) (hw : '\n' ∉ w) (hw0 : w ≠ [])
    (h : a ++ w <+: text L) (ha : a = [] ∨ a.getLast? = some '\n') : ∃ l ∈ L, w <+: l := by
  induction L generalizing a with
  | nil =>
    have := List.prefix_nil.1 h
    simp only [List.append_eq_nil_iff] at this
    exact absurd this.2 hw0
  | cons l L ih =>
    have hl := hL l (by simp)
    rw [text_cons] at h
    by_cases h0 : a = []
    · subst h0
      rw [List.nil_append] at h
      rcases prefix_cases h with h1 | ⟨r, hr, h1⟩
      · exact ⟨l, by simp, h1⟩
      · subst hr
        cases r with
        | nil => exact ⟨l, by simp, by simp⟩
        | cons c r =>
          rw [List.cons_prefix_cons] at h1
          exact absurd (by rw [h1.1]; simp) hw
    · have hlast := ha.resolve_left h0
      have hmem : '\n' ∈ a := List.mem_of_getLast? hlast
      have h' : a <+: l ++ '\n' :: text L := (List.prefix_append a w).trans h
      rcases prefix_cases h' with h2 | ⟨r, hr, h2⟩
      · exact absurd (h2.subset hmem) hl
      · subst hr
        cases r with
        | nil =>
          rw [List.append_nil] at hmem
          exact absurd hmem hl
        | cons c r =>
          rw [List.cons_prefix_cons] at h2
          obtain ⟨rfl, h2⟩ := h2
          rw [List.append_assoc, List.prefix_append_right_inj, List.cons_append,
            List.cons_prefix_cons] at h
          obtain ⟨l', hl', hw'⟩ := ih (fun m hm => hL m (by simp [hm])) r h.2 (by
            cases r with
            | nil => exact Or.inl rfl
            | cons c' r =>
              right
              rw [List.getLast?_append] at hlast
              simpa [List.getLast?_cons_cons] using hlast)
          exact ⟨l', by simp [hl'], hw'⟩

/-! ## The C++ reader -/

theorem pieces_ne (p : Char → Bool) (s : Txt) : pieces p s ≠ [] := by
  cases s with
  | nil => simp [pieces]
  | cons c s =>
    simp only [pieces]
    split
    · simp
    · split <;> simp

theorem pieces_snoc {p : Char → Bool} (s : Txt) {c : Char} (hc : p c = true) :
    pieces p (s ++ [c]) = pieces p s ++ [[]] := by
  induction s with
  | nil => simp [pieces, hc]
  | cons d s ih =>
    rw [List.cons_append]
    simp only [pieces, ih]
    split
    · simp
    · cases hx : pieces p s with
      | nil => exact absurd hx (pieces_ne p s)
      | cons h t => simp

theorem words_snoc (s : Txt) {c : Char} (hc : isWs c = true) : words (s ++ [c]) = words s := by
  unfold words
  rw [pieces_snoc s hc, List.filter_append]
  simp

theorem splitList_open {b : Txt} (hb : b ≠ []) (h : ∀ c ∈ b, c ≠ '[' ∧ c ≠ ']') :
    splitList (' ' :: '[' :: b) = .ok (readAll (uncomma b)) := by
  have e1 : splitC '[' (' ' :: '[' :: b) = [[' '], b] := by
    unfold splitC
    rw [show ' ' :: '[' :: b = [' '] ++ '[' :: b from rfl, pieces_sep (by decide) (by decide), pieces_none]
    · simp [hb]
    · intro c hc
      simpa using (h c hc).1
  have e2 : splitC ']' b = [b] := by
    unfold splitC
    rw [pieces_none]
    · simp [hb]
    · intro c hc
      simpa using (h c hc).2
  unfold splitList
  rw [if_pos (by simp), e1]
  simp only [orErr, bind, Except.bind, List.getElem?_cons_succ, List.getElem?_cons_zero, e2, pure,
    Except.pure]
  rfl

theorem Runs.coeffs {st : St} {b : Txt} (hb : b ≠ []) (h : ∀ c ∈ b, c ≠ '[' ∧ c ≠ ']' ∧ c ≠ ':') :
    Runs ["coeffs: [".toList ++ b] st (.ok (st.put "coeffs" (readAll (uncomma b)))) :=
  Runs.step (key := "coeffs") (w := ' ' :: '[' :: b)
    (splitC_kv (key := "coeffs") (pad := 1) (val := '[' :: b) (by decide) (by decide) (by simp) (by
      intro c hc
      rcases List.mem_cons.1 hc with rfl | hc
      · decide
      · exact (h c hc).2.2)) (by decide)
    (splitList_open hb fun c hc => ⟨(h c hc).1, (h c hc).2.1⟩)
    (assign_plain (by show "coeffs".toList ≠ _; decide) (by show "coeffs".toList ≠ _; decide))
    (le_refl _) (Runs.nil _)

theorem render_init (d : Doc) : (render d).dropLast = body d ++ [kv "n_coeffs" 1 d.nCoeffs] := by
  rw [render_body, List.dropLast_append_of_ne_nil (by simp)]
  rfl

theorem render_split (d : Doc) :
    render d = (render d).dropLast ++ [kv "coeffs" 1 (showList d.coeffs)] := by
  rw [render_init, render_body]
  simp

/-- What is read when other lines follow the first ones. -/
theorem cut {d : Doc} {pairs : Dict (ℕ × ℕ) (List ℕ)} {n : ℕ} (hd : DocOK d pairs n)
    (hco : d.coeffs ≠ []) {fp : Fp} (hfp : parsePolymlp (render d) = .ok fp) :
    ∃ st : St, st.get "coeffs" = [] ∧ ∀ (R : List Txt) (st' : St), Runs R st (.ok st') →
      (∀ key : String, key ≠ "coeffs" → st'.get key = st.get key) →
      st'.pairParams = st.pairParams → st'.pairCond = st.pairCond →
      parsePolymlp ((render d).dropLast ++ R) = ((st'.get "coeffs").mapM stod).map
        fun vs => { fp with regCoeffs := vs.map (· * 2) } := by
  obtain ⟨st, h0, hr⟩ := parse_body d pairs n hd
  refine ⟨st.put "n_coeffs" [d.nCoeffs], by rw [get_put, if_neg (by decide), h0], ?_⟩
  have run : ∀ (R : List Txt) (st' : St), Runs R (st.put "n_coeffs" [d.nCoeffs]) (.ok st') →
      parsePolymlp ((render d).dropLast ++ R) = fpOf st' := by
    intro R st' h
    rw [parsePolymlp_eq, render_init, List.append_assoc]
    have := hr _ _ (Runs.scalar (key := "n_coeffs") (pad := 1) (t := d.nCoeffs) (rest := R)
      (by decide) hd.hnc (by decide) (by decide) h) _ (le_refl _)
    unfold parseFile
    rw [List.cons_append, List.nil_append, this]
    rfl
  have full := run [kv "coeffs" 1 (showList d.coeffs)] _
    (Runs.list (by decide) (by decide) hco hd.hco (by decide) (by decide) (Runs.nil _))
  rw [← render_split, hfp] at full
  intro R st' h hg hp hc
  rw [run R st' h]
  refine fpOf_coeffs full.symm ?_ ?_ ?_
  · intro key hk
    rw [hg key hk, get_put _ "coeffs", if_neg]
    intro h
    exact hk (String.ext h).symm
  · exact hp
  · exact hc

theorem mapM_take {α β : Type} (g : α → Except Err β) (l : List α) (r : List β)
    (h : l.mapM g = .ok r) (k : ℕ) : (l.take k).mapM g = .ok (r.take k) := by
  induction l generalizing r k with
  | nil =>
    rw [List.mapM_nil] at h
    cases h
    simp [List.mapM_nil, pure, Except.pure]
  | cons a l ih =>
    rw [List.mapM_cons] at h
    obtain ⟨b, hb, h⟩ := bind_ok' h
    obtain ⟨bs, hbs, h⟩ := bind_ok' h
    cases h
    cases k with
    | zero => simp [List.mapM_nil, pure, Except.pure]
    | succ k =>
      rw [List.take_succ_cons, List.mapM_cons, hb, ih bs hbs k]
      rfl

theorem mapM_snoc {α β : Type} (g : α → Except Err β) (l : List α) (r : List β) (a : α) (b : β)
    (h : l.mapM g = .ok r) (hb : g a = .ok b) : (l ++ [a]).mapM g = .ok (r ++ [b]) := by
  induction l generalizing r with
  | nil =>
    rw [List.mapM_nil] at h
    cases h
    rw [List.nil_append, List.mapM_cons, hb]
    rfl
  | cons x l ih =>
    rw [List.mapM_cons] at h
    obtain ⟨y, hy, h⟩ := bind_ok' h
    obtain ⟨ys, hys, h⟩ := bind_ok' h
    cases h
    rw [List.cons_append, List.mapM_cons, hy, ih ys hys]
    rfl

theorem joinComma_cut (l : List Txt) (k : ℕ) (t u : Txt) (hu : l[k]? = some u) (ht : t <+: u) :
    joinComma (l.take k ++ [t]) <+: joinComma l := by
  induction l generalizing k with
  | nil => simp at hu
  | cons a l ih =>
    cases k with
    | zero =>
      rw [List.getElem?_cons_zero, Option.some.injEq] at hu
      subst hu
      cases l with
      | nil => exact ht
      | cons b l => exact ht.trans (List.prefix_append _ _)
    | succ k =>
      rw [List.getElem?_cons_succ] at hu
      have := ih k hu
      cases l with
      | nil => simp at hu
      | cons b l =>
        rw [List.take_succ_cons, List.cons_append]
        have e : ∀ m : List Txt, m ≠ [] → joinComma (a :: m) = a ++ ',' :: ' ' :: joinComma m := by
          intro m hm
          cases m with
          | nil => exact absurd rfl hm
          | cons _ _ => rfl
        rw [e _ (by simp), e _ (by simp), List.prefix_append_right_inj, List.cons_prefix_cons,
          List.cons_prefix_cons]
        exact ⟨rfl, rfl, this⟩

theorem joinComma_sep (l : List Txt) (k : ℕ) (h1 : 1 ≤ k) (hk : k < l.length) :
    joinComma (l.take k) ++ ", ".toList <+: joinComma l := by
  induction l generalizing k with
  | nil => simp at hk
  | cons a l ih =>
    obtain ⟨k, rfl⟩ := Nat.exists_eq_succ_of_ne_zero (show k ≠ 0 by omega)
    cases l with
    | nil => simp at hk
    | cons b l =>
      cases k with
      | zero =>
        simp only [List.take_succ_cons, List.take_zero, joinComma]
        rw [List.prefix_append_right_inj]
        exact ⟨joinComma (b :: l), rfl⟩
      | succ k =>
        have := ih (k + 1) (by omega) (by simpa using hk)
        simp only [List.take_succ_cons, joinComma, List.append_assoc, List.cons_append] at this ⊢
        rw [List.prefix_append_right_inj, List.cons_prefix_cons, List.cons_prefix_cons]
        exact ⟨rfl, rfl, this⟩

theorem joinComma_take (l : List Txt) (k : ℕ) (h1 : 1 ≤ k) (hk : k ≤ l.length) :
    joinComma (l.take k) <+: joinComma l := by
  by_cases h : k = l.length
  · subst h
    rw [List.take_length]
  · exact (List.prefix_append _ _).trans (joinComma_sep l k h1 (by omega))

theorem Clean.of_prefix {t u : Txt} (hu : Clean u) (h : t <+: u) (h0 : t ≠ []) : Clean t :=
  ⟨h0, fun c hc => hu.2 c (h.subset hc)⟩

/-- What the writer and the readers need of the fields of a potential: there are elements, no list is
empty, and numbers are printed as tokens from which they are read. -/
structure Storable (showF : ℚ → Txt) (f : Fields) : Prop where
  numbers : ∀ x, x = f.mod.cutoff ∨ (∃ p ∈ f.mod.pairParams, x ∈ p) →
    Clean (showF x) ∧ stod (showF x) = .ok x
  pairType : Clean f.mod.pairType.toList
  featureType : Clean f.mod.featureType.toList
  elements : f.single.elements ≠ []
  pairParams : ∀ p ∈ f.mod.pairParams, p ≠ []
  pairs : ∀ p ∈ f.single.pairs, p.1.1 < f.single.nType ∧ p.1.2 < f.single.nType ∧ p.2 ≠ []
  pairsNodup : f.single.pairs.keys.Nodup
  maxL : f.mod.featureType = "gtinv" → f.mod.gtinv.maxL ≠ []
  typeIndices : f.typeFull.isSome → f.typeIndices ≠ []

theorem docOK {showF : ℚ → Txt} {f : Fields} {o : Obj} (ho : mkObj f = .ok o)
    {coeffs scales : List ℚ} {d : Doc} (hd : save showF o coeffs scales = .ok d)
    (h : Storable showF f) : DocOK d f.single.pairs f.single.nType :=
  docOK_of_save showF f o ho coeffs scales d hd h.numbers h.pairType h.featureType h.elements
    h.pairParams h.pairs h.pairsNodup h.maxL h.typeIndices

theorem coeffs_length {showF : ℚ → Txt} {o : Obj} {coeffs scales : List ℚ} {d : Doc}
    (hd : save showF o coeffs scales = .ok d) : d.coeffs.length = coeffs.length := by
  unfold save at hd
  obtain ⟨mass, _, hd⟩ := bind_ok' hd
  split at hd
  · cases hd
  · rename_i h
    cases hd
    simp only [ne_eq, not_not] at h
    simp [h]

/-- **C120 is violated.** The C++ reader, run on a potential file that was cut off in the line of
coefficients, does not notice: it returns the parameters of the potential and no coefficients if the
line has not come to its bracket, the first `k` coefficients if it ends after `k` of them, the last one
twice if it ends after a comma, and another last coefficient if it ends within a number. -/
theorem C120_cxx_cut_violation (showF : ℚ → Txt) (f : Fields) (o : Obj) (ho : mkObj f = .ok o)
    (coeffs scales : List ℚ) (d : Doc) (hd : save showF o coeffs scales = .ok d)
    (hs : Storable showF f) (hco : coeffs ≠ []) (hnl : ∀ l ∈ render d, '\n' ∉ l) :
    ∃ fp, readCxx (text (render d)) = .ok fp ∧ fp.regCoeffs.length = coeffs.length ∧
      (∀ q, q <+: "coeffs:".toList →
        text (render d).dropLast ++ q <+: text (render d) ∧
        readCxx (text (render d).dropLast ++ q) = .ok { fp with regCoeffs := [] }) ∧
      (∀ k, 1 ≤ k → k ≤ coeffs.length →
        let p := text (render d).dropLast ++ ("coeffs: [".toList ++ joinComma (d.coeffs.take k))
        p <+: text (render d) ∧ readCxx p = .ok { fp with regCoeffs := fp.regCoeffs.take k }) ∧
      (∀ k sep, 1 ≤ k → k < coeffs.length → sep = ",".toList ∨ sep = ", ".toList →
        let p := text (render d).dropLast ++
          ("coeffs: [".toList ++ (joinComma (d.coeffs.take k) ++ sep))
        p <+: text (render d) ∧ ∃ v, fp.regCoeffs[k - 1]? = some v ∧
          readCxx p = .ok { fp with regCoeffs := fp.regCoeffs.take k ++ [v] }) ∧
      (∀ (k : ℕ) (t u : Txt) (v : ℚ), d.coeffs[k]? = some u → t <+: u → stod t = .ok v →
        let p := text (render d).dropLast ++
          ("coeffs: [".toList ++ joinComma (d.coeffs.take k ++ [t]))
        p <+: text (render d) ∧
          readCxx p = .ok { fp with regCoeffs := fp.regCoeffs.take k ++ [v * 2] }) := by
  have hOK := docOK ho hd hs
  have hlen := coeffs_length hd
  have hdc : d.coeffs ≠ [] := by
    intro h
    rw [h] at hlen
    exact hco (List.length_eq_zero_iff.1 hlen.symm)
  obtain ⟨fp, hfp, -⟩ := C58_cxx_reader showF f o ho coeffs scales d hd hs.numbers hs.pairType
    hs.featureType hs.elements hs.pairParams hs.pairs hs.pairsNodup hs.maxL hs.typeIndices hco
  obtain ⟨st, h0, hcut⟩ := cut hOK hdc hfp
  have hinit : ∀ l ∈ (render d).dropLast, '\n' ∉ l := fun l hl => hnl l (List.dropLast_subset _ hl)
  have hlast : '\n' ∉ kv "coeffs" 1 (showList d.coeffs) := hnl _ (by
    rw [render_split]
    simp)
  have hkv : kv "coeffs" 1 (showList d.coeffs) = "coeffs: [".toList ++ (joinComma d.coeffs ++ [']']) := rfl
  have htext : text (render d) = text (render d).dropLast ++
      ("coeffs: [".toList ++ (joinComma d.coeffs ++ [']']) ++ ['\n']) := by
    conv_lhs => rw [render_split, text_append]
    rw [hkv]
    simp [text]
  -- beginnings of the last line
  have hpre : ∀ q, q <+: "coeffs: [".toList ++ (joinComma d.coeffs ++ [']']) →
      text (render d).dropLast ++ q <+: text (render d) := by
    intro q hq
    rw [htext, List.prefix_append_right_inj]
    exact hq.trans (List.prefix_append _ _)
  have hq : ∀ q, q <+: "coeffs: [".toList ++ (joinComma d.coeffs ++ [']']) → '\n' ∉ q := by
    intro q hq hm
    exact hlast (by rw [hkv]; exact hq.subset hm)
  have plain : ∀ v : List Txt, (∀ key : String, key ≠ "coeffs" →
      (st.put "coeffs" v).get key = st.get key) := by
    intro v key hk
    rw [get_put, if_neg]
    intro h
    exact hk (String.ext h).symm
  -- the values
  obtain ⟨vs, hvs, hfpv⟩ : ∃ vs, d.coeffs.mapM stod = .ok vs ∧ fp.regCoeffs = vs.map (· * 2) := by
    have := hcut [kv "coeffs" 1 (showList d.coeffs)] _
      (Runs.list (by decide) (by decide) hdc hOK.hco (by decide) (by decide) (Runs.nil _))
      (plain _) rfl rfl
    rw [← render_split, hfp, get_put, if_pos rfl] at this
    cases hm : d.coeffs.mapM stod with
    | error e => rw [hm] at this; cases this
    | ok vs =>
      rw [hm] at this
      simp only [Except.map, Except.ok.injEq] at this
      exact ⟨vs, rfl, congrArg Fp.regCoeffs this⟩
  have hvl := (mapM_ok_get _ _ _ hvs).1
  -- a last line with the tokens `l`
  have go : ∀ (b : Txt) (l : List Txt) (ws : List ℚ), b ≠ [] →
      b <+: joinComma d.coeffs ++ [']'] → (∀ c ∈ b, c ≠ '[' ∧ c ≠ ']' ∧ c ≠ ':') →
      readAll (uncomma b) = l → l.mapM stod = .ok ws →
      text (render d).dropLast ++ ("coeffs: [".toList ++ b) <+: text (render d) ∧
        readCxx (text (render d).dropLast ++ ("coeffs: [".toList ++ b)) =
          .ok { fp with regCoeffs := ws.map (· * 2) } := by
    intro b l ws hb hbp hbc hr hw
    have hp : "coeffs: [".toList ++ b <+: "coeffs: [".toList ++ (joinComma d.coeffs ++ [']']) := by
      rw [List.prefix_append_right_inj]
      exact hbp
    refine ⟨hpre _ hp, ?_⟩
    unfold readCxx
    rw [linesOf_cut _ _ hinit (hq _ hp), if_neg (by simp),
      hcut _ _ (Runs.coeffs hb hbc) (plain _) rfl rfl, get_put, if_pos rfl, hr, hw]
    rfl
  have cleanTake : ∀ k, ∀ t ∈ d.coeffs.take k, Clean t := fun k t ht =>
    hOK.hco t (List.mem_of_mem_take ht)
  have takeNe : ∀ k, 1 ≤ k → d.coeffs.take k ≠ [] := by
    intro k hk h
    rw [List.take_eq_nil_iff] at h
    rcases h with h | h
    · omega
    · exact hdc h
  have joined : ∀ (l : List Txt), (∀ t ∈ l, Clean t) →
      ∀ c ∈ joinComma l, c ≠ '[' ∧ c ≠ ']' ∧ c ≠ ':' := fun l hl c hc =>
    ⟨(mem_joinComma hl hc).2.1, (mem_joinComma hl hc).2.2, (mem_joinComma hl hc).1⟩
  refine ⟨fp, ?_, ?_, ?_, ?_, ?_, ?_⟩
  · unfold readCxx
    rw [linesOf_text _ hnl, hfp]
  · rw [hfpv, List.length_map, hvl, hlen]
  · intro q hqp
    have hqp' : q <+: "coeffs: [".toList ++ (joinComma d.coeffs ++ [']']) := by
      refine hqp.trans ?_
      exact ⟨' ' :: '[' :: (joinComma d.coeffs ++ [']']), rfl⟩
    refine ⟨hpre q hqp', ?_⟩
    unfold readCxx
    rw [linesOf_cut _ _ hinit (hq q hqp')]
    have runs : ∃ st', Runs (if q = [] then [] else [q]) st (.ok st') ∧ st'.get "coeffs" = [] ∧
        (∀ key : String, key ≠ "coeffs" → st'.get key = st.get key) ∧
        st'.pairParams = st.pairParams ∧ st'.pairCond = st.pairCond := by
      by_cases hq0 : q = []
      · rw [if_pos hq0]
        exact ⟨st, Runs.nil _, h0, fun _ _ => rfl, rfl, rfl⟩
      · rw [if_neg hq0]
        have hsp : ∃ w, splitC ':' q = [w] := by
          have hqi : ∀ q ∈ "coeffs:".toList.inits, q ≠ [] → (splitC ':' q).length = 1 := by decide
          have := hqi q ((List.mem_inits _ _).2 hqp) hq0
          exact List.length_eq_one_iff.1 this
        obtain ⟨w, hw⟩ := hsp
        refine ⟨{ st with key := ((words w).head?).getD st.key }, ?_, h0, fun _ _ => rfl, rfl, rfl⟩
        intro fuel hf
        cases fuel with
        | zero => simp at hf
        | succ fuel =>
          simp only [parseLoop, hw]
    obtain ⟨st', r1, r2, r3, r4, r5⟩ := runs
    rw [hcut _ _ r1 r3 r4 r5, r2]
    rfl
  · intro k h1 hk
    have hj := joinComma_take d.coeffs k h1 (by omega)
    have := go (joinComma (d.coeffs.take k)) (d.coeffs.take k) (vs.take k)
      (joinComma_ne (takeNe k h1) (cleanTake k)) (hj.trans (List.prefix_append _ _))
      (joined _ (cleanTake k)) (readAll_join (takeNe k h1) (cleanTake k)) (mapM_take _ _ _ hvs k)
    refine ⟨this.1, ?_⟩
    rw [this.2, hfpv, List.map_take]
  · intro k sep h1 hk hsep
    have hkd : k - 1 < d.coeffs.length := by omega
    have hkv' : k - 1 < vs.length := by omega
    have htk : d.coeffs.take k = d.coeffs.take (k - 1) ++ [d.coeffs[k - 1]] := by
      conv_lhs => rw [show k = k - 1 + 1 by omega]
      exact List.take_succ_eq_append_getElem hkd
    have hj := joinComma_sep d.coeffs k h1 (by omega)
    have hj' : joinComma (d.coeffs.take k) ++ sep <+: joinComma d.coeffs ++ [']'] := by
      refine List.IsPrefix.trans ?_ (hj.trans (List.prefix_append _ _))
      rw [List.prefix_append_right_inj]
      rcases hsep with rfl | rfl <;> decide
    have hw : words (uncomma (joinComma (d.coeffs.take k) ++ sep)) = d.coeffs.take k := by
      have e : uncomma (joinComma (d.coeffs.take k) ++ sep) =
          uncomma (joinComma (d.coeffs.take k)) ++ uncomma sep := by
        unfold uncomma
        rw [List.map_append]
      rw [e]
      rcases hsep with rfl | rfl
      · rw [show uncomma ",".toList = [' '] from rfl, words_snoc _ (by decide),
          words_join (cleanTake k)]
      · rw [show uncomma ", ".toList = [' '] ++ [' '] from rfl, ← List.append_assoc,
          words_snoc _ (by decide), words_snoc _ (by decide), words_join (cleanTake k)]
    have hr : readAll (uncomma (joinComma (d.coeffs.take k) ++ sep)) =
        d.coeffs.take k ++ [d.coeffs[k - 1]] := by
      unfold readAll
      simp only [hw]
      rw [if_pos]
      · congr 2
        rw [htk, List.getLast?_concat]
        rfl
      · unfold uncomma
        rw [List.map_append]
        rcases hsep with rfl | rfl <;> simp [isWs]
    obtain ⟨b, hb1, hb2⟩ := (mapM_ok_get _ _ _ hvs).2 (k - 1) _ (List.getElem?_eq_getElem hkd)
    have := go (joinComma (d.coeffs.take k) ++ sep) _ (vs.take k ++ [b])
      (by
        have := joinComma_ne (takeNe k h1) (cleanTake k)
        simp [this]) hj'
      (by
        intro c hc
        rcases List.mem_append.1 hc with hc | hc
        · exact joined _ (cleanTake k) c hc
        · rcases hsep with rfl | rfl
          · simp at hc; subst hc; decide
          · simp at hc; rcases hc with rfl | rfl <;> decide) hr
      (mapM_snoc _ _ _ _ _ (mapM_take _ _ _ hvs k) hb1)
    refine ⟨this.1, b * 2, ?_, ?_⟩
    · rw [hfpv, List.getElem?_map, hb2]
      rfl
    · rw [this.2, hfpv, List.map_append, List.map_take]
      rfl
  · intro k t u v hu ht hv
    have ht0 : t ≠ [] := by
      rintro rfl
      have : stod [] = .error .valueError := by decide
      rw [this] at hv
      cases hv
    have hcl : ∀ x ∈ d.coeffs.take k ++ [t], Clean x := by
      intro x hx
      rcases List.mem_append.1 hx with hx | hx
      · exact cleanTake k x hx
      · rw [List.mem_singleton] at hx
        subst hx
        exact Clean.of_prefix (hOK.hco u (List.mem_of_getElem? hu)) ht ht0
    have hj := joinComma_cut d.coeffs k t u hu ht
    have := go (joinComma (d.coeffs.take k ++ [t])) (d.coeffs.take k ++ [t]) (vs.take k ++ [v])
      (joinComma_ne (by simp) hcl) (hj.trans (List.prefix_append _ _)) (joined _ hcl)
      (readAll_join (by simp) hcl) (mapM_snoc _ _ _ _ _ (mapM_take _ _ _ hvs k) hv)
    refine ⟨this.1, ?_⟩
    rw [this.2, hfpv, List.map_append, List.map_take]
    rfl

/-! ## The Python reader -/

/-- Brackets of a line are balanced. -/
def Even (l : Txt) : Prop := l.count '[' = l.count ']'

instance (l : Txt) : Decidable (Even l) := inferInstanceAs (Decidable (_ = _))

theorem even_clean {t : Txt} (h : ∀ c ∈ t, c ≠ '[' ∧ c ≠ ']') : Even t := by
  unfold Even
  rw [List.count_eq_zero.2 fun hm => (h _ hm).1 rfl, List.count_eq_zero.2 fun hm => (h _ hm).2 rfl]

theorem Even.append {a b : Txt} (ha : Even a) (hb : Even b) : Even (a ++ b) := by
  unfold Even at *
  rw [List.count_append, List.count_append, ha, hb]

theorem even_list {l : List Txt} (h : ∀ t ∈ l, Clean t) : Even (showList l) := by
  have := even_clean (t := joinComma l) fun c hc => ⟨(mem_joinComma h hc).2.1, (mem_joinComma h hc).2.2⟩
  unfold Even at *
  unfold showList
  simp only [List.count_append, List.count_cons, List.count_nil, this]
  rfl

theorem even_kv (key : String) (pad : ℕ) {v : Txt} (hk : Even key.toList) (hv : Even v) :
    Even (kv key pad v) := by
  unfold kv
  rw [show key.toList ++ ':' :: List.replicate pad ' ' ++ v =
    key.toList ++ ([':'] ++ List.replicate pad ' ' ++ v) by simp]
  refine hk.append (((by decide : Even [':'])).append ?_ |>.append hv)
  apply even_clean
  intro c hc
  rw [(List.mem_replicate.1 hc).2]
  decide

theorem even_token {t : Txt} (h : Clean t) : Even t :=
  even_clean fun c hc => ⟨(h.2 c hc).2.2.2.2.1, (h.2 c hc).2.2.2.2.2⟩

theorem even_init {d : Doc} {pairs : Dict (ℕ × ℕ) (List ℕ)} {n : ℕ} (hd : DocOK d pairs n) :
    ∀ l ∈ (render d).dropLast, Even l := by
  have nats : ∀ m : List ℕ, ∀ t ∈ m.map showNat, Clean t := by
    intro m t ht
    obtain ⟨x, -, rfl⟩ := List.mem_map.1 ht
    exact clean_showNat x
  intro l hl
  rw [render_init] at hl
  unfold body at hl
  simp only [List.mem_append, List.mem_cons, List.not_mem_nil, or_false, List.mem_map,
    List.mem_flatMap] at hl
  have hg : l ∈ gtinvLines d.gtinv → Even l := by
    intro h
    cases hx : d.gtinv with
    | none => rw [hx] at h; cases h
    | some g =>
      obtain ⟨h1, h2, h3, h4⟩ := hd.hg g hx
      obtain ⟨a, b, c, e⟩ := g
      rw [hx] at h
      simp only [gtinvLines, List.mem_cons, List.not_mem_nil, or_false] at h
      rcases h with rfl | rfl | rfl | rfl | rfl
      · exact even_kv _ _ (by decide) (even_token h1)
      · exact even_kv _ _ (by decide) (even_list h2.2)
      · exact even_kv _ _ (by decide) (even_list h3.2)
      · exact even_kv _ _ (by decide) (even_token h4)
      · decide
  rcases hl with ((rfl | rfl | rfl | rfl | rfl | rfl | rfl | rfl | rfl) | hl |
    ((((rfl | rfl | rfl | rfl | rfl) | ⟨p, hp, rfl⟩) | rfl | rfl | rfl) | ⟨p, hp, rfl | rfl⟩) |
    rfl | rfl | rfl | rfl) | rfl
  · exact even_kv _ _ (by decide) (even_list hd.hel.2)
  · exact even_kv _ _ (by decide) (even_list hd.hsp.2)
  · exact even_kv _ _ (by decide) (even_token hd.hcu)
  · exact even_kv _ _ (by decide) (even_token hd.hpt)
  · exact even_kv _ _ (by decide) (even_token hd.hft)
  · exact even_kv _ _ (by decide) (even_token hd.hmt)
  · exact even_kv _ _ (by decide) (even_token hd.hmp)
  · exact even_kv _ _ (by decide) (even_token hd.hml)
  · rfl
  · exact hg hl
  · exact even_kv _ _ (by decide) (even_token (clean_showNat 0))
  · exact even_kv _ _ (by decide) (even_list hd.hma.2)
  · rfl
  · rw [hd.hnp]
    exact even_kv _ _ (by decide) (even_token (clean_showNat _))
  · decide
  · exact (by decide : Even ['-', ' ']).append (even_list (hd.hpp p hp).2)
  · rfl
  · rw [hd.hnt]
    exact even_kv _ _ (by decide) (even_token (clean_showNat _))
  · decide
  · rw [hd.htp] at hp
    obtain ⟨x, -, rfl⟩ := List.mem_map.1 hp
    exact even_kv _ _ (by decide) (even_list (nats [x.1.1, x.1.2]))
  · rw [hd.htp] at hp
    obtain ⟨x, -, rfl⟩ := List.mem_map.1 hp
    exact even_kv _ _ (by decide) (even_list (nats x.2))
  · rfl
  · exact even_kv _ _ (by decide) (even_token hd.htf)
  · exact even_kv _ _ (by decide) (even_list hd.hti.2)
  · rfl
  · exact even_kv _ _ (by decide) (even_token hd.hnc)

theorem even_text {L : List Txt} (h : ∀ l ∈ L, Even l) : Even (text L) := by
  induction L with
  | nil => rfl
  | cons l L ih =>
    rw [text_cons, show l ++ '\n' :: text L = l ++ (['\n'] ++ text L) from rfl]
    exact (h l (by simp)).append ((by decide : Even ['\n']).append
      (ih fun m hm => h m (by simp [hm])))

theorem init_not_coeffs (d : Doc) : ∀ l ∈ (render d).dropLast, ¬ "coeffs:".toList <+: l := by
  intro l hl
  rw [render_init] at hl
  unfold body at hl
  simp only [List.mem_append, List.mem_cons, List.not_mem_nil, or_false, List.mem_map,
    List.mem_flatMap] at hl
  have hg : l ∈ gtinvLines d.gtinv → ¬ "coeffs:".toList <+: l := by
    intro h
    cases hx : d.gtinv with
    | none => rw [hx] at h; cases h
    | some g =>
      obtain ⟨a, b, c, e⟩ := g
      rw [hx] at h
      simp only [gtinvLines, List.mem_cons, List.not_mem_nil, or_false] at h
      rcases h with rfl | rfl | rfl | rfl | rfl
      all_goals simp [kv]
  rcases hl with ((rfl | rfl | rfl | rfl | rfl | rfl | rfl | rfl | rfl) | hl |
    ((((rfl | rfl | rfl | rfl | rfl) | ⟨p, hp, rfl⟩) | rfl | rfl | rfl) | ⟨p, hp, rfl | rfl⟩) |
    rfl | rfl | rfl | rfl) | rfl
  case inl.inr.inl => exact hg hl
  all_goals simp [kv]

theorem init_ends (d : Doc) : ∃ a, text (render d).dropLast = a ++ ['\n'] := by
  rw [render_init, text_append]
  exact ⟨text (body d) ++ kv "n_coeffs" 1 d.nCoeffs, by simp [text]⟩

/-- **C120.** The Python reader, whatever the yaml library does within its rules, never returns
coefficients from a potential file that was cut off before the closing bracket: it raises an exception,
except that a file that ends with the key `coeffs:` is read as a potential whose coefficients are
null. -/
theorem C120_python_cut {V : Type} (showF : ℚ → Txt) (f : Fields) (o : Obj) (ho : mkObj f = .ok o)
    (coeffs scales : List ℚ) (d : Doc) (hd : save showF o coeffs scales = .ok d)
    (hs : Storable showF f) (hnl : ∀ l ∈ render d, '\n' ∉ l)
    (null : V) (parse : Txt → Option (String → Option V))
    (rules : YamlRules (text (render d)) null parse) (p : Txt) (hp : p <+: text (render d))
    (hcut : p.length + 1 < (text (render d)).length) :
    (∃ e, pyCoeffs parse p = .error e) ∨
      pyCoeffs parse p = .ok null ∧ (p = text (render d).dropLast ++ "coeffs:".toList ∨
        p = text (render d).dropLast ++ "coeffs: ".toList) := by
  have hOK := docOK ho hd hs
  have hinit : ∀ l ∈ (render d).dropLast, '\n' ∉ l := fun l hl => hnl l (List.dropLast_subset _ hl)
  have htext : text (render d) = text (render d).dropLast ++
      ("coeffs: [".toList ++ joinComma d.coeffs ++ [']', '\n']) := by
    conv_lhs => rw [render_split, text_append]
    simp [text, kv, showList]
  -- without the key there is an error
  have noKey : ∀ L : List Txt, (∀ l ∈ L, '\n' ∉ l) → (∀ l ∈ L, ¬ "coeffs:".toList <+: l) →
      p <+: text L → ∃ e, pyCoeffs parse p = .error e := by
    intro L h1 h2 h3
    unfold pyCoeffs
    cases hm : parse p with
    | none => exact ⟨_, rfl⟩
    | some m =>
      cases hc : m "coeffs" with
      | none => exact ⟨.keyError, by simp [orErr, bind, Except.bind, hc]⟩
      | some v =>
        obtain ⟨a, b, hab, ha⟩ := rules.entry p m hp hm (by rw [hc]; rfl)
        obtain ⟨l, hl, hl'⟩ := line_start L h1 a "coeffs:".toList (by decide) (by decide)
          (List.IsPrefix.trans (by rw [hab]; exact List.prefix_append _ _) h3) ha
        exact absurd hl' (h2 l hl)
  have hp' := hp
  rw [htext] at hp'
  rcases prefix_cases hp' with h | ⟨q, rfl, hq⟩
  · exact Or.inl (noKey _ hinit (init_not_coeffs d) h)
  · rw [htext] at hcut
    simp only [List.length_append, List.length_cons, List.length_nil] at hcut
    have hq' : q <+: "coeffs: [".toList ++ joinComma d.coeffs :=
      List.prefix_of_prefix_length_le hq (List.prefix_append _ _) (by
        simp only [List.length_append]
        omega)
    rcases prefix_cases hq' with h | ⟨r, rfl, hr⟩
    · have cases9 : ∀ q ∈ "coeffs: [".toList.inits, q <+: "coeffs".toList ∨ q = "coeffs:".toList ∨
          q = "coeffs: ".toList ∨ q = "coeffs: [".toList := by decide
      rcases cases9 q ((List.mem_inits _ _).2 h) with h6 | h7 | h8 | h9
      · left
        refine noKey ((render d).dropLast ++ [q]) ?_ ?_ ?_
        · intro l hl
          rcases List.mem_append.1 hl with hl | hl
          · exact hinit l hl
          · rw [List.mem_singleton] at hl
            subst hl
            intro hm
            have := h6.subset hm
            revert this
            decide
        · intro l hl
          rcases List.mem_append.1 hl with hl | hl
          · exact init_not_coeffs d l hl
          · rw [List.mem_singleton] at hl
            subst hl
            intro hm
            have := (hm.trans h6).length_le
            revert this
            decide
        · rw [text_append, List.prefix_append_right_inj]
          exact ⟨['\n'], by simp [text]⟩
      all_goals obtain ⟨a, ha⟩ := init_ends d
      · unfold pyCoeffs
        cases hm : parse (text (render d).dropLast ++ q) with
        | none => exact Or.inl ⟨_, rfl⟩
        | some m =>
          right
          have := rules.last _ m a hp hm (Or.inl (by rw [h7, ha]; simp))
          exact ⟨by simp [orErr, bind, Except.bind, this], Or.inl (by rw [h7])⟩
      · unfold pyCoeffs
        cases hm : parse (text (render d).dropLast ++ q) with
        | none => exact Or.inl ⟨_, rfl⟩
        | some m =>
          right
          have := rules.last _ m a hp hm (Or.inr (by rw [h8, ha]; simp))
          exact ⟨by simp [orErr, bind, Except.bind, this], Or.inr (by rw [h8])⟩
      · left
        refine ⟨.runtimeError, ?_⟩
        unfold pyCoeffs
        rw [rules.unclosed _ hp (by
          have := even_text (even_init hOK)
          unfold Even at this
          rw [h9, List.count_append, List.count_append, this]
          exact Nat.add_lt_add_left (by decide) _)]
        rfl
    · left
      refine ⟨.runtimeError, ?_⟩
      unfold pyCoeffs
      rw [rules.unclosed _ hp (by
        have h1 := even_text (even_init hOK)
        have h2 : r.count '[' = 0 := List.count_eq_zero.2 fun hm =>
          (mem_joinComma hOK.hco (hr.subset hm)).2.1 rfl
        have h3 : r.count ']' = 0 := List.count_eq_zero.2 fun hm =>
          (mem_joinComma hOK.hco (hr.subset hm)).2.2 rfl
        unfold Even at h1
        rw [List.count_append, List.count_append, List.count_append, List.count_append, h1, h2, h3]
        exact Nat.add_lt_add_left (by decide) _)]
      rfl

/-! ## Several files, and saves that fail -/

/-- **C120 is violated.** While a hybrid potential is saved over an older one there is, before every
file but the first, a point at which the files before it are those of the new potential and the others
those of the old one: nothing marks the mixture. -/
theorem C120_mixture_violation (showF : ℚ → Txt) (filename : String) (params : List Obj)
    (cum : List ℕ) (coeffs scales : List ℚ) (docs : ℕ → Doc)
    (hdocs : ∀ (i : ℕ) (o : Obj), params[i]? = some o →
      save showF o (partOfModel cum params.length i coeffs)
        (partOfModel cum params.length i scales) = .ok (docs i)) (disk : Disk)
    (k : ℕ) (h1 : 1 ≤ k) (hk : k < params.length) :
    ∃ j, ∀ i, i < params.length →
      crash disk (saveMlps showF filename params cum coeffs scales).1 j
        (fileOfModel filename params.length i) =
      if i < k then some (text (render (docs i))) else disk (fileOfModel filename params.length i) := by
  obtain ⟨j, hj⟩ := C120_every_point showF filename params cum coeffs scales docs hdocs disk (k - 1)
    (by omega) _ (List.prefix_refl _)
  refine ⟨j, fun i hi => ?_⟩
  rw [hj i hi]
  by_cases h : i < k - 1
  · rw [if_pos h, if_pos (by omega)]
  · by_cases h' : i = k - 1
    · rw [if_neg h, if_pos h', if_pos (by omega), h']
    · rw [if_neg h, if_neg h', if_neg (by omega)]

/-! ## Concrete cases -/

theorem demo_storable : Storable demoF demo :=
  ⟨by
      intro x hx
      rcases demo_numbers x hx with rfl | rfl | rfl | rfl <;> decide +kernel,
    by decide +kernel, by decide +kernel, by decide, by decide +kernel, by decide +kernel,
    by decide +kernel, fun _ => by decide, fun _ => by decide⟩

/-- A potential of iron and oxygen with two coefficients is stored without line breaks inside lines. -/
theorem demo_lines : ∃ o d, mkObj demo = .ok o ∧ save demoF o [1, 2] [1, 3] = .ok d ∧
    (∀ l ∈ render d, '\n' ∉ l) ∧ d.coeffs.length = 2 := by
  have h : (match mkObj demo with
      | .ok o => (match save demoF o [1, 2] [1, 3] with
        | .ok d => decide ((∀ l ∈ render d, '\n' ∉ l) ∧ d.coeffs.length = 2)
        | .error _ => false)
      | .error _ => false) = true := by decide +kernel
  split at h
  · rename_i o ho
    split at h
    · rename_i d hd
      exact ⟨o, d, ho, hd, of_decide_eq_true h⟩
    · cases h
  · cases h

/-- The hypotheses of `C120_cxx_cut_violation` hold for this potential: cut off after the first of its
two coefficients the file is read as a potential with one coefficient. -/
example : ∃ o d fp, mkObj demo = .ok o ∧ save demoF o [1, 2] [1, 3] = .ok d ∧
    readCxx (text (render d)) = .ok fp ∧ fp.regCoeffs.length = 2 ∧
    ∃ p, p <+: text (render d) ∧ readCxx p = .ok { fp with regCoeffs := fp.regCoeffs.take 1 } := by
  obtain ⟨o, d, ho, hd, hnl, -⟩ := demo_lines
  obtain ⟨fp, h1, h2, -, h3, -⟩ := C120_cxx_cut_violation demoF demo o ho [1, 2] [1, 3] d hd
    demo_storable (by simp) hnl
  exact ⟨o, d, fp, ho, hd, h1, h2, _, (h3 1 (by simp) (by simp)).1, (h3 1 (by simp) (by simp)).2⟩

/-- A number that ends early is a number: a beginning of `-6.0987654e-12` and the numbers of the C++
reader. -/
example : "-6.0987".toList <+: "-6.0987654e-12".toList ∧
    stod "-6.0987".toList = .ok (-60987 / 10000) := by
  refine ⟨by decide, ?_⟩
  have : (stod "-6.0987".toList).toOption = some (-60987 / 10000) := by decide +kernel
  cases h : stod "-6.0987".toList with
  | error e => rw [h] at this; cases this
  | ok v =>
    rw [h] at this
    simp only [Except.toOption, Option.some.injEq] at this
    rw [this]

open Classical in
/-- A library that knows the rules and nothing else: the value of an entry is `none` for null. -/
noncomputable def toyYaml (t : Txt) : Option (String → Option (Option Txt)) :=
  if t.count ']' < t.count '[' then none
  else some fun key =>
    if key ≠ "coeffs" then none
    else if ∃ a, t = a ++ "\ncoeffs:".toList ∨ t = a ++ "\ncoeffs: ".toList then some none
    else if ∃ a b, t = a ++ "coeffs:".toList ++ b ∧ (a = [] ∨ a.getLast? = some '\n') then some (some t)
    else none

/-- There are libraries that follow the rules. -/
theorem toyYaml_rules (full : Txt) : YamlRules full none toyYaml where
  unclosed t _ h := by rw [toyYaml, if_pos h]
  entry t m _ hm hs := by
    rw [toyYaml] at hm
    split at hm
    · cases hm
    · cases hm
      simp only [ne_eq, not_true_eq_false, if_false] at hs
      split at hs
      · rename_i h
        obtain ⟨a, rfl | rfl⟩ := h
        · exact ⟨a ++ ['\n'], [], by simp, Or.inr (by simp)⟩
        · exact ⟨a ++ ['\n'], [' '], by simp, Or.inr (by simp)⟩
      · split at hs
        · assumption
        · cases hs
  last t m a _ hm h := by
    rw [toyYaml] at hm
    split at hm
    · cases hm
    · cases hm
      simp only [ne_eq, not_true_eq_false, if_false]
      rw [if_pos ⟨a, h⟩]

/-- The hypotheses of `C120_python_cut` hold; its exceptional case happens: the file cut off after
`coeffs:` is loaded with null for the coefficients. -/
example : ∃ o d, mkObj demo = .ok o ∧ save demoF o [1, 2] [1, 3] = .ok d ∧
    YamlRules (text (render d)) none toyYaml ∧
    text (render d).dropLast ++ "coeffs:".toList <+: text (render d) ∧
    (text (render d).dropLast ++ "coeffs:".toList).length + 1 < (text (render d)).length ∧
    pyCoeffs toyYaml (text (render d).dropLast ++ "coeffs:".toList) = .ok none := by
  obtain ⟨o, d, ho, hd, hnl, -⟩ := demo_lines
  have htext : text (render d) = text (render d).dropLast ++
      ("coeffs:".toList ++ (" [".toList ++ joinComma d.coeffs ++ [']', '\n'])) := by
    conv_lhs => rw [render_split, text_append]
    simp [text, kv, showList]
  have hb := even_text (even_init (docOK ho hd demo_storable))
  obtain ⟨a, ha⟩ := init_ends d
  refine ⟨o, d, ho, hd, toyYaml_rules _, ?_, ?_, ?_⟩
  · conv_rhs => rw [htext]
    rw [List.prefix_append_right_inj]
    exact List.prefix_append _ _
  · conv_rhs => rw [htext]
    simp only [List.length_append, List.length_cons, List.length_nil]
    have : " [".toList.length = 2 := rfl
    omega
  · unfold pyCoeffs toyYaml
    rw [if_neg (by
      unfold Even at hb
      rw [List.count_append, List.count_append, hb]
      simp)]
    simp only [orErr, bind, Except.bind, ne_eq, not_true_eq_false, if_false]
    rw [if_pos ⟨a, Or.inl (by rw [ha]; simp)⟩]

/-- The hypotheses of the theorems on hybrid potentials hold for two parts with one coefficient
each. -/
example : ∃ (o : Obj) (docs : ℕ → Doc), ∀ (i : ℕ) (o' : Obj), [o, o][i]? = some o' →
    save demoF o' (partOfModel [1, 2] [o, o].length i [1, 2])
      (partOfModel [1, 2] [o, o].length i [1, 3]) = .ok (docs i) := by
  have h : (match mkObj demo with
      | .ok o => (match save demoF o [1] [1], save demoF o [2] [3] with
        | .ok _, .ok _ => true
        | _, _ => false)
      | .error _ => false) = true := by decide +kernel
  split at h
  · rename_i o ho
    split at h
    · rename_i d1 d2 h1 h2
      refine ⟨o, fun i => if i = 0 then d1 else d2, ?_⟩
      intro i o' hi
      match i, hi with
      | 0, hi =>
        cases hi
        exact h1
      | 1, hi =>
        cases hi
        exact h2
      | i + 2, hi => cases hi
    · cases h
  · cases h

/-- **C120 is violated.** A save that fails leaves a file: given one scale for two coefficients it raises
`ValueError`, the old file is gone, and the C++ reader takes what is there for a potential without
coefficients. -/
theorem C120_failed_violation : ∃ (o : Obj) (e : Err) (lines : List Txt) (fp : Fp),
    mkObj demo = .ok o ∧ save demoF o [1, 2] [1] = .error e ∧
    (saveMlps demoF "polymlp.yaml" [o] [] [1, 2] [1]).2 = some e ∧
    (∀ disk : Disk, crash disk (saveMlps demoF "polymlp.yaml" [o] [] [1, 2] [1]).1
      (saveMlps demoF "polymlp.yaml" [o] [] [1, 2] [1]).1.length "polymlp.yaml" = some (text lines)) ∧
    readCxx (text lines) = .ok fp ∧ fp.regCoeffs = [] ∧ fp.elements = ["Fe", "O"] := by
  have h : (match mkObj demo with
      | .ok o => decide ((save demoF o [1, 2] [1]).toOption.isNone ∧
          (readCxx (text (saveLines demoF o [1, 2] [1]).1)).toOption.map
            (fun fp => (fp.regCoeffs, fp.elements)) = some ([], ["Fe", "O"]))
      | .error _ => false) = true := by decide +kernel
  split at h
  · rename_i o ho
    obtain ⟨h1, h2⟩ := of_decide_eq_true h
    cases he : save demoF o [1, 2] [1] with
    | ok d => rw [he] at h1; cases h1
    | error e =>
      obtain ⟨lines, hl, -⟩ := saveLines_error he
      have hrun := saveLoop_fail demoF [] ⟨"polymlp.yaml", o, [1, 2], [1]⟩ [] e (by simp)
        (by rw [hl])
      have hrun' : saveMlps demoF "polymlp.yaml" [o] [] [1, 2] [1] =
          (opsOf [("polymlp.yaml", text lines)], some e) := by
        unfold saveMlps jobs
        rw [List.nil_append] at hrun
        dsimp only
        rw [hrun]
        simp [pairOf, hl]
      rw [hl] at h2
      dsimp only at h2
      cases hr : readCxx (text lines) with
      | error e => rw [hr] at h2; cases h2
      | ok fp =>
        rw [hr] at h2
        simp only [Except.toOption, Option.map_some, Option.some.injEq, Prod.mk.injEq] at h2
        refine ⟨o, e, lines, fp, ho, he, by rw [hrun'], ?_, hr, h2.1, h2.2⟩
        intro disk
        rw [hrun']
        exact final_ops [("polymlp.yaml", text lines)] (by simp) disk ("polymlp.yaml", text lines)
          (by simp)
  · cases h

end Verif.Crash
