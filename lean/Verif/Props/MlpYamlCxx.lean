import Verif.Lemmas.MlpYamlCxx
import Verif.Props.MlpYaml

/-!
# C58: the C++ reader of potential files
-/

namespace Verif.MlpYaml
open Verif.Params

theorem get_put (st : St) (k : String) (v : List Txt) (k' : String) :
    (st.put k v).get k' = if k.toList = k'.toList then v else st.get k' := by
  unfold St.put St.get
  rw [Dict.get?_set]
  by_cases h : k.toList = k'.toList
  · rw [if_pos h.symm, if_pos h]
    rfl
  · rw [if_neg (fun e => h e.symm), if_neg h]

theorem Runs.pairParams {ps : List (List Txt)} {rest : List Txt} {st : St} {r : Except Err St}
    (hp : ∀ p ∈ ps, p ≠ [] ∧ ∀ t ∈ p, Clean t)
    (h : Runs rest { st.put "n_pair_params" [showNat ps.length] with pairParams := ps } r) :
    Runs (kv "n_pair_params" 1 (showNat ps.length) :: "pair_params:".toList ::
      (ps.map (fun p => '-' :: ' ' :: showList p) ++ rest)) st r := by
  refine Runs.step (key := "n_pair_params") (v := [showNat ps.length])
    (splitC_kv (by decide) (by decide) (showNat_ne_nil _)
      fun c hc => ((clean_showNat _).2 c hc).2.2.2.1) (by decide) (splitList_scalar (clean_showNat _) 1)
    (st' := { st.put "n_pair_params" [showNat ps.length] with pairParams := ps }) (rest' := rest) ?_ ?_ h
  · unfold assign
    rw [if_pos (show (st.put "n_pair_params" [showNat ps.length]).key = "n_pair_params".toList from rfl)]
    have hg : Dict.get? (st.put "n_pair_params" [showNat ps.length]).params
        (st.put "n_pair_params" [showNat ps.length]).key = some [showNat ps.length] := by
      unfold St.put
      dsimp only
      rw [Dict.get?_set, if_pos rfl]
    rw [hg]
    simp only [orErr, bind, Except.bind, List.getElem?_cons_zero, stoi_showNat, Int.toNat_natCast,
      List.drop_succ_cons, List.drop_zero, parse2d_lines ps hp rest [], List.nil_append]
    rfl
  · simp only [List.length_cons, List.length_append]
    omega

theorem Runs.typePairs (ps : List ((ℕ × ℕ) × List ℕ)) (rest : List Txt) (st : St) (n : ℕ)
    (hn : (st.get "elements").length = n)
    (hp : ∀ p ∈ ps, p.1.1 < n ∧ p.1.2 < n ∧ p.2 ≠ []) (hk : (ps.map (·.1)).Nodup) :
    ∃ tab : List (List (List Txt)), tab.length = n ∧ (∀ r ∈ tab, r.length = n) ∧
      (∀ a b : ℕ, a < n → b < n → (tab[a]?).bind (fun r => r[b]?) =
        some (((Dict.get? ps (a, b)).getD []).map showNat)) ∧
      ∀ r, Runs rest { st.put "n_type_pairs" [showNat ps.length] with pairCond := tab } r →
        Runs (kv "n_type_pairs" 1 (showNat ps.length) :: "type_pairs:".toList ::
          (ps.flatMap pairLines ++ rest)) st r := by
  obtain ⟨tab, h1, h2, h3, h4⟩ := parsePairs_lines ps n hp hk rest
    (List.replicate n (List.replicate n [])) (by simp) (by simp)
  refine ⟨tab, h2, h3, ?_, ?_⟩
  · intro a b ha hb
    rw [h4]
    cases Dict.get? ps (a, b) with
    | some v => rfl
    | none => simp [List.getElem?_replicate, ha, hb]
  · intro r h
    refine Runs.step (key := "n_type_pairs") (v := [showNat ps.length])
      (splitC_kv (by decide) (by decide) (showNat_ne_nil _)
        fun c hc => ((clean_showNat _).2 c hc).2.2.2.1) (by decide)
      (splitList_scalar (clean_showNat _) 1)
      (st' := { st.put "n_type_pairs" [showNat ps.length] with pairCond := tab }) (rest' := rest)
      ?_ ?_ h
    · unfold assign
      rw [if_neg (by show ¬ "n_type_pairs".toList = _; decide), if_pos (show (st.put
        "n_type_pairs" [showNat ps.length]).key = "n_type_pairs".toList from rfl)]
      have hg : Dict.get? (st.put "n_type_pairs" [showNat ps.length]).params
          (st.put "n_type_pairs" [showNat ps.length]).key = some [showNat ps.length] := by
        unfold St.put
        dsimp only
        rw [Dict.get?_set, if_pos rfl]
      have he : ((Dict.get? (st.put "n_type_pairs" [showNat ps.length]).params
          "elements".toList).getD []).length = n := by
        have := get_put st "n_type_pairs" [showNat ps.length] "elements"
        rw [if_neg (by decide)] at this
        unfold St.get at this hn
        rw [this, hn]
      rw [hg, he]
      simp only [orErr, bind, Except.bind, List.getElem?_cons_zero, stoi_showNat, Int.toNat_natCast,
        List.drop_succ_cons, List.drop_zero, h1]
      rfl
    · simp only [List.length_cons, List.length_append]
      omega

theorem mass_tokens : ∀ p ∈ massTable, Clean p.2.toList ∧ (scan p.2.toList).isSome = true := by
  decide +kernel

theorem element_tokens : ∀ p ∈ massTable, Clean p.1.toList := by
  decide +kernel

/-- The mass of an element as a number. -/
def massVal (e : String) : Option ℚ :=
  ((massTable.find? fun p => p.1 == e).bind fun p => scan p.2.toList).map Num.value

theorem mapM_ok_get {α β : Type} (g : α → Except Err β) (l : List α) (r : List β)
    (h : l.mapM g = .ok r) : r.length = l.length ∧
      ∀ (i : ℕ) (a : α), l[i]? = some a → ∃ b, g a = .ok b ∧ r[i]? = some b := by
  induction l generalizing r with
  | nil =>
    rw [List.mapM_nil] at h
    cases h
    simp
  | cons a l ih =>
    rw [List.mapM_cons] at h
    cases hfa : g a with
    | error e => rw [hfa] at h; cases h
    | ok b =>
      rw [hfa] at h
      cases hl : l.mapM g with
      | error e => rw [hl] at h; cases h
      | ok r' =>
        rw [hl] at h
        cases h
        obtain ⟨i1, i2⟩ := ih r' hl
        refine ⟨by simp [i1], ?_⟩
        intro i x hx
        cases i with
        | zero =>
          simp only [List.getElem?_cons_zero, Option.some.injEq] at hx ⊢
          subst hx
          exact ⟨b, hfa, rfl⟩
        | succ i =>
          simp only [List.getElem?_cons_succ] at hx ⊢
          exact i2 i x hx

theorem mapM_of_get {α β : Type} (g : α → Except Err β) (l : List α)
    (h : ∀ a ∈ l, ∃ b, g a = .ok b) : ∃ r, l.mapM g = .ok r := by
  induction l with
  | nil => exact ⟨[], rfl⟩
  | cons a l ih =>
    obtain ⟨b, hb⟩ := h a (by simp)
    obtain ⟨r, hr⟩ := ih fun x hx => h x (by simp [hx])
    refine ⟨b :: r, ?_⟩
    rw [List.mapM_cons, hb, hr]
    rfl

theorem massOf_token {e : String} {t : Txt} (h : massOf e = .ok t) :
    Clean t ∧ ∃ q, stod t = .ok q ∧ massVal e = some q := by
  unfold massOf at h
  cases hf : massTable.find? fun p => p.1 == e with
  | none => rw [hf] at h; cases h
  | some p =>
    rw [hf] at h
    simp only [Option.map_some, orErr, Except.ok.injEq] at h
    subst h
    obtain ⟨h1, h2⟩ := mass_tokens p (List.mem_of_find?_eq_some hf)
    obtain ⟨n, hn⟩ := Option.isSome_iff_exists.1 h2
    refine ⟨h1, n.value, ?_, ?_⟩
    · simp [stod, hn, orErr, Except.map]
    · simp [massVal, hf, hn]

/-- The final state of the parser. -/
theorem parse_render (d : Doc) (pairs : Dict (ℕ × ℕ) (List ℕ)) (n : ℕ)
    (hel : d.elements ≠ [] ∧ ∀ t ∈ d.elements, Clean t) (hen : d.elements.length = n)
    (hsp : d.enableSpins ≠ [] ∧ ∀ t ∈ d.enableSpins, Clean t)
    (hcu : Clean d.cutoff) (hpt : Clean d.pairType) (hft : Clean d.featureType)
    (hmt : Clean d.modelType) (hmp : Clean d.maxP) (hml : Clean d.maxL)
    (hg : ∀ g, d.gtinv = some g → Clean g.1 ∧ (g.2.1 ≠ [] ∧ ∀ t ∈ g.2.1, Clean t) ∧
      (g.2.2.1 ≠ [] ∧ ∀ t ∈ g.2.2.1, Clean t) ∧ Clean g.2.2.2)
    (hma : d.mass ≠ [] ∧ ∀ t ∈ d.mass, Clean t)
    (hnp : d.nPairParams = showNat d.pairParams.length)
    (hpp : ∀ p ∈ d.pairParams, p ≠ [] ∧ ∀ t ∈ p, Clean t)
    (hnt : d.nTypePairs = showNat pairs.length)
    (htp : d.typePairs = pairs.map fun kv => ([showNat kv.1.1, showNat kv.1.2], kv.2.map showNat))
    (hpairs : ∀ p ∈ pairs, p.1.1 < n ∧ p.1.2 < n ∧ p.2 ≠ []) (hk : pairs.keys.Nodup)
    (htf : Clean d.typeFull) (hti : d.typeIndices ≠ [] ∧ ∀ t ∈ d.typeIndices, Clean t)
    (hnc : Clean d.nCoeffs) (hco : d.coeffs ≠ [] ∧ ∀ t ∈ d.coeffs, Clean t) :
    ∃ st, parseFile (render d) = .ok st ∧ st.pairParams = d.pairParams ∧
      st.pairCond.length = n ∧ (∀ r ∈ st.pairCond, r.length = n) ∧
      (∀ a b : ℕ, a < n → b < n → (st.pairCond[a]?).bind (fun r => r[b]?) =
        some (((Dict.get? pairs (a, b)).getD []).map showNat)) ∧
      st.get "elements" = d.elements ∧ st.get "cutoff" = [d.cutoff] ∧
      st.get "pair_type" = [d.pairType] ∧ st.get "feature_type" = [d.featureType] ∧
      st.get "model_type" = [d.modelType] ∧ st.get "max_p" = [d.maxP] ∧
      st.get "max_l" = [d.maxL] ∧ st.get "mass" = d.mass ∧
      st.get "type_indices" = d.typeIndices ∧ st.get "coeffs" = d.coeffs ∧
      (∀ g, d.gtinv = some g → st.get "gtinv_order" = [g.1] ∧ st.get "gtinv_maxl" = g.2.1 ∧
        st.get "gtinv_version" = [g.2.2.2]) := by
  have hlines : d.typePairs.flatMap (fun p => [kv "- atom_type_pair" 6 (showList p.1),
      kv "  pair_params_indices" 1 (showList p.2)]) = pairs.flatMap pairLines := by
    rw [htp, List.flatMap_map]
    rfl
  -- the lines after the invariants
  have tail : ∀ st : St, st.get "elements" = d.elements → ∃ tab : List (List (List Txt)),
      tab.length = n ∧ (∀ r ∈ tab, r.length = n) ∧
      (∀ a b : ℕ, a < n → b < n → (tab[a]?).bind (fun r => r[b]?) =
        some (((Dict.get? pairs (a, b)).getD []).map showNat)) ∧
      Runs ([kv "electrostatic" 1 (showNat 0), kv "mass" 10 (showList d.mass), [],
        kv "n_pair_params" 1 d.nPairParams, "pair_params:".toList] ++
        d.pairParams.map (fun p => '-' :: ' ' :: showList p) ++
        [[], kv "n_type_pairs" 1 d.nTypePairs, "type_pairs:".toList] ++
        pairs.flatMap pairLines ++
        [[], kv "type_full" 4 d.typeFull, kv "type_indices" 1 (showList d.typeIndices), [],
          kv "n_coeffs" 1 d.nCoeffs, kv "coeffs" 1 (showList d.coeffs)]) st
      (.ok (((({ ({ ((st.put "electrostatic" [showNat 0]).put "mass" d.mass).put "n_pair_params"
          [showNat d.pairParams.length] with pairParams := d.pairParams } : St).put "n_type_pairs"
          [showNat pairs.length] with pairCond := tab } : St).put "type_full" [d.typeFull]).put
          "type_indices" d.typeIndices).put "n_coeffs" [d.nCoeffs] |>.put "coeffs" d.coeffs)) := by
    intro st hst
    obtain ⟨tab, t1, t2, t3, t4⟩ := Runs.typePairs pairs
      [[], kv "type_full" 4 d.typeFull, kv "type_indices" 1 (showList d.typeIndices), [],
          kv "n_coeffs" 1 d.nCoeffs, kv "coeffs" 1 (showList d.coeffs)]
      ({ ((st.put "electrostatic" [showNat 0]).put "mass" d.mass).put "n_pair_params"
          [showNat d.pairParams.length] with pairParams := d.pairParams } : St) n
      (by
        show (St.get (((st.put "electrostatic" [showNat 0]).put "mass" d.mass).put "n_pair_params"
          [showNat d.pairParams.length]) "elements").length = n
        rw [get_put, if_neg (by decide), get_put, if_neg (by decide), get_put, if_neg (by decide), hst,
          hen]) hpairs hk
    refine ⟨tab, t1, t2, t3, ?_⟩
    rw [hnp, hnt]
    simp only [List.cons_append, List.nil_append, List.append_assoc]
    refine Runs.scalar (by decide) (clean_showNat 0) (by decide) (by decide) ?_
    refine Runs.list (by decide) (by decide) hma.1 hma.2 (by decide) (by decide) ?_
    refine Runs.blank ?_
    refine Runs.pairParams hpp ?_
    refine Runs.blank ?_
    refine t4 _ ?_
    refine Runs.blank ?_
    refine Runs.scalar (by decide) htf (by decide) (by decide) ?_
    refine Runs.list (by decide) (by decide) hti.1 hti.2 (by decide) (by decide) ?_
    refine Runs.blank ?_
    refine Runs.scalar (by decide) hnc (by decide) (by decide) ?_
    refine Runs.list (by decide) (by decide) hco.1 hco.2 (by decide) (by decide) ?_
    exact Runs.nil _
  -- the first lines
  have head : ∀ (rest : List Txt) (r : Except Err St), Runs rest ((((((((({} : St).put "elements"
      d.elements).put "enable_spins" d.enableSpins).put "cutoff" [d.cutoff]).put "pair_type"
      [d.pairType]).put "feature_type" [d.featureType]).put "model_type" [d.modelType]).put "max_p"
      [d.maxP]).put "max_l" [d.maxL]) r →
      Runs ([kv "elements" 6 (showList d.elements), kv "enable_spins" 2 (showList d.enableSpins),
        kv "cutoff" 8 d.cutoff, kv "pair_type" 5 d.pairType, kv "feature_type" 2 d.featureType,
        kv "model_type" 4 d.modelType, kv "max_p" 9 d.maxP, kv "max_l" 9 d.maxL, []] ++ rest) {} r := by
    intro rest r h
    simp only [List.cons_append, List.nil_append]
    refine Runs.list (by decide) (by decide) hel.1 hel.2 (by decide) (by decide) ?_
    refine Runs.list (by decide) (by decide) hsp.1 hsp.2 (by decide) (by decide) ?_
    refine Runs.scalar (by decide) hcu (by decide) (by decide) ?_
    refine Runs.scalar (by decide) hpt (by decide) (by decide) ?_
    refine Runs.scalar (by decide) hft (by decide) (by decide) ?_
    refine Runs.scalar (by decide) hmt (by decide) (by decide) ?_
    refine Runs.scalar (by decide) hmp (by decide) (by decide) ?_
    refine Runs.scalar (by decide) hml (by decide) (by decide) ?_
    exact Runs.blank h
  have hrender : render d = [kv "elements" 6 (showList d.elements),
        kv "enable_spins" 2 (showList d.enableSpins),
        kv "cutoff" 8 d.cutoff, kv "pair_type" 5 d.pairType, kv "feature_type" 2 d.featureType,
        kv "model_type" 4 d.modelType, kv "max_p" 9 d.maxP, kv "max_l" 9 d.maxL, []] ++
      (gtinvLines d.gtinv ++ ([kv "electrostatic" 1 (showNat 0), kv "mass" 10 (showList d.mass), [],
        kv "n_pair_params" 1 d.nPairParams, "pair_params:".toList] ++
        d.pairParams.map (fun p => '-' :: ' ' :: showList p) ++
        [[], kv "n_type_pairs" 1 d.nTypePairs, "type_pairs:".toList] ++
        pairs.flatMap pairLines ++
        [[], kv "type_full" 4 d.typeFull, kv "type_indices" 1 (showList d.typeIndices), [],
          kv "n_coeffs" 1 d.nCoeffs, kv "coeffs" 1 (showList d.coeffs)])) := by
    unfold render
    rw [hlines]
    simp only [List.append_assoc]
  have fin : ∀ st : St, Runs (render d) {} (.ok st) → parseFile (render d) = .ok st :=
    fun st h => h _ (le_refl _)
  have gets : ∀ (st : St) (tab : List (List (List Txt))) (key : String),
      (((({ ({ ((st.put "electrostatic" [showNat 0]).put "mass" d.mass).put "n_pair_params"
          [showNat d.pairParams.length] with pairParams := d.pairParams } : St).put "n_type_pairs"
          [showNat pairs.length] with pairCond := tab } : St).put "type_full" [d.typeFull]).put
          "type_indices" d.typeIndices).put "n_coeffs" [d.nCoeffs] |>.put "coeffs" d.coeffs).get key =
      if "coeffs".toList = key.toList then d.coeffs
      else if "n_coeffs".toList = key.toList then [d.nCoeffs]
      else if "type_indices".toList = key.toList then d.typeIndices
      else if "type_full".toList = key.toList then [d.typeFull]
      else if "n_type_pairs".toList = key.toList then [showNat pairs.length]
      else if "n_pair_params".toList = key.toList then [showNat d.pairParams.length]
      else if "mass".toList = key.toList then d.mass
      else if "electrostatic".toList = key.toList then [showNat 0] else st.get key := by
    intro st tab key
    rw [get_put, get_put, get_put, get_put]
    have e1 : ∀ (s : St) (x : List (List (List Txt))), ({ s with pairCond := x } : St).get key =
        s.get key := fun _ _ => rfl
    have e2 : ∀ (s : St) (x : List (List Txt)), ({ s with pairParams := x } : St).get key =
        s.get key := fun _ _ => rfl
    rw [e1, get_put, e2, get_put, get_put, get_put]
  cases hgt : d.gtinv with
  | none =>
    obtain ⟨tab, t1, t2, t3, t4⟩ := tail ((((((((({} : St).put "elements"
      d.elements).put "enable_spins" d.enableSpins).put "cutoff" [d.cutoff]).put "pair_type"
      [d.pairType]).put "feature_type" [d.featureType]).put "model_type" [d.modelType]).put "max_p"
      [d.maxP]).put "max_l" [d.maxL]) (by simp only [get_put]; simp)
    refine ⟨_, fin _ (by rw [hrender, hgt]; exact head _ _ t4), rfl, t1, t2, t3, ?_⟩
    simp only [gets, get_put]
    simp
  | some g =>
    obtain ⟨go, gl, gs, gv⟩ := g
    obtain ⟨g1, g2, g3, g4⟩ := hg _ hgt
    dsimp only at g1 g2 g3 g4
    obtain ⟨tab, t1, t2, t3, t4⟩ := tail (((((((((((({} : St).put "elements"
      d.elements).put "enable_spins" d.enableSpins).put "cutoff" [d.cutoff]).put "pair_type"
      [d.pairType]).put "feature_type" [d.featureType]).put "model_type" [d.modelType]).put "max_p"
      [d.maxP]).put "max_l" [d.maxL]).put "gtinv_order" [go]).put "gtinv_maxl" gl).put "gtinv_sym"
      gs |>.put "gtinv_version" [gv]) (by simp only [get_put]; simp)
    refine ⟨_, fin _ (by
      rw [hrender, hgt]
      refine head _ _ ?_
      simp only [gtinvLines, List.cons_append, List.nil_append]
      refine Runs.scalar (by decide) g1 (by decide) (by decide) ?_
      refine Runs.list (by decide) (by decide) g2.1 g2.2 (by decide) (by decide) ?_
      refine Runs.list (by decide) (by decide) g3.1 g3.2 (by decide) (by decide) ?_
      refine Runs.scalar (by decide) g4 (by decide) (by decide) ?_
      refine Runs.blank ?_
      simpa only [List.cons_append, List.nil_append] using t4), rfl, t1, t2, t3, ?_⟩
    simp only [gets, get_put]
    simp

/-- **C58.** The C++ reader, run on the text that is written for a potential, returns the elements, the
model parameters, the pair parameters, the table of pair parameters for every pair of types, the
masses, and twice the coefficients divided by the scales (to sixteen significant digits).  `showF`,
Python's `repr` of a float, must print tokens from which `std::stod` reads the number back. -/
theorem C58_cxx_reader (showF : ℚ → Txt) (f : Fields) (o : Obj) (ho : mkObj f = .ok o)
    (coeffs scales : List ℚ) (d : Doc) (hd : save showF o coeffs scales = .ok d)
    (hF : ∀ x, x = f.mod.cutoff ∨ (∃ p ∈ f.mod.pairParams, x ∈ p) →
      Clean (showF x) ∧ stod (showF x) = .ok x)
    (hpt : Clean f.mod.pairType.toList) (hft : Clean f.mod.featureType.toList)
    (hel : f.single.elements ≠ [])
    (hpp : ∀ p ∈ f.mod.pairParams, p ≠ [])
    (hpairs : ∀ p ∈ f.single.pairs, p.1.1 < f.single.nType ∧ p.1.2 < f.single.nType ∧ p.2 ≠ [])
    (hk : f.single.pairs.keys.Nodup)
    (hgl : f.mod.featureType = "gtinv" → f.mod.gtinv.maxL ≠ [])
    (hti : f.typeFull.isSome → f.typeIndices ≠ []) (hco : coeffs ≠ []) :
    ∃ fp, parsePolymlp (render d) = .ok fp ∧
      fp.elements = f.single.elements ∧ fp.cutoff = f.mod.cutoff ∧
      fp.pairType = f.mod.pairType ∧ fp.featureType = f.mod.featureType ∧
      fp.modelType = f.mod.modelType ∧ fp.maxP = f.mod.maxP ∧ fp.maxL = f.mod.maxL ∧
      fp.gtinv = (if f.mod.featureType = "gtinv" then
        some ((f.mod.gtinv.order : ℤ), f.mod.gtinv.maxL.map (fun (l : ℕ) => (l : ℤ)),
          if f.mod.gtinv.version = 2 then 2 else 1) else none) ∧
      fp.params = f.mod.pairParams ∧
      fp.paramsConditional.length = f.single.nType ∧
      (∀ i j : ℕ, i < f.single.nType → j < f.single.nType →
        (fp.paramsConditional[i]?).bind (fun r => r[j]?) =
          some (((f.single.pairs.get? (i, j)).getD []).map (fun (k : ℕ) => (k : ℤ)))) ∧
      fp.mass.map some = o.cur.single.elements.map massVal ∧
      fp.regCoeffs.length = coeffs.length ∧
      (∀ (i : ℕ) (c s : ℚ), coeffs[i]? = some c → scales[i]? = some s →
        ∃ v, fp.regCoeffs[i]? = some v ∧ |v - 2 * (c / s)| ≤ |2 * (c / s)| / (2 * 10 ^ 15)) := by
  have hobj : ∃ s, mkSingle f.single = .ok s ∧ o = ⟨{ f with single := s }, f⟩ := by
    unfold mkObj at ho
    split at ho
    · cases ho
    · cases hs : mkSingle f.single with
      | error e => rw [hs] at ho; cases ho
      | ok s =>
        rw [hs] at ho
        simp only [Except.map, Except.ok.injEq] at ho
        exact ⟨s, rfl, ho.symm⟩
  obtain ⟨s, hs, rfl⟩ := hobj
  unfold save at hd
  cases hm : List.mapM massOf s.elements with
  | error e =>
    simp only [hm] at hd
    cases hd
  | ok mass =>
  simp only [hm, bind, Except.bind] at hd
  by_cases hlen : coeffs.length = scales.length
  swap
  · rw [if_pos hlen] at hd
    cases hd
  rw [if_neg (by simpa using hlen)] at hd
  simp only [pure, Except.pure, Except.ok.injEq] at hd
  have hc := mkSingle_checks hs
  have hn : f.single.elements.length = f.single.nType := by
    unfold checkErrors at hc
    simp only [Bool.and_eq_true, beq_iff_eq] at hc
    exact hc.1.1
  -- every element of the file is one of the current types
  have hsub : f.single.elements ≠ [] → ∀ e ∈ f.single.elements, e ∈ s.elements := by
    intro _ e he
    exact elements_subset hs e he
  have hmem : ∀ e ∈ f.single.elements, ∃ p ∈ massTable, p.1 = e := by
    intro e he
    obtain ⟨t, ht⟩ := mapM_ok_mem _ _ _ hm e (hsub hel e he)
    exact massOf_ok ht
  have cleanNats : ∀ l : List ℕ, ∀ t ∈ l.map showNat, Clean t := by
    intro l t ht
    obtain ⟨a, _, rfl⟩ := List.mem_map.1 ht
    exact clean_showNat _
  have hmm := mapM_ok_get _ _ _ hm
  have hmassTok : ∀ t ∈ mass, ∃ e ∈ s.elements, massOf e = .ok t := by
    intro t ht
    obtain ⟨i, hi, rfl⟩ := List.getElem_of_mem ht
    have hi' : i < s.elements.length := by omega
    obtain ⟨b, hb1, hb2⟩ := hmm.2 i s.elements[i] (List.getElem?_eq_getElem hi')
    rw [List.getElem?_eq_getElem hi] at hb2
    simp only [Option.some.injEq] at hb2
    exact ⟨_, List.getElem_mem hi', by rw [hb1, hb2]⟩
  have hsne : s.elements ≠ [] := by
    obtain ⟨e, he⟩ := List.exists_mem_of_ne_nil _ hel
    exact List.ne_nil_of_mem (hsub hel e he)
  have hflen : (spinFlags f.single).length = f.single.elements.length := by
    rw [spinFlags_eq, List.length_map]
    unfold checkErrors at hc
    simp only [Bool.and_eq_true, beq_iff_eq] at hc
    unfold flagsOf
    cases hsp : f.single.enableSpins with
    | none => simp
    | some v =>
      rw [hsp] at hc
      simp only [Option.all_some, beq_iff_eq] at hc
      simp [hc.2, hc.1.1]
  obtain ⟨st, p0, p1, p2, p3, p4, p5, p6, p7, p8, p9, p10, p11, p12, p13, p14, p15⟩ :=
    parse_render d f.single.pairs f.single.nType
    (by
      rw [← hd]
      refine ⟨by simpa using hel, ?_⟩
      intro t ht
      obtain ⟨e, he, rfl⟩ := List.mem_map.1 ht
      obtain ⟨p, hp, rfl⟩ := hmem e he
      exact element_tokens p hp)
    (by rw [← hd]; simpa using hn)
    (by
      rw [← hd]
      refine ⟨?_, cleanNats _⟩
      intro h
      have := congrArg List.length h
      simp only [List.length_map, hflen, List.length_nil] at this
      exact hel (List.length_eq_zero_iff.1 this))
    (by rw [← hd]; exact (hF _ (Or.inl rfl)).1) (by rw [← hd]; exact hpt) (by rw [← hd]; exact hft)
    (by rw [← hd]; exact clean_showNat _) (by rw [← hd]; exact clean_showNat _)
    (by rw [← hd]; exact clean_showNat _)
    (by
      rw [← hd]
      intro g hg
      dsimp only at hg
      unfold gtinvEntry at hg
      split at hg
      · rename_i hfe
        simp only [Option.some.injEq] at hg
        subst hg
        refine ⟨clean_showNat _, ⟨by simpa using hgl hfe, cleanNats _⟩,
          ⟨by simpa using hgl hfe, ?_⟩, clean_showNat _⟩
        intro t ht
        obtain ⟨_, _, rfl⟩ := List.mem_map.1 ht
        exact clean_showNat _
      · cases hg)
    (by
      rw [← hd]
      refine ⟨?_, ?_⟩
      · intro h
        have := hmm.1
        dsimp only at h
        rw [h] at this
        exact hsne (List.length_eq_zero_iff.1 this.symm)
      · intro t ht
        obtain ⟨e, _, he⟩ := hmassTok t ht
        exact (massOf_token he).1)
    (by rw [← hd]; simp)
    (by
      rw [← hd]
      intro p hp
      obtain ⟨q, hq, rfl⟩ := List.mem_map.1 hp
      refine ⟨by simpa using hpp q hq, ?_⟩
      intro t ht
      obtain ⟨x, hx, rfl⟩ := List.mem_map.1 ht
      exact (hF x (Or.inr ⟨q, hq, hx⟩)).1)
    (by rw [← hd]) (by rw [← hd]) hpairs hk (by rw [← hd]; exact clean_showNat _)
    (by
      rw [← hd]
      refine ⟨?_, cleanNats _⟩
      dsimp only
      unfold typeInfo
      cases htf : f.typeFull with
      | none =>
        intro h
        simp only [List.map_eq_nil_iff, List.range_eq_nil] at h
        rw [h] at hn
        exact hel (List.length_eq_zero_iff.1 hn)
      | some b => simpa using hti (by rw [htf]; rfl))
    (by rw [← hd]; exact clean_showNat _)
    (by
      rw [← hd]
      refine ⟨?_, ?_⟩
      · intro h
        have := congrArg List.length h
        simp only [List.length_map, List.length_zipWith, ← hlen, min_self, List.length_nil] at this
        exact hco (List.length_eq_zero_iff.1 this)
      · intro t ht
        obtain ⟨x, _, rfl⟩ := List.mem_map.1 ht
        exact clean_fmtE x)
  rw [← hd] at p1 p5 p6 p7 p8 p9 p10 p11 p12 p13 p14 p15
  dsimp only at p1 p5 p6 p7 p8 p9 p10 p11 p12 p13 p14 p15
  have get0 : ∀ (key : String) (t : Txt), st.get key = [t] → st.get0 key = .ok t := by
    intro key t h
    unfold St.get0
    rw [h]
    rfl
  have nats : ∀ l : List ℕ, (l.map showNat).mapM stoi = .ok (l.map fun (k : ℕ) => (k : ℤ)) := fun l =>
    mapM_map_ok stoi showNat (fun (k : ℕ) => (k : ℤ)) l fun a _ => stoi_showNat a
  have ex1 : fpGtinv st f.mod.featureType = .ok (if f.mod.featureType = "gtinv" then
        some ((f.mod.gtinv.order : ℤ), f.mod.gtinv.maxL.map (fun (l : ℕ) => (l : ℤ)),
          if f.mod.gtinv.version = 2 then 2 else 1) else none) := by
    unfold fpGtinv
    by_cases hfe : f.mod.featureType = "gtinv"
    · rw [if_pos hfe, if_pos hfe]
      obtain ⟨g1, g2, g3⟩ := p15 _ (by unfold gtinvEntry; rw [if_pos hfe])
      rw [get0 _ _ g1, get0 _ _ g3, g2]
      simp only [bind, Except.bind, stoi_showNat, nats, pure, Except.pure]
      congr 4
      by_cases hv : f.mod.gtinv.version = 2
      · simp [hv]
      · have : (f.mod.gtinv.version : ℤ) ≠ 2 := by exact_mod_cast hv
        simp [hv, this]
    · rw [if_neg hfe, if_neg hfe]
  have ex2 : ((List.zipWith (· / ·) coeffs scales).map fmtE).mapM stod =
      .ok ((List.zipWith (· / ·) coeffs scales).map roundE) :=
    mapM_map_ok _ _ _ _ fun x _ => stod_fmtE x
  have ex3 : (f.mod.pairParams.map fun p => p.map showF).mapM (fun p => p.mapM stod) =
      .ok f.mod.pairParams := by
    have := mapM_map_ok (fun p : List Txt => p.mapM stod) (fun p : List ℚ => p.map showF) id
      f.mod.pairParams fun p hp => by
        have := mapM_map_ok stod showF id p fun x hx => (hF x (Or.inr ⟨p, hp, hx⟩)).2
        simpa using this
    simpa using this
  have cell : ∀ r ∈ st.pairCond, ∀ c ∈ r, ∃ l : List ℕ, c = l.map showNat := by
    intro r hr c hcm
    obtain ⟨a, ha, rfl⟩ := List.getElem_of_mem hr
    obtain ⟨b, hb, rfl⟩ := List.getElem_of_mem hcm
    have := p4 a b (by omega) (by have := p3 _ hr; omega)
    rw [List.getElem?_eq_getElem ha] at this
    simp only [Option.bind_some, List.getElem?_eq_getElem hb, Option.some.injEq] at this
    exact ⟨_, this⟩
  obtain ⟨cond, hcond⟩ := mapM_of_get (fun r : List (List Txt) => r.mapM fun c => c.mapM stoi)
    st.pairCond fun r hr => mapM_of_get _ r fun c hcm => by
      obtain ⟨l, rfl⟩ := cell r hr c hcm
      exact ⟨_, nats l⟩
  obtain ⟨mv, hmv⟩ := mapM_of_get stod mass fun t ht => by
    obtain ⟨e, _, he⟩ := hmassTok t ht
    obtain ⟨q, hq, _⟩ := (massOf_token he).2
    exact ⟨q, hq⟩
  refine ⟨_, by
    unfold parsePolymlp
    rw [p0]
    simp only [bind, Except.bind, get0 _ _ p6, get0 _ _ p7, get0 _ _ p8, get0 _ _ p9, get0 _ _ p10,
      get0 _ _ p11, (hF _ (Or.inl rfl)).2, stoi_showNat, String.ofList_toList, ex1, p14, ex2, p1, ex3,
      hcond, p12, hmv, p13, nats, pure, Except.pure, p5, List.map_map]
    rfl, ?_, rfl, rfl, rfl, rfl, rfl,
    rfl, rfl, rfl, ?_, ?_, ?_, ?_, ?_⟩
  · have : String.ofList ∘ String.toList = id := funext fun x => String.ofList_toList
    simp [this]
  · rw [(mapM_ok_get _ _ _ hcond).1, p2]
  · intro i j hi hj
    have hi' : i < st.pairCond.length := by omega
    obtain ⟨row, h1, h2⟩ := (mapM_ok_get _ _ _ hcond).2 i _ (List.getElem?_eq_getElem hi')
    have hrow := p3 _ (List.getElem_mem hi')
    have hj' : j < (st.pairCond[i]).length := by omega
    obtain ⟨c, h3, h4⟩ := (mapM_ok_get _ _ _ h1).2 j _ (List.getElem?_eq_getElem hj')
    have h5 := p4 i j hi hj
    rw [List.getElem?_eq_getElem hi'] at h5
    simp only [Option.bind_some, List.getElem?_eq_getElem hj', Option.some.injEq] at h5
    rw [h5, nats] at h3
    simp only [Except.ok.injEq] at h3
    rw [h2]
    simp only [Option.bind_some, h4, h3]
  · apply List.ext_getElem?
    intro i
    rw [List.getElem?_map, List.getElem?_map]
    have hl1 := (mapM_ok_get _ _ _ hmv).1
    by_cases hi : i < s.elements.length
    · obtain ⟨t, h1, h2⟩ := hmm.2 i _ (List.getElem?_eq_getElem hi)
      obtain ⟨q, h3, h4⟩ := (mapM_ok_get _ _ _ hmv).2 i _ h2
      obtain ⟨q', h5, h6⟩ := (massOf_token h1).2
      rw [h3] at h5
      simp only [Except.ok.injEq] at h5
      rw [h4, List.getElem?_eq_getElem hi]
      simp [h6, h5]
    · rw [List.getElem?_eq_none (show mv.length ≤ i by have := hmm.1; omega), List.getElem?_eq_none (by
        show s.elements.length ≤ i
        omega)]
      rfl
  · simp [hlen]
  · intro i c t hci hti'
    refine ⟨roundE (c / t) * 2, ?_, ?_⟩
    · simp [List.getElem?_zipWith, hci, hti']
    · have := roundE_error (c / t)
      rw [show roundE (c / t) * 2 - 2 * (c / t) = 2 * (roundE (c / t) - c / t) by ring, abs_mul, abs_mul,
        abs_two, mul_div_assoc]
      exact mul_le_mul_of_nonneg_left this (by norm_num)

/-- The hypotheses of C58 hold for a concrete spin-polarised potential with invariants. -/
example : (∃ o d, mkObj demo = .ok o ∧ save demoF o [1, 2] [1, 3] = .ok d) ∧
    (∀ x, x = demo.mod.cutoff ∨ (∃ p ∈ demo.mod.pairParams, x ∈ p) →
      Clean (demoF x) ∧ stod (demoF x) = .ok x) ∧
    Clean demo.mod.pairType.toList ∧ Clean demo.mod.featureType.toList ∧
    demo.single.elements ≠ [] ∧ (∀ p ∈ demo.mod.pairParams, p ≠ []) ∧
    (∀ p ∈ demo.single.pairs,
      p.1.1 < demo.single.nType ∧ p.1.2 < demo.single.nType ∧ p.2 ≠ []) ∧
    demo.single.pairs.keys.Nodup ∧ demo.mod.gtinv.maxL ≠ [] ∧
    demo.typeIndices ≠ [] := by
  refine ⟨demo_saved, ?_, by decide +kernel, by decide +kernel, by decide, by decide +kernel,
    by decide +kernel, by decide +kernel, by decide, by decide⟩
  intro x hx
  rcases demo_numbers x hx with rfl | rfl | rfl | rfl <;> decide +kernel

end Verif.MlpYaml
