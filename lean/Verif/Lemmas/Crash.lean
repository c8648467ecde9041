import Verif.Model.Crash
import Verif.Props.MlpYamlCxx

/-!
# Lemmas on the reading of cut potential files
-/

namespace Verif.MlpYaml
open Verif.Params

/-- The tokens of a document, its coefficients aside, are ones that the reader takes apart again. -/
structure DocOK (d : Doc) (pairs : Dict (ℕ × ℕ) (List ℕ)) (n : ℕ) : Prop where
  hel : d.elements ≠ [] ∧ ∀ t ∈ d.elements, Clean t
  hen : d.elements.length = n
  hsp : d.enableSpins ≠ [] ∧ ∀ t ∈ d.enableSpins, Clean t
  hcu : Clean d.cutoff
  hpt : Clean d.pairType
  hft : Clean d.featureType
  hmt : Clean d.modelType
  hmp : Clean d.maxP
  hml : Clean d.maxL
  hg : ∀ g, d.gtinv = some g → Clean g.1 ∧ (g.2.1 ≠ [] ∧ ∀ t ∈ g.2.1, Clean t) ∧
      (g.2.2.1 ≠ [] ∧ ∀ t ∈ g.2.2.1, Clean t) ∧ Clean g.2.2.2
  hma : d.mass ≠ [] ∧ ∀ t ∈ d.mass, Clean t
  hnp : d.nPairParams = showNat d.pairParams.length
  hpp : ∀ p ∈ d.pairParams, p ≠ [] ∧ ∀ t ∈ p, Clean t
  hnt : d.nTypePairs = showNat pairs.length
  htp : d.typePairs = pairs.map fun kv => ([showNat kv.1.1, showNat kv.1.2], kv.2.map showNat)
  hpairs : ∀ p ∈ pairs, p.1.1 < n ∧ p.1.2 < n ∧ p.2 ≠ []
  hk : pairs.keys.Nodup
  htf : Clean d.typeFull
  hti : d.typeIndices ≠ [] ∧ ∀ t ∈ d.typeIndices, Clean t
  hnc : Clean d.nCoeffs
  hco : ∀ t ∈ d.coeffs, Clean t

/-- The lines of a document before the coefficients. -/
def body (d : Doc) : List Txt :=
  [kv "elements" 6 (showList d.elements), kv "enable_spins" 2 (showList d.enableSpins),
    kv "cutoff" 8 d.cutoff, kv "pair_type" 5 d.pairType, kv "feature_type" 2 d.featureType,
    kv "model_type" 4 d.modelType, kv "max_p" 9 d.maxP, kv "max_l" 9 d.maxL, []] ++
  (gtinvLines d.gtinv ++
  ([kv "electrostatic" 1 (showNat 0), kv "mass" 10 (showList d.mass), [],
    kv "n_pair_params" 1 d.nPairParams, "pair_params:".toList] ++
  d.pairParams.map (fun p => '-' :: ' ' :: showList p) ++
  [[], kv "n_type_pairs" 1 d.nTypePairs, "type_pairs:".toList] ++
  d.typePairs.flatMap (fun p => [kv "- atom_type_pair" 6 (showList p.1),
    kv "  pair_params_indices" 1 (showList p.2)]) ++
  [[], kv "type_full" 4 d.typeFull, kv "type_indices" 1 (showList d.typeIndices), []]))

theorem render_body (d : Doc) : render d = body d ++
    [kv "n_coeffs" 1 d.nCoeffs, kv "coeffs" 1 (showList d.coeffs)] := by
  unfold render body
  simp only [List.append_assoc, List.cons_append, List.nil_append]

theorem table_unique {α : Type} (n : ℕ) (t t' : List (List α)) (f : ℕ → ℕ → α)
    (h1 : t.length = n) (h2 : ∀ r ∈ t, r.length = n)
    (h3 : ∀ a b : ℕ, a < n → b < n → (t[a]?).bind (fun r => r[b]?) = some (f a b))
    (g1 : t'.length = n) (g2 : ∀ r ∈ t', r.length = n)
    (g3 : ∀ a b : ℕ, a < n → b < n → (t'[a]?).bind (fun r => r[b]?) = some (f a b)) : t = t' := by
  apply List.ext_getElem (by omega)
  intro a ha ga
  have r1 := h2 _ (List.getElem_mem ha)
  have r2 := g2 _ (List.getElem_mem ga)
  apply List.ext_getElem (by omega)
  intro b hb gb
  have e1 := h3 a b (by omega) (by omega)
  have e2 := g3 a b (by omega) (by omega)
  rw [List.getElem?_eq_getElem ha, Option.bind_some, List.getElem?_eq_getElem hb,
    Option.some.injEq] at e1
  rw [List.getElem?_eq_getElem ga, Option.bind_some, List.getElem?_eq_getElem gb,
    Option.some.injEq] at e2
  rw [e1, e2]

/-- The state of the parser before the coefficients. -/
theorem parse_body (d : Doc) (pairs : Dict (ℕ × ℕ) (List ℕ)) (n : ℕ) (hd : DocOK d pairs n) :
    ∃ st : St, st.get "coeffs" = [] ∧
      ∀ (R : List Txt) (r : Except Err St), Runs R st r → Runs (body d ++ R) {} r := by
  obtain ⟨hel, hen, hsp, hcu, hpt, hft, hmt, hmp, hml, hg, hma, hnp, hpp, hnt, htp, hpairs, hk, htf,
    hti, -, -⟩ := hd
  have hlines : d.typePairs.flatMap (fun p => [kv "- atom_type_pair" 6 (showList p.1),
      kv "  pair_params_indices" 1 (showList p.2)]) = pairs.flatMap pairLines := by
    rw [htp, List.flatMap_map]
    rfl
  -- the lines after the invariants
  have tail : ∀ st : St, st.get "elements" = d.elements → st.get "coeffs" = [] → ∃ st' : St,
      st'.get "coeffs" = [] ∧ ∀ (R : List Txt) (r : Except Err St), Runs R st' r →
      Runs ([kv "electrostatic" 1 (showNat 0), kv "mass" 10 (showList d.mass), [],
        kv "n_pair_params" 1 d.nPairParams, "pair_params:".toList] ++
        d.pairParams.map (fun p => '-' :: ' ' :: showList p) ++
        [[], kv "n_type_pairs" 1 d.nTypePairs, "type_pairs:".toList] ++
        pairs.flatMap pairLines ++
        [[], kv "type_full" 4 d.typeFull, kv "type_indices" 1 (showList d.typeIndices), []] ++ R)
        st r := by
    intro st hst hst0
    have hl : (St.get ({ ((st.put "electrostatic" [showNat 0]).put "mass" d.mass).put "n_pair_params"
          [showNat d.pairParams.length] with pairParams := d.pairParams } : St) "elements").length =
          n := by
      show (St.get (((st.put "electrostatic" [showNat 0]).put "mass" d.mass).put "n_pair_params"
        [showNat d.pairParams.length]) "elements").length = n
      rw [get_put, if_neg (by decide), get_put, if_neg (by decide), get_put, if_neg (by decide), hst,
        hen]
    obtain ⟨tab, t1, t2, t3, -⟩ := Runs.typePairs pairs [] _ n hl hpairs hk
    refine ⟨((({ ({ ((st.put "electrostatic" [showNat 0]).put "mass" d.mass).put "n_pair_params"
          [showNat d.pairParams.length] with pairParams := d.pairParams } : St).put "n_type_pairs"
          [showNat pairs.length] with pairCond := tab } : St).put "type_full" [d.typeFull]).put
          "type_indices" d.typeIndices), ?_, ?_⟩
    · have e1 : ∀ (s : St) (x : List (List (List Txt))) (key : String),
          ({ s with pairCond := x } : St).get key = s.get key := fun _ _ _ => rfl
      have e2 : ∀ (s : St) (x : List (List Txt)) (key : String),
          ({ s with pairParams := x } : St).get key = s.get key := fun _ _ _ => rfl
      simp only [get_put, e1, e2, hst0]
      simp
    · intro R r h
      obtain ⟨tab', t1', t2', t3', t4⟩ := Runs.typePairs pairs
        ([[], kv "type_full" 4 d.typeFull, kv "type_indices" 1 (showList d.typeIndices), []] ++ R)
        _ n hl hpairs hk
      have et := table_unique n tab tab' _ t1 t2 t3 t1' t2' t3'
      subst et
      rw [hnp, hnt]
      simp only [List.cons_append, List.nil_append, List.append_assoc] at t4 ⊢
      refine Runs.scalar (by decide) (clean_showNat 0) (by decide) (by decide) ?_
      refine Runs.list (by decide) (by decide) hma.1 hma.2 (by decide) (by decide) ?_
      refine Runs.blank ?_
      refine Runs.pairParams hpp ?_
      refine Runs.blank ?_
      refine t4 _ ?_
      refine Runs.blank ?_
      refine Runs.scalar (by decide) htf (by decide) (by decide) ?_
      refine Runs.list (by decide) (by decide) hti.1 hti.2 (by decide) (by decide) ?_
      exact Runs.blank h
  -- the first lines
  have head : ∀ (rest : List Txt) (r : Except Err St), Runs rest ((((((((({} : St).put "elements"
      d.elements).put "enable_spins" d.enableSpins).put "cutoff" [d.cutoff]).put "pair_type"
      [d.pairType]).put "feature_type" [d.featureType]).put "model_type" [d.modelType]).put "max_p"
      [d.maxP]).put "max_l" [d.maxL]) r →
      Runs ([kv "elements" 6 (showList d.elements), kv "enable_spins" 2 (showList d.enableSpins),
        kv "cutoff" 8 d.cutoff, kv "pair_type" 5 d.pairType, kv "feature_type" 2 d.featureType,
        kv "model_type" 4 d.modelType, kv "max_p" 9 d.maxP, kv "max_l" 9 d.maxL, []] ++ rest) {} r := by
    intro rest r h
    simp only [List.cons_append, List.nil_append]
    refine Runs.list (by decide) (by decide) hel.1 hel.2 (by decide) (by decide) ?_
    refine Runs.list (by decide) (by decide) hsp.1 hsp.2 (by decide) (by decide) ?_
    refine Runs.scalar (by decide) hcu (by decide) (by decide) ?_
    refine Runs.scalar (by decide) hpt (by decide) (by decide) ?_
    refine Runs.scalar (by decide) hft (by decide) (by decide) ?_
    refine Runs.scalar (by decide) hmt (by decide) (by decide) ?_
    refine Runs.scalar (by decide) hmp (by decide) (by decide) ?_
    refine Runs.scalar (by decide) hml (by decide) (by decide) ?_
    exact Runs.blank h
  have hbody : body d = [kv "elements" 6 (showList d.elements),
        kv "enable_spins" 2 (showList d.enableSpins),
        kv "cutoff" 8 d.cutoff, kv "pair_type" 5 d.pairType, kv "feature_type" 2 d.featureType,
        kv "model_type" 4 d.modelType, kv "max_p" 9 d.maxP, kv "max_l" 9 d.maxL, []] ++
      (gtinvLines d.gtinv ++ ([kv "electrostatic" 1 (showNat 0), kv "mass" 10 (showList d.mass), [],
        kv "n_pair_params" 1 d.nPairParams, "pair_params:".toList] ++
        d.pairParams.map (fun p => '-' :: ' ' :: showList p) ++
        [[], kv "n_type_pairs" 1 d.nTypePairs, "type_pairs:".toList] ++
        pairs.flatMap pairLines ++
        [[], kv "type_full" 4 d.typeFull, kv "type_indices" 1 (showList d.typeIndices), []])) := by
    unfold body
    rw [hlines]
  have e0 : ∀ key : String, ({} : St).get key = [] := fun _ => rfl
  cases hgt : d.gtinv with
  | none =>
    obtain ⟨st', t1, t2⟩ := tail ((((((((({} : St).put "elements"
      d.elements).put "enable_spins" d.enableSpins).put "cutoff" [d.cutoff]).put "pair_type"
      [d.pairType]).put "feature_type" [d.featureType]).put "model_type" [d.modelType]).put "max_p"
      [d.maxP]).put "max_l" [d.maxL]) (by simp only [get_put]; simp) (by
        simp only [get_put, e0]; simp)
    refine ⟨st', t1, fun R r h => ?_⟩
    rw [hbody, hgt]
    have := head _ _ (t2 R r h)
    simpa only [gtinvLines, List.nil_append, List.append_assoc] using this
  | some g =>
    obtain ⟨go, gl, gs, gv⟩ := g
    obtain ⟨g1, g2, g3, g4⟩ := hg _ hgt
    dsimp only at g1 g2 g3 g4
    obtain ⟨st', t1, t2⟩ := tail (((((((((((({} : St).put "elements"
      d.elements).put "enable_spins" d.enableSpins).put "cutoff" [d.cutoff]).put "pair_type"
      [d.pairType]).put "feature_type" [d.featureType]).put "model_type" [d.modelType]).put "max_p"
      [d.maxP]).put "max_l" [d.maxL]).put "gtinv_order" [go]).put "gtinv_maxl" gl).put "gtinv_sym"
      gs |>.put "gtinv_version" [gv]) (by simp only [get_put]; simp) (by
        simp only [get_put, e0]; simp)
    refine ⟨st', t1, fun R r h => ?_⟩
    rw [hbody, hgt]
    have := t2 R r h
    rw [List.append_assoc]
    refine head _ _ ?_
    simp only [gtinvLines, List.cons_append, List.nil_append]
    refine Runs.scalar (by decide) g1 (by decide) (by decide) ?_
    refine Runs.list (by decide) (by decide) g2.1 g2.2 (by decide) (by decide) ?_
    refine Runs.list (by decide) (by decide) g3.1 g3.2 (by decide) (by decide) ?_
    refine Runs.scalar (by decide) g4 (by decide) (by decide) ?_
    refine Runs.blank ?_
    simpa only [List.cons_append, List.nil_append] using this

/-- The document of a potential that is saved. -/
theorem docOK_of_save (showF : ℚ → Txt) (f : Fields) (o : Obj) (ho : mkObj f = .ok o)
    (coeffs scales : List ℚ) (d : Doc) (hd : save showF o coeffs scales = .ok d)
    (hF : ∀ x, x = f.mod.cutoff ∨ (∃ p ∈ f.mod.pairParams, x ∈ p) →
      Clean (showF x) ∧ stod (showF x) = .ok x)
    (hpt : Clean f.mod.pairType.toList) (hft : Clean f.mod.featureType.toList)
    (hel : f.single.elements ≠ [])
    (hpp : ∀ p ∈ f.mod.pairParams, p ≠ [])
    (hpairs : ∀ p ∈ f.single.pairs, p.1.1 < f.single.nType ∧ p.1.2 < f.single.nType ∧ p.2 ≠ [])
    (hk : f.single.pairs.keys.Nodup)
    (hgl : f.mod.featureType = "gtinv" → f.mod.gtinv.maxL ≠ [])
    (hti : f.typeFull.isSome → f.typeIndices ≠ []) : DocOK d f.single.pairs f.single.nType := by
  have hobj : ∃ s, mkSingle f.single = .ok s ∧ o = ⟨{ f with single := s }, f⟩ := by
    unfold mkObj at ho
    split at ho
    · cases ho
    · cases hs : mkSingle f.single with
      | error e => rw [hs] at ho; cases ho
      | ok s =>
        rw [hs] at ho
        simp only [Except.map, Except.ok.injEq] at ho
        exact ⟨s, rfl, ho.symm⟩
  obtain ⟨s, hs, rfl⟩ := hobj
  unfold save at hd
  cases hm : List.mapM massOf s.elements with
  | error e =>
    simp only [hm] at hd
    cases hd
  | ok mass =>
  simp only [hm, bind, Except.bind] at hd
  by_cases hlen : coeffs.length = scales.length
  swap
  · rw [if_pos hlen] at hd
    cases hd
  rw [if_neg (by simpa using hlen)] at hd
  simp only [pure, Except.pure, Except.ok.injEq] at hd
  have hc := mkSingle_checks hs
  have hn : f.single.elements.length = f.single.nType := by
    unfold checkErrors at hc
    simp only [Bool.and_eq_true, beq_iff_eq] at hc
    exact hc.1.1
  -- every element of the file is one of the current types
  have hsub : f.single.elements ≠ [] → ∀ e ∈ f.single.elements, e ∈ s.elements := by
    intro _ e he
    exact elements_subset hs e he
  have hmem : ∀ e ∈ f.single.elements, ∃ p ∈ massTable, p.1 = e := by
    intro e he
    obtain ⟨t, ht⟩ := mapM_ok_mem _ _ _ hm e (hsub hel e he)
    exact massOf_ok ht
  have cleanNats : ∀ l : List ℕ, ∀ t ∈ l.map showNat, Clean t := by
    intro l t ht
    obtain ⟨a, _, rfl⟩ := List.mem_map.1 ht
    exact clean_showNat _
  have hmm := mapM_ok_get _ _ _ hm
  have hmassTok : ∀ t ∈ mass, ∃ e ∈ s.elements, massOf e = .ok t := by
    intro t ht
    obtain ⟨i, hi, rfl⟩ := List.getElem_of_mem ht
    have hi' : i < s.elements.length := by omega
    obtain ⟨b, hb1, hb2⟩ := hmm.2 i s.elements[i] (List.getElem?_eq_getElem hi')
    rw [List.getElem?_eq_getElem hi] at hb2
    simp only [Option.some.injEq] at hb2
    exact ⟨_, List.getElem_mem hi', by rw [hb1, hb2]⟩
  have hsne : s.elements ≠ [] := by
    obtain ⟨e, he⟩ := List.exists_mem_of_ne_nil _ hel
    exact List.ne_nil_of_mem (hsub hel e he)
  have hflen : (spinFlags f.single).length = f.single.elements.length := by
    rw [spinFlags_eq, List.length_map]
    unfold checkErrors at hc
    simp only [Bool.and_eq_true, beq_iff_eq] at hc
    unfold flagsOf
    cases hsp : f.single.enableSpins with
    | none => simp
    | some v =>
      rw [hsp] at hc
      simp only [Option.all_some, beq_iff_eq] at hc
      simp [hc.2, hc.1.1]
  exact DocOK.mk
    (by
      rw [← hd]
      refine ⟨by simpa using hel, ?_⟩
      intro t ht
      obtain ⟨e, he, rfl⟩ := List.mem_map.1 ht
      obtain ⟨p, hp, rfl⟩ := hmem e he
      exact element_tokens p hp)
    (by rw [← hd]; simpa using hn)
    (by
      rw [← hd]
      refine ⟨?_, cleanNats _⟩
      intro h
      have := congrArg List.length h
      simp only [List.length_map, hflen, List.length_nil] at this
      exact hel (List.length_eq_zero_iff.1 this))
    (by rw [← hd]; exact (hF _ (Or.inl rfl)).1) (by rw [← hd]; exact hpt) (by rw [← hd]; exact hft)
    (by rw [← hd]; exact clean_showNat _) (by rw [← hd]; exact clean_showNat _)
    (by rw [← hd]; exact clean_showNat _)
    (by
      rw [← hd]
      intro g hg
      dsimp only at hg
      unfold gtinvEntry at hg
      split at hg
      · rename_i hfe
        simp only [Option.some.injEq] at hg
        subst hg
        refine ⟨clean_showNat _, ⟨by simpa using hgl hfe, cleanNats _⟩,
          ⟨by simpa using hgl hfe, ?_⟩, clean_showNat _⟩
        intro t ht
        obtain ⟨_, _, rfl⟩ := List.mem_map.1 ht
        exact clean_showNat _
      · cases hg)
    (by
      rw [← hd]
      refine ⟨?_, ?_⟩
      · intro h
        have := hmm.1
        dsimp only at h
        rw [h] at this
        exact hsne (List.length_eq_zero_iff.1 this.symm)
      · intro t ht
        obtain ⟨e, _, he⟩ := hmassTok t ht
        exact (massOf_token he).1)
    (by rw [← hd]; simp)
    (by
      rw [← hd]
      intro p hp
      obtain ⟨q, hq, rfl⟩ := List.mem_map.1 hp
      refine ⟨by simpa using hpp q hq, ?_⟩
      intro t ht
      obtain ⟨x, hx, rfl⟩ := List.mem_map.1 ht
      exact (hF x (Or.inr ⟨q, hq, hx⟩)).1)
    (by rw [← hd]) (by rw [← hd]) hpairs hk (by rw [← hd]; exact clean_showNat _)
    (by
      rw [← hd]
      refine ⟨?_, cleanNats _⟩
      dsimp only
      unfold typeInfo
      cases htf : f.typeFull with
      | none =>
        intro h
        simp only [List.map_eq_nil_iff, List.range_eq_nil] at h
        rw [h] at hn
        exact hel (List.length_eq_zero_iff.1 hn)
      | some b => simpa using hti (by rw [htf]; rfl))
    (by rw [← hd]; exact clean_showNat _)
    (by
      rw [← hd]
      intro t ht
      obtain ⟨x, _, rfl⟩ := List.mem_map.1 ht
      exact clean_fmtE x)

/-- What `parse_polymlp` makes of the parsed file. -/
def fpOf (st : St) : Except Err Fp := do
  let cutoff ← (st.get0 "cutoff").bind stod
  let pairType ← st.get0 "pair_type"
  let featureType ← st.get0 "feature_type"
  let modelType ← (st.get0 "model_type").bind stoi
  let maxP ← (st.get0 "max_p").bind stoi
  let maxL ← (st.get0 "max_l").bind stoi
  let gtinv ← fpGtinv st (String.ofList featureType)
  let coeffs ← (st.get "coeffs").mapM stod
  let params ← st.pairParams.mapM fun p => p.mapM stod
  let cond ← st.pairCond.mapM fun r => r.mapM fun c => c.mapM stoi
  let mass ← (st.get "mass").mapM stod
  let _ ← (st.get "type_indices").mapM stoi
  return ⟨(st.get "elements").map String.ofList, cutoff, String.ofList pairType,
    String.ofList featureType, modelType, maxP, maxL, gtinv, coeffs.map (· * 2), params, cond, mass⟩

theorem parsePolymlp_eq (lines : List Txt) : parsePolymlp lines = (parseFile lines).bind fpOf := rfl

theorem bind_ok' {α β : Type} {x : Except Err α} {g : α → Except Err β} {b : β}
    (h : (x >>= g) = .ok b) : ∃ a, x = .ok a ∧ g a = .ok b := by
  cases x with
  | error e => cases h
  | ok a => exact ⟨a, rfl, h⟩

/-- Only the coefficients depend on the entry `coeffs`. -/
theorem fpOf_coeffs {st st' : St} {fp : Fp} (h : fpOf st = .ok fp)
    (hg : ∀ key : String, key ≠ "coeffs" → st'.get key = st.get key)
    (hp : st'.pairParams = st.pairParams) (hc : st'.pairCond = st.pairCond) :
    fpOf st' = ((st'.get "coeffs").mapM stod).map
      fun vs => { fp with regCoeffs := vs.map (· * 2) } := by
  have g0 : ∀ key : String, key ≠ "coeffs" → st'.get0 key = st.get0 key := by
    intro key hk
    unfold St.get0
    rw [hg key hk]
  have gg : ∀ t, fpGtinv st' t = fpGtinv st t := by
    intro t
    unfold fpGtinv
    rw [g0 "gtinv_order" (by decide), hg "gtinv_maxl" (by decide), g0 "gtinv_version" (by decide)]
  unfold fpOf at h ⊢
  rw [g0 "cutoff" (by decide), g0 "pair_type" (by decide), g0 "feature_type" (by decide),
    g0 "model_type" (by decide), g0 "max_p" (by decide), g0 "max_l" (by decide), hp, hc,
    hg "mass" (by decide), hg "type_indices" (by decide), hg "elements" (by decide)]
  simp only [gg]
  obtain ⟨a1, e1, h⟩ := bind_ok' h
  obtain ⟨a2, e2, h⟩ := bind_ok' h
  obtain ⟨a3, e3, h⟩ := bind_ok' h
  obtain ⟨a4, e4, h⟩ := bind_ok' h
  obtain ⟨a5, e5, h⟩ := bind_ok' h
  obtain ⟨a6, e6, h⟩ := bind_ok' h
  obtain ⟨a7, e7, h⟩ := bind_ok' h
  obtain ⟨a8, e8, h⟩ := bind_ok' h
  obtain ⟨a9, e9, h⟩ := bind_ok' h
  obtain ⟨b1, e10, h⟩ := bind_ok' h
  obtain ⟨b2, e11, h⟩ := bind_ok' h
  obtain ⟨b3, e12, h⟩ := bind_ok' h
  simp only [pure, Except.pure, Except.ok.injEq] at h
  subst h
  simp only [e1, e2, e3, e4, e5, e6, e9, e10, e11, e12]
  simp only [bind, Except.bind, pure, Except.pure, e7]
  cases (st'.get "coeffs").mapM stod <;> rfl

end Verif.MlpYaml
