import Verif.Lemmas.MlpYaml
import Verif.Props.Params

/-!
# C35: saving and loading a potential
-/

namespace Verif.MlpYaml
open Verif.Params

theorem mapM_map_ok {α β γ : Type} (g : β → Except Err γ) (h : α → β) (k : α → γ) (l : List α)
    (hg : ∀ a ∈ l, g (h a) = .ok (k a)) : (l.map h).mapM g = .ok (l.map k) := by
  induction l with
  | nil => rfl
  | cons a l ih =>
    rw [List.map_cons, List.mapM_cons, hg a (by simp), ih fun b hb => hg b (by simp [hb])]
    rfl

theorem mapM_nat (l : List ℕ) : (l.map showNat).mapM (fun t => asNat (resolve t)) = .ok l := by
  have := mapM_map_ok (fun t => asNat (resolve t)) showNat id l fun a _ => asNat_showNat a
  simpa using this

/-- A fold step that ignores energies. -/
def dropE {K : Type} (a : SpinAcc K) : SpinAcc K := { a with atomicEnergy := [] }

theorem spinStep_dropE {K : Type} (a b : SpinAcc K) (h : dropE a = dropE b) (i : ℕ) (ele : String)
    (e e' : K) (s : Bool) :
    dropE (spinStep a (i, ele, e, s)) = dropE (spinStep b (i, ele, e', s)) := by
  cases a
  cases b
  simp only [dropE, SpinAcc.mk.injEq] at h
  obtain ⟨rfl, rfl, _, rfl, rfl⟩ := h
  cases s <;> simp [spinStep, dropE]

theorem spin_fold_dropE {K : Type} (elements : List String) (en en' : List K) (spins : List Bool)
    (h : en.length = en'.length) (k : ℕ) (a b : SpinAcc K) (hab : dropE a = dropE b) :
    dropE (((elements.zip (en.zip spins)).zipIdx k).map (fun x => (x.2, x.1)) |>.foldl spinStep a) =
    dropE (((elements.zip (en'.zip spins)).zipIdx k).map (fun x => (x.2, x.1)) |>.foldl spinStep b) := by
  induction elements generalizing en en' spins k a b with
  | nil => simpa using hab
  | cons x elements ih =>
    cases en with
    | nil =>
      cases en' with
      | nil => simpa using hab
      | cons => simp at h
    | cons e en =>
      cases en' with
      | nil => simp at h
      | cons e' en' =>
        cases spins with
        | nil => simpa using hab
        | cons s spins =>
          simp only [List.zip_cons_cons, List.zipIdx_cons, List.map_cons, List.foldl_cons]
          exact ih en en' spins (by simpa using h) (k + 1) _ _ (spinStep_dropE a b hab k x e e' s)

/-- Atomic energies do not influence the other fields. -/
theorem doubleSpins_energy {K V : Type} (p p' : Single K V) (en en' : List K) (spins : List Bool)
    (h : en.length = en'.length) (he : p.elements = p'.elements) (hp : p.pairs = p'.pairs) :
    (doubleSpins p en spins).nType = (doubleSpins p' en' spins).nType ∧
    (doubleSpins p en spins).elements = (doubleSpins p' en' spins).elements ∧
    (doubleSpins p en spins).enableSpins = (doubleSpins p' en' spins).enableSpins ∧
    (doubleSpins p en spins).pairs = (doubleSpins p' en' spins).pairs := by
  have key := spin_fold_dropE p.elements en en' spins h 0 {} {} rfl
  unfold doubleSpins
  dsimp only
  rw [← he, ← hp]
  simp only [dropE, SpinAcc.mk.injEq] at key
  obtain ⟨h1, h2, _, h4, h5⟩ := key
  rw [h1, h2, h4, h5]
  exact ⟨rfl, rfl, rfl, rfl⟩

/-- Every name in the table of masses except `No` is read back as a string. -/
theorem C35_elements : ∀ p ∈ massTable, p.1 ≠ "No" → resolve p.1.toList = .str p.1 := by
  decide +kernel

/-- The element nobelium is read as the boolean `False`. -/
theorem C35_nobelium : massOf "No" = .ok "259".toList ∧ resolve "No".toList = .bool false := by
  decide +kernel

/-- A small number printed by Python without a point is read as a string. -/
theorem C35_small_number : resolve "1e-05".toList = .str "1e-05" ∧
    resolve "1.5e-05".toList = .float (15 / 1000000) := by
  decide +kernel

theorem massOf_ok {e : String} {t : Txt} (h : massOf e = .ok t) : ∃ p ∈ massTable, p.1 = e := by
  unfold massOf at h
  cases hf : massTable.find? fun p => p.1 == e with
  | none => rw [hf] at h; cases h
  | some p => exact ⟨p, List.mem_of_find?_eq_some hf, by simpa using List.find?_some hf⟩

theorem mapM_ok_mem {α β : Type} (f : α → Except Err β) (l : List α) (r : List β)
    (h : l.mapM f = .ok r) : ∀ a ∈ l, ∃ b, f a = .ok b := by
  induction l generalizing r with
  | nil => simp
  | cons a l ih =>
    rw [List.mapM_cons] at h
    intro x hx
    cases hfa : f a with
    | error e => rw [hfa] at h; cases h
    | ok b =>
      rw [hfa] at h
      cases hl : l.mapM f with
      | error e => rw [hl] at h; cases h
      | ok r' =>
        rcases List.mem_cons.1 hx with rfl | hx
        · exact ⟨b, hfa⟩
        · exact ih r' hl x hx

theorem setAll_self {κ β : Type} [DecidableEq κ] (d acc : Dict κ β)
    (h : (acc ++ d).keys.Nodup) : Dict.setAll acc d = acc ++ d := by
  induction d generalizing acc with
  | nil => simp [Dict.setAll]
  | cons p d ih =>
    have hp : (acc.any fun q => decide (q.1 = p.1)) = false := by
      rw [List.any_eq_false]
      intro q hq
      simp only [decide_eq_true_eq]
      intro e
      unfold Dict.keys at h
      rw [List.map_append, List.map_cons, List.nodup_append] at h
      exact h.2.2 q.1 (List.mem_map.2 ⟨q, hq, rfl⟩) p.1 (by simp) e
    have : Dict.set acc p.1 p.2 = acc ++ [p] := by
      unfold Dict.set
      rw [hp]
      simp
    unfold Dict.setAll
    rw [List.foldl_cons, this]
    have h2 := ih (acc ++ [p]) (by simpa using h)
    unfold Dict.setAll at h2
    rw [h2]
    simp

/-- The spin flags of an object, `False` for all types if there are none. -/
def flagsOf (s : Single ℚ (List ℕ)) : List Bool := s.enableSpins.getD (s.elements.map fun _ => false)

theorem spinFlags_eq (s : Single ℚ (List ℕ)) : spinFlags s = (flagsOf s).map Bool.toNat := by
  unfold spinFlags flagsOf
  cases s.enableSpins <;> simp

theorem asFlag_toNat (b : Bool) : asFlag (resolve (showNat b.toNat)) = .ok b := by
  unfold asFlag
  rw [resolve_showNat]
  cases b <;> simp [asNum, Except.map]

theorem mkSingle_checks {K V : Type} {p q : Single K V} (h : mkSingle p = .ok q) :
    checkErrors p = true := by
  unfold mkSingle at h
  split at h
  · assumption
  · cases h

/-- The single-model part after loading: the same types, elements and pair table. -/
theorem mkSingle_reload (p q : Single ℚ (List ℕ)) (h : mkSingle p = .ok q) :
    ∃ q' : Single ℚ (List ℕ), mkSingle ⟨p.elements.length, p.elements,
        some ((flagsOf p).map fun _ => 0), some (flagsOf p), p.pairs⟩ = .ok q' ∧
      q'.nType = q.nType ∧ q'.elements = q.elements ∧ q'.pairs = q.pairs ∧
      q'.enableSpins = some (flagsOf q) ∧ ∃ z, q'.atomicEnergy = some z ∧ ∀ e ∈ z, e = 0 := by
  have hc := mkSingle_checks h
  have hlen : (flagsOf p).length = p.elements.length ∧ p.elements.length = p.nType := by
    unfold checkErrors at hc
    simp only [Bool.and_eq_true, beq_iff_eq] at hc
    unfold flagsOf
    cases hs : p.enableSpins with
    | none => simp [hc.1.1]
    | some s =>
      rw [hs] at hc
      simp only [Option.all_some, beq_iff_eq] at hc
      simp [hc.2, hc.1.1]
  have hc' : checkErrors (⟨p.elements.length, p.elements, some ((flagsOf p).map fun _ => 0),
      some (flagsOf p), p.pairs⟩ : Single ℚ (List ℕ)) = true := by
    simp [checkErrors, hlen.1]
  by_cases ht : true ∈ flagsOf p
  · have hs : p.enableSpins = some (flagsOf p) := by
      unfold flagsOf at ht ⊢
      cases hs : p.enableSpins with
      | none => rw [hs] at ht; simp at ht
      | some s => rfl
    cases he : p.atomicEnergy with
    | none =>
      exfalso
      unfold mkSingle setParamsSpins at h
      rw [if_pos hc, hs] at h
      dsimp only at h
      rw [if_neg (fun e => List.count_eq_zero.1 e ht), he] at h
      cases h
    | some en =>
      obtain ⟨rfl, l1, l2, l3⟩ := mkSingle_spins he hs ht h
      have hd := doubleSpins_energy p (⟨p.elements.length, p.elements,
        some ((flagsOf p).map fun _ => 0), some (flagsOf p), p.pairs⟩ : Single ℚ (List ℕ)) en
        ((flagsOf p).map fun _ => 0) (flagsOf p) (by simp; omega) rfl rfl
      refine ⟨doubleSpins (⟨p.elements.length, p.elements,
        some ((flagsOf p).map fun _ => 0), some (flagsOf p), p.pairs⟩ : Single ℚ (List ℕ))
        ((flagsOf p).map fun _ => 0) (flagsOf p), ?_, hd.1.symm, hd.2.1.symm, hd.2.2.2.symm, ?_, ?_⟩
      · unfold mkSingle setParamsSpins
        rw [if_pos hc']
        dsimp only
        rw [if_neg (fun e => List.count_eq_zero.1 e ht)]
      · rw [← hd.2.2.1]
        unfold flagsOf doubleSpins
        simp
      · refine ⟨_, rfl, ?_⟩
        have inv := spin_loop p.elements ((flagsOf p).map fun _ => (0 : ℚ)) (flagsOf p)
          (by omega) (by rw [List.length_map])
        intro e hm
        have h1 := inv.ener
        have h2 := List.mem_map_of_mem (f := some) hm
        rw [h1] at h2
        obtain ⟨i, _, hi⟩ := List.mem_map.1 h2
        have h3 := List.mem_of_getElem? hi
        obtain ⟨_, _, h4⟩ := List.mem_map.1 h3
        exact h4.symm
  · have hq : q = p := by
      have := C19_no_spins p hc (by
        intro s hs hts
        apply ht
        unfold flagsOf
        rw [hs]
        exact hts)
      rw [this] at h
      exact (Except.ok.injEq .. ▸ h).symm
    subst hq
    refine ⟨_, C19_no_spins _ hc' (by intro s hs; simp at hs; subst hs; exact ht), ?_, rfl, rfl, rfl,
      _, rfl, ?_⟩
    · exact hlen.2
    · simp

/-- Every element has at least one type. -/
theorem elements_subset {p q : Single ℚ (List ℕ)} (h : mkSingle p = .ok q) :
    ∀ e ∈ p.elements, e ∈ q.elements := by
  intro e he
  obtain ⟨s', hs', -, q2, -⟩ := mkSingle_reload p q h
  rw [← q2]
  have hc := mkSingle_checks hs'
  by_cases ht : true ∈ flagsOf p
  · obtain ⟨rfl, l1, l2, l3⟩ := mkSingle_spins rfl rfl ht hs'
    dsimp only at l1 l2 l3
    have inv := spin_loop p.elements ((flagsOf p).map fun _ => (0 : ℚ))
      (flagsOf p) (by omega) (by rw [List.length_map])
    obtain ⟨i, hi, rfl⟩ := List.getElem_of_mem he
    have hmem : i ∈ Spec.Params.origin (flagsOf p) := by
      unfold Spec.Params.origin
      rw [List.mem_flatMap]
      have hi' : i < (flagsOf p).length := by omega
      refine ⟨((flagsOf p)[i], i), ?_, ?_⟩
      · rw [List.mem_zipIdx_iff_getElem?]
        exact List.getElem?_eq_getElem hi'
      · dsimp only
        split <;> simp
    have h1 := inv.elems
    have h2 : some p.elements[i] ∈ (doubleSpins (⟨p.elements.length,
        p.elements, some ((flagsOf p).map fun _ => 0), some (flagsOf p),
        p.pairs⟩ : Single ℚ (List ℕ)) ((flagsOf p).map fun _ => 0)
        (flagsOf p)).elements.map some := by
      unfold doubleSpins
      dsimp only
      rw [h1]
      exact List.mem_map.2 ⟨i, hmem, List.getElem?_eq_getElem hi⟩
    obtain ⟨e', h3, h4⟩ := List.mem_map.1 h2
    simp only [Option.some.injEq] at h4
    rw [← h4]
    exact h3
  · rw [C19_no_spins _ hc (by intro t h; simp at h; subst h; exact ht)] at hs'
    simp only [Except.ok.injEq] at hs'
    rw [← hs']
    exact he

/-- The invariants that are saved: none for pair features. -/
def savedGtinv (m : Mod) : Gtinv := if m.featureType = "gtinv" then m.gtinv else ⟨0, [], 1⟩

theorem loadGtinv_save (d : Doc) (m : Mod) (hd : d.gtinv = gtinvEntry m) :
    loadGtinv d m.featureType = .ok (savedGtinv m) := by
  unfold loadGtinv savedGtinv
  by_cases h : m.featureType = "gtinv"
  · rw [if_pos h, if_pos h, hd]
    unfold gtinvEntry
    rw [if_pos h]
    simp only [orErr, bind, Except.bind, asNat_showNat, mapM_nat, pure, Except.pure]
  · rw [if_neg h, if_neg h]

theorem loadPairs_save (d : Doc) (pairs : Dict (ℕ × ℕ) (List ℕ)) (hne : pairs ≠ [])
    (hk : pairs.keys.Nodup)
    (hd : d.typePairs = pairs.map fun kv => ([showNat kv.1.1, showNat kv.1.2], kv.2.map showNat)) :
    loadPairs d = .ok pairs := by
  unfold loadPairs
  rw [if_neg (by rw [hd]; simpa using hne), hd, mapM_map_ok _ _ id pairs]
  · simp only [bind, Except.bind, List.map_id]
    show Except.ok _ = _
    rw [setAll_self pairs [] (by simpa using hk)]
    rfl
  · intro kv _
    have h1 : [showNat kv.1.1, showNat kv.1.2] = [kv.1.1, kv.1.2].map showNat := rfl
    rw [h1]
    simp only [mapM_nat, bind, Except.bind]
    rfl

/-- The type information that is saved. -/
theorem typeInfo_flag (f : Fields) : ∃ b : Bool, (typeInfo f).1 = b.toNat ∧
    b = f.typeFull.getD true := by
  unfold typeInfo
  cases f.typeFull with
  | none => exact ⟨true, rfl, rfl⟩
  | some b => exact ⟨b, rfl, rfl⟩

/-- **C35.** Whatever parameters a potential was constructed from, loading the file written for it
gives an object with the same types, elements, pair table, model parameters, invariants and type
information; each coefficient is the quotient of coefficient and scale to sixteen significant digits;
and saving the loaded potential again writes the same file.  Atomic energies are not stored: they are
zero in the loaded object, and absent spin flags become `False`. -/
theorem C35_round_trip_partial (showF : ℚ → Txt) (f : Fields) (o : Obj) (ho : mkObj f = .ok o)
    (coeffs scales : List ℚ) (d : Doc) (hd : save showF o coeffs scales = .ok d)
    (hF : ∀ x, x = f.mod.cutoff ∨ (∃ p ∈ f.mod.pairParams, x ∈ p) →
      asNum (resolve (showF x)) = .ok x)
    (hno : "No" ∉ f.single.elements)
    (hpt : resolve f.mod.pairType.toList = .str f.mod.pairType)
    (hft : resolve f.mod.featureType.toList = .str f.mod.featureType)
    (hne : f.single.pairs ≠ []) (hk : f.single.pairs.keys.Nodup) :
    ∃ o' cs, load d = .ok (o', cs) ∧
      o'.cur.single.nType = o.cur.single.nType ∧
      o'.cur.single.elements = o.cur.single.elements ∧
      o'.cur.single.pairs = o.cur.single.pairs ∧
      o'.cur.single.enableSpins = some (flagsOf o.cur.single) ∧
      o'.cur.mod = { f.mod with gtinv := savedGtinv f.mod } ∧
      o'.cur.typeFull = some (f.typeFull.getD true) ∧
      o'.cur.typeIndices = (if f.typeFull.isSome then f.typeIndices
        else List.range f.single.elements.length) ∧
      (∃ z, o'.cur.single.atomicEnergy = some z ∧ ∀ e ∈ z, e = 0) ∧
      cs.length = coeffs.length ∧
      (∀ (i : ℕ) (c s : ℚ), coeffs[i]? = some c → scales[i]? = some s →
        ∃ v, cs[i]? = some v ∧ |v - c / s| ≤ |c / s| / (2 * 10 ^ 15)) ∧
      save showF o' cs (List.replicate cs.length 1) = .ok d := by
  -- the object
  have hobj : ¬ f.mod.gtinv.maxL.length + 1 < f.mod.gtinv.order ∧
      ∃ s, mkSingle f.single = .ok s ∧ o = ⟨{ f with single := s }, f⟩ := by
    unfold mkObj at ho
    split at ho
    · cases ho
    · rename_i h
      cases hs : mkSingle f.single with
      | error e => rw [hs] at ho; cases ho
      | ok s =>
        rw [hs] at ho
        simp only [Except.map, Except.ok.injEq] at ho
        exact ⟨h, s, rfl, ho.symm⟩
  obtain ⟨hord, s, hs, rfl⟩ := hobj
  -- the document
  unfold save at hd
  cases hm : List.mapM massOf s.elements with
  | error e =>
    simp only [hm] at hd
    cases hd
  | ok mass =>
  simp only [hm, bind, Except.bind] at hd
  by_cases hlen : coeffs.length = scales.length
  swap
  · rw [if_pos hlen] at hd
    cases hd
  rw [if_neg (by simpa using hlen)] at hd
  simp only [pure, Except.pure, Except.ok.injEq] at hd
  -- the single-model part
  obtain ⟨s', hs', q1, q2, q3, q4, q5⟩ := mkSingle_reload f.single s hs
  have hn : f.single.elements.length = f.single.nType := by
    have hc := mkSingle_checks hs
    unfold checkErrors at hc
    simp only [Bool.and_eq_true, beq_iff_eq] at hc
    exact hc.1.1
  have hel : ∀ e ∈ f.single.elements, resolve e.toList = .str e := by
    intro e he
    have hes : e ∈ s.elements := elements_subset hs e he
    obtain ⟨t, ht⟩ := mapM_ok_mem _ _ _ hm e hes
    obtain ⟨p, hp, rfl⟩ := massOf_ok ht
    exact C35_elements p hp fun h => hno (h ▸ he)
  -- loading
  have e1 : (f.single.elements.map String.toList).mapM (fun t => asStr (resolve t)) =
      .ok f.single.elements := by
    have := mapM_map_ok (fun t => asStr (resolve t)) String.toList id f.single.elements
      fun a ha => by simp [hel a ha, asStr]
    simpa using this
  have e2 : ((spinFlags f.single).map showNat).mapM (fun t => asFlag (resolve t)) =
      .ok (flagsOf f.single) := by
    rw [spinFlags_eq, List.map_map]
    have := mapM_map_ok (fun t => asFlag (resolve t)) (showNat ∘ Bool.toNat) id (flagsOf f.single)
      fun a _ => by simp [asFlag_toNat]
    simpa using this
  have e3 : (f.mod.pairParams.map fun p => p.map showF).mapM
      (fun p => p.mapM fun t => asNum (resolve t)) = .ok f.mod.pairParams := by
    have := mapM_map_ok (fun p : List Txt => p.mapM fun t => asNum (resolve t))
      (fun p : List ℚ => p.map showF) id f.mod.pairParams fun p hp => by
        have := mapM_map_ok (fun t => asNum (resolve t)) showF id p
          fun x hx => hF x (Or.inr ⟨p, hp, hx⟩)
        simpa using this
    simpa using this
  obtain ⟨b, hb1, hb2⟩ := typeInfo_flag f
  have e4 : ((List.zipWith (· / ·) coeffs scales).map fmtE).mapM (fun t => asNum (resolve t)) =
      .ok ((List.zipWith (· / ·) coeffs scales).map roundE) := by
    apply mapM_map_ok
    intro x _
    rw [resolve_fmtE]
    rfl
  have hti : (typeInfo f).2 = if f.typeFull.isSome then f.typeIndices
      else List.range f.single.elements.length := by
    unfold typeInfo
    cases f.typeFull <;> simp [hn]
  have hobj' : mkObj ⟨⟨f.single.elements.length, f.single.elements,
      some ((flagsOf f.single).map fun _ => 0), some (flagsOf f.single), f.single.pairs⟩,
      { f.mod with gtinv := savedGtinv f.mod }, some b, (typeInfo f).2⟩ =
      .ok ⟨⟨s', { f.mod with gtinv := savedGtinv f.mod }, some b, (typeInfo f).2⟩,
        ⟨⟨f.single.elements.length, f.single.elements,
      some ((flagsOf f.single).map fun _ => 0), some (flagsOf f.single), f.single.pairs⟩,
      { f.mod with gtinv := savedGtinv f.mod }, some b, (typeInfo f).2⟩⟩ := by
    unfold mkObj
    rw [if_neg]
    · dsimp only
      rw [hs']
      rfl
    · dsimp only
      unfold savedGtinv
      split
      · exact hord
      · simp
  have hload : load d = .ok (⟨⟨s', { f.mod with gtinv := savedGtinv f.mod }, some b, (typeInfo f).2⟩,
        ⟨⟨f.single.elements.length, f.single.elements,
      some ((flagsOf f.single).map fun _ => 0), some (flagsOf f.single), f.single.pairs⟩,
      { f.mod with gtinv := savedGtinv f.mod }, some b, (typeInfo f).2⟩⟩,
      (List.zipWith (· / ·) coeffs scales).map roundE) := by
    have g1 : loadGtinv d f.mod.featureType = .ok (savedGtinv f.mod) :=
      loadGtinv_save d f.mod (by rw [← hd])
    have g2 : loadPairs d = .ok f.single.pairs := loadPairs_save d _ hne hk (by rw [← hd])
    unfold load
    rw [g2]
    have g3 : asStr (resolve d.featureType) = .ok f.mod.featureType := by
      rw [← hd]
      dsimp only
      rw [hft]
      rfl
    have hpt' : asStr (resolve f.mod.pairType.toList) = .ok f.mod.pairType := by
      rw [hpt]
      rfl
    rw [g3]
    simp only [bind, Except.bind, g1]
    rw [← hd]
    simp only [e1, e2, e3, e4, asNat_showNat, mapM_nat, hF f.mod.cutoff (Or.inl rfl), hpt', hb1,
      asFlag_toNat]
    rw [hobj']
    rfl
  have hlz : ((List.zipWith (· / ·) coeffs scales).map roundE).length = coeffs.length := by
    simp [hlen]
  refine ⟨_, _, hload, q1, q2, q3, q4, rfl, by rw [hb2], hti, q5, hlz, ?_, ?_⟩
  · intro i c t hc ht
    refine ⟨roundE (c / t), ?_, roundE_error _⟩
    simp [List.getElem?_zipWith, hc, ht]
  · unfold save
    rw [← hd]
    dsimp only
    rw [q2, hm]
    simp only [bind, Except.bind, pure, Except.pure]
    rw [if_neg (by simp)]
    congr 1
    have h1 : (spinFlags (⟨f.single.elements.length, f.single.elements,
      some ((flagsOf f.single).map fun _ => 0), some (flagsOf f.single), f.single.pairs⟩ :
        Single ℚ (List ℕ))) = spinFlags f.single := by
      rw [spinFlags_eq, spinFlags_eq]
      rfl
    have h2 : gtinvEntry { f.mod with gtinv := savedGtinv f.mod } = gtinvEntry f.mod := by
      unfold gtinvEntry savedGtinv
      by_cases h : f.mod.featureType = "gtinv" <;> simp [h]
    have h3 : typeInfo ⟨⟨f.single.elements.length, f.single.elements,
      some ((flagsOf f.single).map fun _ => 0), some (flagsOf f.single), f.single.pairs⟩,
      { f.mod with gtinv := savedGtinv f.mod }, some b, (typeInfo f).2⟩ = typeInfo f := by
      apply Prod.ext
      · exact hb1.symm
      · rfl
    have h4 : (List.zipWith (· / ·) ((List.zipWith (· / ·) coeffs scales).map roundE)
        (List.replicate ((List.zipWith (· / ·) coeffs scales).map roundE).length 1)).map fmtE =
        (List.zipWith (· / ·) coeffs scales).map fmtE := by
      have : ∀ l : List ℚ, (List.zipWith (· / ·) (l.map roundE)
          (List.replicate (l.map roundE).length 1)).map fmtE = l.map fmtE := by
        intro l
        induction l with
        | nil => rfl
        | cons a l ih =>
          simp only [List.map_cons, List.length_cons, List.replicate_succ, List.zipWith_cons_cons,
            div_one, fmtE_roundE]
          congr 1
      exact this _
    rw [h1, h2, h3, h4, hlz]

/-- A spin-polarised potential with rotational invariants, for the examples. -/
def demo : Fields :=
  ⟨⟨2, ["Fe", "O"], some [-1, -2], some [true, false],
      [((0, 0), [0, 1]), ((0, 1), [1]), ((1, 1), [0])]⟩,
    ⟨6, "gaussian", "gtinv", 4, 2, 4, ⟨3, [4, 4], 2⟩, [[1, 0], [1, 1 / 2]]⟩, some true, [0, 1]⟩

/-- Python's `repr` on the numbers of `demo`. -/
def demoF (x : ℚ) : Txt :=
  if x = 6 then "6.0".toList else if x = 1 then "1.0".toList else if x = 0 then "0.0".toList
  else "0.5".toList

theorem demo_saved : ∃ o d, mkObj demo = .ok o ∧ save demoF o [1, 2] [1, 3] = .ok d := by
  have h : (match mkObj demo with
      | .ok o => (match save demoF o [1, 2] [1, 3] with | .ok _ => true | .error _ => false)
      | .error _ => false) = true := by decide +kernel
  split at h
  · rename_i o ho
    split at h
    · rename_i d hd
      exact ⟨o, d, ho, hd⟩
    · cases h
  · cases h

/-- The three types of `demo` are iron with either spin and oxygen. -/
example : (mkObj demo).map (fun o => o.cur.single.elements) = .ok ["Fe", "Fe", "O"] := by
  decide +kernel

theorem demo_numbers (x : ℚ) (h : x = demo.mod.cutoff ∨ ∃ p ∈ demo.mod.pairParams, x ∈ p) :
    x = 6 ∨ x = 1 ∨ x = 0 ∨ x = 1 / 2 := by
  rcases h with h | ⟨p, hp, hx⟩
  · exact Or.inl h
  · simp only [demo, List.mem_cons, List.not_mem_nil, or_false] at hp
    rcases hp with rfl | rfl <;> simp only [List.mem_cons, List.not_mem_nil, or_false] at hx <;> tauto

/-- The hypotheses of C35 hold for `demo`. -/
example : (∃ o d, mkObj demo = .ok o ∧ save demoF o [1, 2] [1, 3] = .ok d) ∧
    (∀ x, x = demo.mod.cutoff ∨ (∃ p ∈ demo.mod.pairParams, x ∈ p) →
      asNum (resolve (demoF x)) = .ok x) ∧
    "No" ∉ demo.single.elements ∧ resolve demo.mod.pairType.toList = .str demo.mod.pairType ∧
    resolve demo.mod.featureType.toList = .str demo.mod.featureType ∧
    demo.single.pairs ≠ [] ∧ demo.single.pairs.keys.Nodup := by
  refine ⟨demo_saved, ?_, by decide, by decide +kernel, by decide +kernel, by decide, by decide +kernel⟩
  intro x hx
  rcases demo_numbers x hx with rfl | rfl | rfl | rfl <;> decide +kernel

/-- **C35, the type list of a hybrid component.**  The file is written from the copy of the parameters
taken when the object was made: a later `type_full = False` (set when the potential becomes a part of a
hybrid potential with more elements) is not stored, whatever it is set to. -/
theorem C35_type_info_not_stored (showF : ℚ → Txt) (o : Obj) (tf : Option Bool) (ti : List ℕ)
    (coeffs scales : List ℚ) :
    save showF { o with cur := { o.cur with typeFull := tf, typeIndices := ti } } coeffs scales =
      save showF o coeffs scales := rfl

end Verif.MlpYaml
