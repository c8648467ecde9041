import Verif.Lemmas.FeatAttrGt
import Verif.Props.MlpEval
import Verif.Props.GtinvFiles

/-!
# C122: the list of features
-/

namespace Verif.FeatAttr
open Verif Verif.Mlp
open Verif.Neighbor (Vec Csr r2 neighborFull)

variable {K : Type} [Field K] [LinearOrder K]

/-! ## Pairs of atom types -/

theorem pairTable (n : ℕ) (cond : ℕ → ℕ → List ℕ) :
    Spec.PairTable n (pairDict n (setTypePairs n cond).typePairs) := by
  have hget := pairDict_get n cond
  have hlen : (pairDict n (setTypePairs n cond).typePairs).length = n * (n + 1) / 2 := by
    rw [pairDict_eq, List.length_map, allPairs_length]
  refine ⟨?_, ?_, ?_⟩
  · refine List.ext_getElem? fun k => ?_
    rw [List.getElem?_map, hget k]
    by_cases hk : k < n * (n + 1) / 2
    · rw [List.getElem?_range hk, List.getElem?_eq_getElem (by rw [allPairs_length]; exact hk)]
      rfl
    · rw [List.getElem?_eq_none (by rw [allPairs_length]; omega),
        List.getElem?_eq_none (by rw [List.length_range]; omega)]
      rfl
  · intro e he
    obtain ⟨k, hk⟩ := List.mem_iff_getElem?.1 he
    rw [hget k, Option.map_eq_some_iff] at hk
    obtain ⟨q, hq, rfl⟩ := hk
    have hm := (mem_allPairs n q.1 q.2).1 (List.mem_of_getElem? hq)
    unfold both
    split_ifs with h
    · exact Or.inl ⟨q.1, by omega, by simp only; rw [← Prod.eta q]; simp [h]⟩
    · exact Or.inr ⟨q.1, q.2, by omega, hm.2, rfl⟩
  · intro i hi j hj
    have hb := (belongs_iff n cond i j _).2 ⟨hi, hj, rfl⟩
    have hat : ∀ (k : ℕ), (∃ e, (pairDict n (setTypePairs n cond).typePairs)[k]? = some e ∧ (i, j) ∈ e.2) ↔
        k = (setTypePairs n cond).typePairs i j := by
      intro k
      constructor
      · rintro ⟨e, he, hm⟩
        have h1 : Spec.Belongs (pairDict n (setTypePairs n cond).typePairs) i j e.1 :=
          ⟨e, List.mem_of_getElem? he, rfl, hm⟩
        rw [belongs_iff] at h1
        rw [hget k, Option.map_eq_some_iff] at he
        obtain ⟨q, _, rfl⟩ := he
        exact h1.2.2.symm
      · rintro rfl
        obtain ⟨e, he, h1, h2⟩ := hb
        obtain ⟨k, hk⟩ := List.mem_iff_getElem?.1 he
        have hk' := hk
        rw [hget k, Option.map_eq_some_iff] at hk'
        obtain ⟨q, _, hq⟩ := hk'
        have : k = (setTypePairs n cond).typePairs i j := by rw [← h1, ← hq]
        exact ⟨e, by rw [← this]; exact hk, h2⟩
    exact ⟨_, (hat _).2 rfl, fun k hk => (hat k).1 hk⟩

/-- **C122 (pairs of atom types).**  The table of pairs numbers the unordered pairs of the atom types of the
model from zero, and every ordered pair of types stands in exactly one of its entries. -/
theorem C122_pairs (p : PairParams K) (q : GtParams K) :
    Spec.PairTable p.nType (attrsPair p).pairs ∧ Spec.PairTable q.nType (attrsGt q).pairs :=
  ⟨pairTable p.nType p.cond, pairTable q.nType q.cond⟩

example : Spec.PairTable 2 [(0, [(0, 0)]), (1, [(0, 1), (1, 0)]), (2, [(1, 1)])] := by
  have h := (C122_pairs exParams (⟨1, 0, 0, fun _ _ => [], fun _ _ => 0, fun _ _ => 0, fun _ _ => 0,
    fun _ _ _ => 0, fun _ _ _ _ => 0, 0, 0, 0, 0, [], [], [], 1, 1⟩ : GtParams ℚ)).1
  have e : (attrsPair exParams).pairs = [(0, [(0, 0)]), (1, [(0, 1), (1, 0)]), (2, [(1, 1)])] := by
    decide +kernel
  rw [e] at h
  exact h

/-! ## Radial functions of the pairs -/

private theorem cond_fold (d : Dict (ℕ × ℕ) (List ℕ)) : ∀ (P : List (ℕ × ℕ)) (v : ℕ → ℕ → List ℕ),
    ((∃ e ∈ P, d.get? e = none) → P.foldlM (fun v e => (orErr Err.keyError (d.get? e)).map
      fun l => put v e.1 (put (v e.1) e.2 l)) v = .error .keyError) ∧
    ((∀ e ∈ P, d.get? e ≠ none) → ∃ w : ℕ → ℕ → List ℕ,
      P.foldlM (fun v e => (orErr Err.keyError (d.get? e)).map fun l => put v e.1 (put (v e.1) e.2 l)) v =
        .ok w ∧ ∀ i j, w i j = if (i, j) ∈ P then (d.get? (i, j)).getD [] else v i j) := by
  intro P
  induction P with
  | nil => intro v; exact ⟨by simp, fun _ => ⟨v, rfl, by simp⟩⟩
  | cons e P ih =>
    intro v
    cases h : d.get? e with
    | none =>
      refine ⟨fun _ => ?_, fun hh => absurd h (hh e (by simp))⟩
      rw [List.foldlM_cons, h]
      rfl
    | some l =>
      obtain ⟨h1, h2⟩ := ih (put v e.1 (put (v e.1) e.2 l))
      refine ⟨fun hh => ?_, fun hh => ?_⟩
      · rw [List.foldlM_cons, h]
        obtain ⟨f, hf, hn⟩ := hh
        rcases List.mem_cons.1 hf with rfl | hf
        · rw [h] at hn; simp at hn
        · exact h1 ⟨f, hf, hn⟩
      · obtain ⟨w, hw, hv⟩ := h2 fun f hf => hh f (by simp [hf])
        refine ⟨w, ?_, fun i j => ?_⟩
        · rw [List.foldlM_cons, h]; exact hw
        · rw [hv i j]
          by_cases hm : (i, j) ∈ P
          · rw [if_pos hm, if_pos (by simp [hm])]
          · rw [if_neg hm]
            by_cases he : (i, j) = e
            · subst he
              rw [if_pos (by simp), h]
              simp [put]
            · rw [if_neg (by simp [he, hm])]
              unfold put
              by_cases hi : i = e.1
              · subst hi
                have : j ≠ e.2 := fun hj => he (by rw [hj])
                simp [this]
              · simp [hi]

/-- **C122 (active radial functions).**  The radial functions of the atom types `i ≤ j` of the model are those
of the key `(i, j)`; a dictionary without one of these keys is a `KeyError`. -/
theorem C122_active (n : ℕ) (d : Dict (ℕ × ℕ) (List ℕ)) :
    ((∃ i j, i ≤ j ∧ j < n ∧ d.get? (i, j) = none) → condOf n d = .error .keyError) ∧
    ∀ c, condOf n d = .ok c → ∀ i j, i ≤ j → j < n → d.get? (i, j) = some (c i j) := by
  have hm : ∀ i j, (i, j) ∈ ((List.range n).flatMap fun i => (List.range (i + 1)).map fun j => (j, i)) ↔
      i ≤ j ∧ j < n := by
    intro i j
    simp only [List.mem_flatMap, List.mem_range, List.mem_map, Prod.mk.injEq]
    constructor
    · rintro ⟨a, ha, b, hb, rfl, rfl⟩; omega
    · rintro ⟨h1, h2⟩; exact ⟨j, h2, i, by omega, rfl, rfl⟩
  have key := cond_fold d ((List.range n).flatMap fun i => (List.range (i + 1)).map fun j => (j, i))
    fun _ _ => []
  constructor
  · rintro ⟨i, j, h1, h2, h3⟩
    exact key.1 ⟨(i, j), (hm i j).2 ⟨h1, h2⟩, h3⟩
  · intro c hc i j h1 h2
    by_cases hall : ∀ e ∈ ((List.range n).flatMap fun i => (List.range (i + 1)).map fun j => (j, i)),
        d.get? e ≠ none
    · obtain ⟨w, hw, hv⟩ := key.2 hall
      unfold condOf at hc
      rw [hw] at hc
      obtain rfl := Except.ok.inj hc
      rw [hv i j, if_pos ((hm i j).2 ⟨h1, h2⟩)]
      cases hd : d.get? (i, j) with
      | none => exact absurd hd (hall _ ((hm i j).2 ⟨h1, h2⟩))
      | some l => rfl
    · push Not at hall
      have := key.1 hall
      unfold condOf at hc
      rw [this] at hc
      simp at hc

example : (∃ c, condOf 2 [((0, 0), [0]), ((0, 1), [0, 1]), ((1, 1), [1])] = .ok c ∧ c 0 1 = [0, 1]) ∧
    condOf 2 [((0, 0), [0]), ((1, 0), [0, 1]), ((1, 1), [1])] = .error .keyError := by
  refine ⟨?_, (C122_active 2 _).1 ⟨0, 1, by decide, by decide, by decide⟩⟩
  obtain ⟨c, hc⟩ : ∃ c, condOf 2 [((0, 0), [0]), ((0, 1), [0, 1]), ((1, 1), [1])] = .ok c := ⟨_, rfl⟩
  have h := (C122_active 2 _).2 c hc 0 1 (by decide) (by decide)
  have h2 : Dict.get? [((0, 0), [0]), ((0, 1), [0, 1]), ((1, 1), [1])] ((0, 1) : ℕ × ℕ) =
    some [0, 1] := by decide
  rw [h2] at h
  exact ⟨c, hc, (Option.some.inj h).symm⟩

/-! ## Columns of models of pairs -/

theorem columns_linear (p : PolyParams) {k : ℕ} (hk : k < p.nLinear) : (columns p)[k]? = some [k] := by
  unfold columns
  rw [List.append_assoc, List.getElem?_append_left (by simpa using hk), List.getElem?_map,
    List.getElem?_range hk]
  rfl

theorem columns_poly (p : PolyParams) (k : ℕ) : (columns p)[p.nLinear + k]? = (polyIds p)[k]? := by
  unfold columns polyIds
  rw [List.append_assoc, List.getElem?_append_right (by simp)]
  simp

theorem attrs_get (p : PairParams K) (k : ℕ) : (attrsPair p).linear[k]? =
    (globalAttrs p.maps)[k]?.map fun a => (a.n, [a.tp]) := by
  unfold attrsPair
  rw [List.getElem?_map]

theorem feats_get (p : PairParams K) (k : ℕ) : p.feats[k]? =
    (globalAttrs p.maps)[k]?.map fun a => (a.n, typesOf p.maps a.tp) := by
  rw [feats_eq, List.getElem?_map]

/-- Types of a feature and the table of pairs. -/
theorem feat_belongs (p : PairParams K) {k : ℕ} {a : NtpAttr} (ha : (globalAttrs p.maps)[k]? = some a)
    {t u : ℕ} (ht : t < p.nType) (hu : u < p.nType) :
    Spec.Belongs (attrsPair p).pairs t u a.tp ↔
      (t = (typesOf p.maps a.tp).1 ∧ u = (typesOf p.maps a.tp).2) ∨
        (t = (typesOf p.maps a.tp).2 ∧ u = (typesOf p.maps a.tp).1) := by
  have h1 : Spec.Belongs (attrsPair p).pairs t u a.tp ↔ t < p.nType ∧ u < p.nType ∧
      (setTypePairs p.nType p.cond).typePairs t u = a.tp := belongs_iff p.nType p.cond t u a.tp
  rw [h1]
  obtain ⟨⟨ns, hns, -, -⟩, -⟩ := mem_globalAttrs (List.mem_of_getElem? ha)
  have hN : p.maps.tpN = (allPairs p.nType).map fun e => p.cond e.1 e.2 := tpN_eq _ _
  rw [hN, List.getElem?_map, Option.map_eq_some_iff] at hns
  obtain ⟨e, he, -⟩ := hns
  have hty : typesOf p.maps a.tp = e := by
    have hT : p.maps.tpTypes = allPairs p.nType := tpTypes_eq _ _
    rw [typesOf, hT, List.getD_eq_getElem?_getD, he]
    rfl
  rw [hty]
  have hem := (mem_allPairs p.nType e.1 e.2).1 (List.mem_of_getElem? he)
  have h2 := tpOf_get p.nType p.cond he
  have hes : e ∈ square p.nType := (mem_square _ _).2 ⟨by omega, hem.2⟩
  have hts : (t, u) ∈ square p.nType := (mem_square _ _).2 ⟨ht, hu⟩
  have h3 := tpOf_eq p.nType p.cond hts hes
  rw [h2] at h3
  simp only [ht, hu, true_and]
  rw [show (setTypePairs p.nType p.cond).typePairs t u = a.tp ↔ tpOf p.nType p.cond (t, u) = a.tp from
    Iff.rfl, h3]
  constructor
  · rintro (h | h)
    · left; exact ⟨congrArg Prod.fst h, congrArg Prod.snd h⟩
    · right; exact ⟨congrArg Prod.fst h, congrArg Prod.snd h⟩
  · rintro (⟨h, h'⟩ | ⟨h, h'⟩)
    · left; exact Prod.ext h h'
    · right; exact Prod.ext h h'

theorem described_feat (p : PairParams K) (sqrt : K → K) (types : ℕ → ℕ) (N : ℕ → List (ℕ × Vec K))
    (w : ℕ → ℕ → ℕ × Vec K → K) (i : ℕ) (hi : types i < p.nType) (hN : ∀ e ∈ N i, types e.1 < p.nType)
    (k : ℕ) :
    feat p sqrt types N w i k = Spec.describedValue (attrsPair p).pairs
      (fun d => decide (disOf sqrt d < p.cutoff)) types N (attrsPair p).linear (w i) i k := by
  unfold feat Spec.featureSum Spec.describedValue Spec.pairSum
  rw [feats_get, attrs_get]
  cases ha : (globalAttrs p.maps)[k]? with
  | none => rfl
  | some a =>
  simp only [Option.map_some, List.map_cons, List.map_nil, List.sum_cons, List.sum_nil, add_zero]
  refine sum_map_congr _ _ _ ?_
  intro e he
  have hb := feat_belongs p ha hi (hN e he)
  by_cases h : decide (disOf sqrt e.2 < p.cutoff) = true ∧
      Spec.Belongs (attrsPair p).pairs (types i) (types e.1) a.tp
  · rw [if_pos h, if_pos ⟨h.1, hb.1 h.2⟩]
  · rw [if_neg h, if_neg fun h' => h ⟨h'.1, hb.2 h'.2⟩]

/-- A feature that does not exist for the type of an atom has no neighbours in its sum. -/
theorem feat_zero (p : PairParams K) (sqrt : K → K) (types : ℕ → ℕ) (N : ℕ → List (ℕ × Vec K))
    (w : ℕ → ℕ → ℕ × Vec K → K) (i k : ℕ) (h : Spec.featureExists p.feats k (types i) = false) :
    feat p sqrt types N w i k = 0 := by
  unfold feat Spec.featureSum
  unfold Spec.featureExists at h
  cases hk : p.feats[k]? with
  | none => rfl
  | some f =>
    rw [hk] at h
    simp only [decide_eq_false_iff_not, not_or] at h
    simp only
    refine List.sum_eq_zero fun y hy => ?_
    rw [List.mem_map] at hy
    obtain ⟨e, _, rfl⟩ := hy
    rw [if_neg]
    rintro ⟨-, ⟨h1, -⟩ | ⟨h1, -⟩⟩
    · exact h.1 h1
    · exact h.2 h1

theorem leibniz_zero (A D : ℕ → K) (c : List ℕ) (g : ℕ) (hg : g ∈ c) (hA : A g = 0) (hD : D g = 0) :
    Spec.leibniz A D c = 0 := by
  induction c with
  | nil => simp at hg
  | cons a c ih =>
    rw [Spec.leibniz]
    rcases List.mem_cons.1 hg with rfl | hg
    · rw [hA, hD]; ring
    · rw [ih hg, List.prod_eq_zero (List.mem_map.2 ⟨g, hg, hA⟩)]; ring

theorem column_value (p : PairParams K) (types : ℕ → ℕ) (n : ℕ) (val : ℕ → List ℕ → K) (c : List ℕ)
    (h : ∀ i < n, ∀ g ∈ c, Spec.featureExists p.feats g (types i) = false → val i c = 0) :
    Spec.columnSum p.feats types n val c = ((List.range n).map fun i => val i c).sum := by
  unfold Spec.columnSum
  refine sum_map_congr _ _ _ ?_
  intro i hi
  split_ifs with hall
  · rfl
  · rw [List.all_eq_true] at hall
    push Not at hall
    obtain ⟨g, hg, hn⟩ := hall
    exact (h i (List.mem_range.1 hi) g hg (by simpa using hn)).symm

/-- **C122 (columns of models of pairs).**  The list has as many features as the design matrix has columns.
Column `k` is the sum over the atoms of the value that the description of feature `k` gives to them; the
column of a product of features is the sum of the products of these values; the columns of the forces and of
the stress are the derivatives. -/
theorem C122_pair_columns (p : PairParams K) (sqrt : K → K) (types : ℕ → ℕ) (n : ℕ)
    (neigh : Csr (ℕ × Vec K)) (htypes : ∀ i < n, types i < p.nType)
    (hneigh : ∀ i < n, ∀ e ∈ neigh.row i, e.1 < n) :
    let a := attrsPair p
    let X := modelRun p sqrt types n neigh
    let V : (ℕ → ℕ × Vec K → K) → ℕ → ℕ → K :=
      Spec.describedValue a.pairs (fun d => decide (disOf sqrt d < p.cutoff)) types neigh.row a.linear
    let atoms := List.range n
    numFeatures a = nVariables p.params ∧
    (∀ k < a.linear.length,
      X.xe k = (atoms.map fun i => V (radE p sqrt) i k).sum ∧
      (∀ q x, X.xf k q x = (atoms.map fun i => V (radF p sqrt q x i) i k).sum) ∧
      ∀ c6, X.xs k c6 = (atoms.map fun i => V (radS p sqrt c6) i k).sum) ∧
    ∀ (k : ℕ) (c : List ℕ), a.poly[k]? = some c → (∀ g ∈ c, g < a.linear.length) ∧
      X.xe (a.linear.length + k) = (atoms.map fun i => (c.map (V (radE p sqrt) i)).prod).sum ∧
      (∀ q x, X.xf (a.linear.length + k) q x =
        (atoms.map fun i => Spec.leibniz (V (radE p sqrt) i) (V (radF p sqrt q x i) i) c).sum) ∧
      ∀ c6, X.xs (a.linear.length + k) c6 =
        (atoms.map fun i => Spec.leibniz (V (radE p sqrt) i) (V (radS p sqrt c6) i) c).sum := by
  intro a X V atoms
  have hlen : a.linear.length = p.params.nLinear := by
    simp [a, attrsPair, PairParams.params, polyPair]
  have hnum : numFeatures a = nVariables p.params := by
    unfold numFeatures nVariables
    rw [hlen, show a.poly = polyIds p.params from rfl, polyIds, List.length_append]
    omega
  have hcol : ∀ (k : ℕ) (c : List ℕ), (columns p.params)[k]? = some c →
      X.xe k = (atoms.map fun i => (c.map (V (radE p sqrt) i)).prod).sum ∧
      (∀ q x, X.xf k q x =
        (atoms.map fun i => Spec.leibniz (V (radE p sqrt) i) (V (radF p sqrt q x i) i) c).sum) ∧
      ∀ c6, X.xs k c6 =
        (atoms.map fun i => Spec.leibniz (V (radE p sqrt) i) (V (radS p sqrt c6) i) c).sum := by
    intro k c hc
    have hk : k < nVariables p.params := by
      rw [← columns_length]; exact (List.getElem?_eq_some_iff.1 hc).1
    obtain ⟨h1, h2, h3⟩ := C26_design_matrix p sqrt types n neigh htypes hneigh k hk
    have hgd : (columns p.params).getD k [] = c := by rw [List.getD_eq_getElem?_getD, hc]; rfl
    rw [hgd] at h1 h2 h3
    have hF : ∀ (w : ℕ → ℕ → ℕ × Vec K → K) (i : ℕ), i < n → feat p sqrt types neigh.row w i = V (w i) i :=
      fun w i hi => funext fun g => described_feat p sqrt types neigh.row w i (htypes i hi)
        (fun e he => htypes _ (hneigh i hi e he)) g
    refine ⟨?_, fun q x => ?_, fun c6 => ?_⟩
    · rw [h1, column_value]
      · refine sum_map_congr _ _ _ fun i hi => ?_
        rw [hF (fun _ => radE p sqrt) i (List.mem_range.1 hi)]
      · intro i _ g hg hz
        exact List.prod_eq_zero (List.mem_map.2 ⟨g, hg, feat_zero p sqrt types _ _ i g hz⟩)
    · rw [h2 q x, column_value]
      · refine sum_map_congr _ _ _ fun i hi => ?_
        rw [hF (fun _ => radE p sqrt) i (List.mem_range.1 hi), hF (radF p sqrt q x) i (List.mem_range.1 hi)]
      · intro i _ g hg hz
        exact leibniz_zero _ _ c g hg (feat_zero p sqrt types _ _ i g hz) (feat_zero p sqrt types _ _ i g hz)
    · rw [h3 c6, column_value]
      · refine sum_map_congr _ _ _ fun i hi => ?_
        rw [hF (fun _ => radE p sqrt) i (List.mem_range.1 hi),
          hF (fun _ => radS p sqrt c6) i (List.mem_range.1 hi)]
      · intro i _ g hg hz
        exact leibniz_zero _ _ c g hg (feat_zero p sqrt types _ _ i g hz) (feat_zero p sqrt types _ _ i g hz)
  refine ⟨hnum, ?_, ?_⟩
  · intro k hk
    rw [hlen] at hk
    obtain ⟨h1, h2, h3⟩ := hcol k [k] (columns_linear p.params hk)
    simp only [List.map_cons, List.map_nil, List.prod_cons, List.prod_nil, mul_one] at h1
    simp only [Spec.leibniz, List.map_nil, List.prod_nil, mul_one, mul_zero, add_zero] at h2 h3
    exact ⟨h1, h2, h3⟩
  · intro k c hc
    have hc' : (columns p.params)[a.linear.length + k]? = some c := by
      rw [hlen, columns_poly]; exact hc
    refine ⟨?_, hcol _ c hc'⟩
    intro g hg
    have hE := (C27_pair p.nType p.maps.typePairs ((globalAttrs p.maps).map (·.tp)) p.modelType p.maxp).1
    rcases (hE.mem c).1 (List.mem_of_getElem? hc') with ⟨g', hg', rfl⟩ | ⟨-, -, -, -, h, -⟩
    · rw [List.mem_singleton] at hg
      subst hg
      simpa [a, attrsPair] using hg'
    · simpa [a, attrsPair] using (h g hg).2

set_option maxRecDepth 100000 in
example : (attrsPair exParams).linear = [(0, [0]), (0, [1]), (1, [1]), (0, [2])] ∧
    (attrsPair exParams).poly.length = 9 ∧ (attrsPair exParams).poly[1]? = some [0, 1] ∧
    (∀ i < 2, (fun i : ℕ => i) i < exParams.nType) ∧
    ∀ i < 2, ∀ e ∈ (neighborFull 5 (1 / 10) exTrans exPos 2).row i, e.1 < 2 := by
  refine ⟨?_, ?_, ?_, ?_, ?_⟩ <;> decide +kernel

/-! ## Invariants -/

/-- **C122 (enumeration of invariants).**  Whatever the number of atom types, the radial functions of the
pairs and the table of invariants, the list contains every invariant of the model exactly once and nothing
else. -/
theorem C122_invariants (p : GtParams K) (hcond : ∀ i j, (p.cond i j).Nodup)
    (hl : ∀ l ∈ p.lComb, l ≠ [] ∧ l.Pairwise (· ≤ ·)) :
    Spec.ListsInvariants p.nType p.nFn p.lComb (attrsGt p).pairs p.cond (attrsGt p).linear :=
  lists p.nType p.cond hcond p.nFn p.lComb hl

/-! ## The file -/

/-- The names of the elements of the pairs. -/
theorem pairSection_ok (elements : List String) (d : Dict ℕ (List (ℕ × ℕ)))
    (h : ∀ e ∈ d, ∀ v ∈ e.2, v.1 < elements.length ∧ v.2 < elements.length) :
    pairSection elements d = .ok (d.map fun e =>
      (e.1, e.2.map fun v => [elements.getD v.1 "", elements.getD v.2 ""])) := by
  have hone : ∀ t < elements.length, orErr Err.indexError elements[t]? = .ok (elements.getD t "") := by
    intro t ht
    rw [List.getD_eq_getElem?_getD, List.getElem?_eq_getElem ht]
    rfl
  have hnames : ∀ v : ℕ × ℕ, v.1 < elements.length → v.2 < elements.length →
      pairNames elements v = .ok [elements.getD v.1 "", elements.getD v.2 ""] := by
    intro v h1 h2
    unfold pairNames
    simp only [List.mapM_cons, List.mapM_nil, hone _ h1, hone _ h2]
    rfl
  have hlist : ∀ l : List (ℕ × ℕ), (∀ v ∈ l, v.1 < elements.length ∧ v.2 < elements.length) →
      l.mapM (pairNames elements) = .ok (l.map fun v => [elements.getD v.1 "", elements.getD v.2 ""]) := by
    intro l
    induction l with
    | nil => intro _; rfl
    | cons v l ih =>
      intro hl
      rw [List.mapM_cons, hnames v (hl v (by simp)).1 (hl v (by simp)).2, ih fun w hw => hl w (by simp [hw])]
      rfl
  unfold pairSection
  induction d with
  | nil => rfl
  | cons e d ih =>
    rw [List.mapM_cons, hlist e.2 (h e (by simp)), ih fun x hx => h x (by simp [hx])]
    rfl

theorem polySection_eq (k : ℕ) (poly : List (List ℕ)) :
    polySection k poly = (poly.zipIdx.map fun e => (k + e.2, e.1), k + poly.length) := by
  unfold polySection
  induction poly using List.reverseRecOn with
  | nil => rfl
  | append_singleton l c ih =>
    rw [List.foldl_append, ih, zipIdx_snoc']
    simp [Nat.add_assoc]

theorem pairs_bound {A : Type} {n : ℕ} {a : Attrs A} (h : Spec.PairTable n a.pairs)
    {elements : List String} (hel : n ≤ elements.length) :
    ∀ e ∈ a.pairs, ∀ v ∈ e.2, v.1 < elements.length ∧ v.2 < elements.length := by
  intro e he v hv
  rcases h.form e he with ⟨i, hi, h2⟩ | ⟨i, j, hij, hj, h2⟩ <;> rw [h2] at hv
  · rw [List.mem_singleton] at hv; subst hv; exact ⟨by simp; omega, by simp; omega⟩
  · simp only [List.mem_cons, List.not_mem_nil, or_false] at hv
    rcases hv with rfl | rfl
    · exact ⟨by simp; omega, by simp; omega⟩
    · exact ⟨by simp; omega, by simp; omega⟩

/-- **C122 (file, pairs).**  The file describes column `k` of the design matrix under the identifier `k`,
first the features, then the products with the identifiers of their factors; the names of the pairs are those
of the atom types; the returned number is the number of columns. -/
theorem C122_file_pair {P : Type} (pairParams : List P) (elements : List String) (p : PairParams K)
    (hel : p.nType ≤ elements.length) :
    ∃ F, writePair pairParams elements (attrsPair p) = .ok (F, nVariables p.params) ∧
      (∀ k : ℕ, F.radial[k]? = pairParams[k]?.map fun x => (k, x)) ∧
      F.pairs = (attrsPair p).pairs.map (fun e =>
        (e.1, e.2.map fun v => [elements.getD v.1 "", elements.getD v.2 ""])) ∧
      (∀ k : ℕ, F.features[k]? = (attrsPair p).linear[k]?.map fun f => ⟨k, k, f.1, none, f.2⟩) ∧
      ∀ k : ℕ, F.poly[k]? = (attrsPair p).poly[k]?.map fun c => ((attrsPair p).linear.length + k, c) := by
  have hfold : ∀ l : List (ℕ × List ℕ), l.foldl
      (fun (s : List FeatureEntry × ℕ × ℕ) f =>
        (s.1 ++ [⟨s.2.1, s.2.2, f.1, none, f.2⟩], s.2.1 + 1, s.2.2 + 1)) ([], 0, 0) =
      (l.zipIdx.map fun e => ⟨e.2, e.2, e.1.1, none, e.1.2⟩, l.length, l.length) := by
    intro l
    induction l using List.reverseRecOn with
    | nil => rfl
    | append_singleton l c ih =>
      rw [List.foldl_append, ih, zipIdx_snoc']
      simp
  have hnum : (attrsPair p).linear.length + (attrsPair p).poly.length = nVariables p.params := by
    simp [attrsPair, PairParams.params, polyPair, nVariables, polyIds, Nat.add_assoc]
  refine ⟨⟨pairParams.zipIdx.map fun e => (e.2, e.1), _,
    (attrsPair p).linear.zipIdx.map fun e => ⟨e.2, e.2, e.1.1, none, e.1.2⟩,
    (attrsPair p).poly.zipIdx.map fun e => ((attrsPair p).linear.length + e.2, e.1)⟩, ?_, ?_, rfl, ?_, ?_⟩
  · unfold writePair
    rw [pairSection_ok elements _ (pairs_bound (pairTable p.nType p.cond) hel), hfold, ← hnum]
    simp only [polySection_eq]
    rfl
  · intro k
    simp only [List.getElem?_map, List.getElem?_zipIdx, Option.map_map, Nat.zero_add]
    rfl
  · intro k
    simp only [List.getElem?_map, List.getElem?_zipIdx, Option.map_map, Nat.zero_add]
    rfl
  · intro k
    simp only [List.getElem?_map, List.getElem?_zipIdx, Option.map_map, Nat.zero_add]
    rfl

/-- **C122 (file, invariants).**  The same for invariants, with the `l` of the entry of the table. -/
theorem C122_file_gtinv {P : Type} (pairParams : List P) (elements : List String) (p : GtParams K)
    (hel : p.nType ≤ elements.length) :
    ∃ F, writeGt pairParams elements p.lComb (attrsGt p) = .ok (F, nVariables p.params) ∧
      (∀ k : ℕ, F.radial[k]? = pairParams[k]?.map fun x => (k, x)) ∧
      F.pairs = (attrsGt p).pairs.map (fun e =>
        (e.1, e.2.map fun v => [elements.getD v.1 "", elements.getD v.2 ""])) ∧
      F.features.length = (attrsGt p).linear.length ∧
      (∀ (k : ℕ) (f : ℕ × ℕ × List ℕ), (attrsGt p).linear[k]? = some f → ∃ l, p.lComb[f.2.1]? = some l ∧
        F.features[k]? = some ⟨k, k, f.1, some (f.2.1, l), f.2.2⟩) ∧
      ∀ k : ℕ, F.poly[k]? = (attrsGt p).poly[k]?.map fun c => ((attrsGt p).linear.length + k, c) := by
  have hfold : ∀ l : List (ℕ × ℕ × List ℕ), (∀ f ∈ l, ∃ x, p.lComb[f.2.1]? = some x) → l.foldlM
      (fun (s : List FeatureEntry × ℕ × ℕ) f => (orErr Err.indexError p.lComb[f.2.1]?).map fun l =>
        (s.1 ++ [⟨s.2.1, s.2.2, f.1, some (f.2.1, l), f.2.2⟩], s.2.1 + 1, s.2.2 + 1)) ([], 0, 0) =
      .ok (l.zipIdx.map fun e => ⟨e.2, e.2, e.1.1, some (e.1.2.1, p.lComb.getD e.1.2.1 []), e.1.2.2⟩,
        l.length, l.length) := by
    intro l
    induction l using List.reverseRecOn with
    | nil => intro _; rfl
    | append_singleton l c ih =>
      intro h
      rw [List.foldlM_append, ih fun f hf => h f (by simp [hf]), zipIdx_snoc']
      obtain ⟨x, hx⟩ := h c (by simp)
      simp only [List.foldlM_cons, List.foldlM_nil, hx, List.map_append, List.map_cons, List.map_nil, List.length_append, List.length_cons,
        List.length_nil, Nat.zero_add, List.getD_eq_getElem?_getD, hx, Option.getD_some]
      rfl
  have hnum : (attrsGt p).linear.length + (attrsGt p).poly.length = nVariables p.params := by
    simp [attrsGt, GtParams.params, polyGtinv, nVariables, polyIds, Nat.add_assoc]
  have hlc : ∀ f ∈ (attrsGt p).linear, ∃ x, p.lComb[f.2.1]? = some x := by
    intro f hf
    unfold attrsGt at hf
    simp only [List.mem_map] at hf
    obtain ⟨lin, hlin, rfl⟩ := hf
    obtain ⟨ls, tps, h⟩ := linear_mem p lin hlin
    exact ⟨ls, h.hls⟩
  refine ⟨⟨pairParams.zipIdx.map fun e => (e.2, e.1), _,
    (attrsGt p).linear.zipIdx.map
      fun e => ⟨e.2, e.2, e.1.1, some (e.1.2.1, p.lComb.getD e.1.2.1 []), e.1.2.2⟩,
    (attrsGt p).poly.zipIdx.map fun e => ((attrsGt p).linear.length + e.2, e.1)⟩, ?_, ?_, rfl, ?_, ?_, ?_⟩
  · unfold writeGt
    rw [pairSection_ok elements _ (pairs_bound (pairTable p.nType p.cond) hel), hfold _ hlc, ← hnum]
    simp only [polySection_eq, bind, Except.bind]
    rfl
  · intro k
    simp only [List.getElem?_map, List.getElem?_zipIdx, Option.map_map, Nat.zero_add]
    rfl
  · simp
  · intro k f hf
    obtain ⟨l, hl⟩ := hlc f (List.mem_of_getElem? hf)
    refine ⟨l, hl, ?_⟩
    simp only [List.getElem?_map, List.getElem?_zipIdx, hf, Option.map_some, Nat.zero_add,
      List.getD_eq_getElem?_getD, hl, Option.getD_some]
  · intro k
    simp only [List.getElem?_map, List.getElem?_zipIdx, Option.map_map, Nat.zero_add]
    rfl

/-- Too few names of elements are an `IndexError`, although the file has already been truncated. -/
example : pairSection ["Mg"] (attrsPair exParams).pairs = .error .indexError := by
  have e : (attrsPair exParams).pairs = [(0, [(0, 0)]), (1, [(0, 1), (1, 0)]), (2, [(1, 1)])] := by
    decide +kernel
  rw [e]
  rfl

end Verif.FeatAttr
