import Verif.Model.DisAn
import Verif.Spec.DisAn
import Verif.Lemmas.Py
import Mathlib.Algebra.Order.BigOperators.Group.Finset
import Mathlib.Algebra.Order.BigOperators.Group.List
import Mathlib.Algebra.Order.Field.Basic
import Mathlib.Algebra.BigOperators.Ring.List
import Mathlib.Tactic.Ring
import Mathlib.Tactic.FieldSimp
import Mathlib.Tactic.NormNum
import Mathlib.Tactic.Linarith

/-!
# C133: coefficients of the analytical model of disorder
-/

namespace Verif.DisAn
open Verif Verif.Spec.DisAn

/-- The mapping of the original potential with types below `n` for features with radial function `rad` and angular momenta
`lc`: every key in order, with a common type in all pairs, has the coefficient `w` of its content. -/
def Maps (mapF : Feat → Option ℝ) (n rad : ℕ) (lc : List ℕ) (w : Multiset (ℕ × Sym2 ℕ) → ℝ) : Prop :=
  ∀ tps : List (ℕ × ℕ), lc.length = tps.length → (lc.zip tps).Pairwise entryLe →
    (∃ c, ∀ p ∈ tps, (c = p.1 ∨ c = p.2) ∧ p.1 ≤ p.2 ∧ p.2 < n) →
    mapF ⟨rad, lc, tps⟩ = some (w ↑((lc.zip tps).map fun x => (x.1, s(x.2.1, x.2.2))))

theorem product_mem {α : Type} (P : α → Prop) (ds : List (List α)) (h : ∀ d ∈ ds, ∀ x ∈ d, P x) : ∀ o ∈ product ds, ∀ x ∈ o, P x := by
  induction ds with
  | nil => intro o ho; simp [product] at ho; simp [ho]
  | cons d ds ih =>
    intro o ho
    simp only [product, List.mem_flatMap, List.mem_map] at ho
    obtain ⟨x, hx, y, hy, rfl⟩ := ho
    intro z hz
    rcases List.mem_cons.1 hz with rfl | hz
    · exact h d (by simp) _ hx
    · exact ih (fun e he => h e (List.mem_cons_of_mem _ he)) y hy z hz

theorem product_length {α : Type} (ds : List (List α)) : ∀ o ∈ product ds, o.length = ds.length := by
  induction ds with
  | nil => intro o h; simp [product] at h; simp [h]
  | cons d ds ih =>
    intro o h
    simp only [product, List.mem_flatMap, List.mem_map] at h
    obtain ⟨x, -, y, hy, rfl⟩ := h
    simp [ih y hy]

theorem product_expect (ds : List (List (ℕ × ℝ))) (f : List ℕ → ℝ) :
    ((product ds).map fun o => (o.map (·.2)).prod * f (o.map (·.1))).sum = expect ds f := by
  induction ds generalizing f with
  | nil => simp [product, expect]
  | cons d ds ih =>
    simp only [product, expect]
    induction d with
    | nil => simp
    | cons x d ihd =>
      rw [List.flatMap_cons, List.map_append, List.sum_append, List.map_cons, List.sum_cons, ihd, ← ih, List.map_map]
      congr 1
      rw [← List.sum_map_mul_left]
      congr 1
      refine List.map_congr_left fun o _ => ?_
      simp only [Function.comp, List.map_cons, List.prod_cons]
      ring

instance : Std.Total ltLe := ⟨fun a b => by unfold ltLe; omega⟩
instance : IsTrans (ℕ × ℕ × ℕ) ltLe := ⟨fun a b c => by unfold ltLe; omega⟩

theorem ltLe_eq : ltLe = entryLe := rfl

theorem keyTp_spec (lc : List ℕ) (tp : List (ℕ × ℕ)) (hl : lc.length = tp.length) (hs : lc.Pairwise (· ≤ ·)) :
    lc.zip (keyTp lc tp) = (lc.zip tp).insertionSort ltLe ∧ lc.length = (keyTp lc tp).length := by
  have hp := List.perm_insertionSort ltLe (lc.zip tp)
  have h1 : ((lc.zip tp).insertionSort ltLe).map (·.1) = lc := by
    refine List.Perm.eq_of_pairwise' (r := fun a b : ℕ => a ≤ b) ?_ hs ?_
    · rw [List.pairwise_map]
      refine (List.pairwise_insertionSort ltLe _).imp fun {a b} h => ?_
      unfold ltLe at h
      omega
    · have := hp.map (·.1)
      rwa [show (lc.zip tp).map (·.1) = lc from List.map_fst_zip (by omega)] at this
  refine ⟨?_, ?_⟩
  · have key : ∀ z : List (ℕ × ℕ × ℕ), (z.map (·.1)).zip (z.map (·.2)) = z := by
      intro z
      induction z with
      | nil => rfl
      | cons a z ih => simp [ih]
    have := key ((lc.zip tp).insertionSort ltLe)
    rw [h1] at this
    exact this
  · unfold keyTp
    rw [List.length_map, List.length_insertionSort, List.length_zip]
    omega

theorem sortedPair_sym (c t : ℕ) : s((sortedPair c t).1, (sortedPair c t).2) = s(c, t) := by
  unfold sortedPair
  split
  · rfl
  · exact Sym2.eq_swap

theorem occTerm_ok (mapF : Feat → Option ℝ) (n rad : ℕ) (lc : List ℕ) (w : Multiset (ℕ × Sym2 ℕ) → ℝ) (hw : Maps mapF n rad lc w)
    (hs : lc.Pairwise (· ≤ ·)) (o : List (ℕ × ℝ)) (ho : o.length = lc.length + 1) (hn : ∀ x ∈ o, x.1 < n) :
    occTerm mapF rad lc o = .ok ((o.map (·.2)).prod *
      (fun ts : List ℕ => w (content lc (ts.headD 0) ts.tail)) (o.map (·.1))) := by
  cases o with
  | nil => simp at ho
  | cons c ns =>
    have hl : lc.length = (ns.map fun n => sortedPair c.1 n.1).length := by
      simp only [List.length_cons, List.length_map] at ho ⊢
      omega
    obtain ⟨k1, k2⟩ := keyTp_spec lc _ hl hs
    have hc : ∃ c', ∀ p ∈ keyTp lc (ns.map fun n => sortedPair c.1 n.1), (c' = p.1 ∨ c' = p.2) ∧ p.1 ≤ p.2 ∧ p.2 < n := by
      refine ⟨c.1, fun p hp => ?_⟩
      obtain ⟨x, hx, rfl⟩ := List.mem_map.1 hp
      have hx' := (List.of_mem_zip ((List.perm_insertionSort ltLe _).mem_iff.1 hx)).2
      obtain ⟨y, hy, he⟩ := List.mem_map.1 hx'
      rw [← he]
      have h1 := hn c (by simp)
      have h2 := hn y (by simp [hy])
      unfold sortedPair
      split <;> simp <;> omega
    simp only [occTerm]
    rw [hw _ k2 (by rw [k1, ← ltLe_eq]; exact List.pairwise_insertionSort _ _) hc, k1]
    have : ((((lc.zip (ns.map fun n => sortedPair c.1 n.1)).insertionSort ltLe).map fun x => (x.1, s(x.2.1, x.2.2)) :
        List (ℕ × Sym2 ℕ)) : Multiset (ℕ × Sym2 ℕ)) = content lc c.1 (ns.map (·.1)) := by
      unfold content
      rw [Multiset.coe_eq_coe.2 ((List.perm_insertionSort ltLe _).map _), List.map_map]
      congr 1
      rw [show (fun x : ℕ × ℕ × ℕ => (x.1, s(x.2.1, x.2.2))) = Prod.map id (fun y : ℕ × ℕ => s(y.1, y.2)) from rfl,
        ← List.zip_map_right, List.map_map]
      congr 1
      refine List.map_congr_left fun n _ => sortedPair_sym c.1 n.1
    rw [this]
    rfl

theorem findCentralTypes_ok (tps : List (ℕ × ℕ)) (h : tps ≠ []) :
    ∃ l : List ℕ, findCentralTypes tps = .ok (l.map fun c => (c, tps.map (partner c))) ∧ l.Nodup ∧ l.toFinset = centers tps := by
  cases tps with
  | nil => exact absurd rfl h
  | cons p ps =>
    refine ⟨_, rfl, (List.nodup_dedup _).filter _, ?_⟩
    ext t
    simp only [List.mem_toFinset, List.mem_filter, List.mem_dedup, List.all_eq_true, decide_eq_true_eq, centers, Finset.mem_filter,
      List.mem_flatMap, List.mem_cons, List.not_mem_nil, or_false]
    constructor
    · rintro ⟨h1, h2⟩
      refine ⟨⟨p, Or.inl rfl, h1⟩, ?_⟩
      rintro q (rfl | hq)
      · exact h1
      · exact h2 q hq
    · rintro ⟨-, h2⟩
      exact ⟨h2 p (Or.inl rfl), fun q hq => h2 q (Or.inr hq)⟩

/-- **C133 (linear features).**  The coefficient of a linear feature in the disordered model is the mean over the possible
types of central atoms of the mean, over independent occupations of the central site and all neighbouring sites, of the
original coefficient of the feature with those types. -/
theorem C133_feature (mapF : Feat → Option ℝ) (n : ℕ) (occT : ℕ → List (ℕ × ℝ)) (f : Feat)
    (w : Multiset (ℕ × Sym2 ℕ) → ℝ) (hw : Maps mapF n f.rad f.lc w) (hn : ∀ p ∈ f.tp, ∀ x ∈ occT p.1 ++ occT p.2, x.1 < n)
    (hs : f.lc.Pairwise (· ≤ ·)) (hl : f.lc.length = f.tp.length) (h0 : (centers f.tp).Nonempty) :
    featureCoeff mapF occT f = .ok ((∑ c ∈ centers f.tp, expect ((c :: f.tp.map (partner c)).map occT) fun ts =>
      w (content f.lc (ts.headD 0) ts.tail)) / (centers f.tp).card) := by
  have hne : f.tp ≠ [] := by
    rintro h
    rw [h] at h0
    simp [centers] at h0
  obtain ⟨l, e, hnd, hc⟩ := findCentralTypes_ok f.tp hne
  have hcs : ∀ c ∈ l, centralSum (occTerm mapF f.rad f.lc) occT (c, f.tp.map (partner c)) =
      .ok (expect ((c :: f.tp.map (partner c)).map occT) fun ts => w (content f.lc (ts.headD 0) ts.tail)) := by
    intro c hcl
    unfold centralSum
    dsimp only
    have hsite : ∀ d ∈ (c :: f.tp.map (partner c)).map occT, ∀ x ∈ d, x.1 < n := by
      intro d hd x hx
      obtain ⟨t, ht, rfl⟩ := List.mem_map.1 hd
      rcases List.mem_cons.1 ht with rfl | ht
      · have hct : t ∈ centers f.tp := by rw [← hc]; exact List.mem_toFinset.2 hcl
        simp only [centers, Finset.mem_filter] at hct
        obtain ⟨p, hp⟩ := List.exists_mem_of_ne_nil _ hne
        rcases hct.2 p hp with h | h <;> rw [h] at hx <;> exact hn p hp x (by simp [hx])
      · obtain ⟨p, hp, rfl⟩ := List.mem_map.1 ht
        unfold partner at hx
        split at hx <;> exact hn p hp x (by simp [hx])
    rw [mapM_except_ok _ _ _ fun o ho => occTerm_ok mapF n f.rad f.lc w hw hs o (by rw [product_length _ o ho]; simp [hl])
      (product_mem (fun x => x.1 < n) _ hsite o ho), ← product_expect]
    rfl
  unfold featureCoeff centralMean
  rw [e]
  show (do
    let vs ← (l.map fun c => (c, f.tp.map (partner c))).mapM (centralSum (occTerm mapF f.rad f.lc) occT)
    if (l.map fun c => (c, f.tp.map (partner c))).length = 0 then (.error .zeroDivision : Except Err ℝ)
    else .ok (vs.sum / ((l.map fun c => (c, f.tp.map (partner c))).length : ℝ))) = _
  have hm : (l.map fun c => (c, f.tp.map (partner c))).mapM (centralSum (occTerm mapF f.rad f.lc) occT) =
      .ok (l.map fun c => expect ((c :: f.tp.map (partner c)).map occT) fun ts => w (content f.lc (ts.headD 0) ts.tail)) := by
    rw [List.mapM_map]
    exact mapM_except_ok _ _ _ hcs
  rw [hm]
  have hcard : l.length = (centers f.tp).card := by rw [← hc, List.toFinset_card_of_nodup hnd]
  show (if _ then _ else _) = _
  rw [List.length_map, if_neg (by rw [hcard]; exact h0.card_pos.ne'), hcard, ← hc, List.sum_toFinset _ hnd]

theorem expect_bounds (ds : List (List (ℕ × ℝ))) (hd : ∀ d ∈ ds, (∀ x ∈ d, 0 ≤ x.2) ∧ (d.map (·.2)).sum = 1) (f : List ℕ → ℝ)
    (lo hi : ℝ) (hf : ∀ ts, lo ≤ f ts ∧ f ts ≤ hi) : lo ≤ expect ds f ∧ expect ds f ≤ hi := by
  induction ds generalizing f with
  | nil => exact hf []
  | cons d ds ih =>
    have hx : ∀ x : ℕ × ℝ, lo ≤ expect ds (fun ts => f (x.1 :: ts)) ∧ expect ds (fun ts => f (x.1 :: ts)) ≤ hi :=
      fun x => ih (fun e he => hd e (List.mem_cons_of_mem _ he)) _ fun ts => hf _
    obtain ⟨h0, h1⟩ := hd d (by simp)
    have e : ∀ c : ℝ, (d.map fun x => x.2 * c).sum = c := fun c => by rw [List.sum_map_mul_right, h1, one_mul]
    constructor
    · rw [← e lo]
      exact List.sum_le_sum fun x hxd => mul_le_mul_of_nonneg_left (hx x).1 (h0 x hxd)
    · conv_rhs => rw [← e hi]
      exact List.sum_le_sum fun x hxd => mul_le_mul_of_nonneg_left (hx x).2 (h0 x hxd)

/-- **C133 (bounds).**  For occupancies that are probabilities the coefficient lies between bounds of the original ones; so
a coefficient that does not depend on types is kept. -/
theorem C133_bounds (mapF : Feat → Option ℝ) (n : ℕ) (occT : ℕ → List (ℕ × ℝ)) (f : Feat)
    (w : Multiset (ℕ × Sym2 ℕ) → ℝ) (hw : Maps mapF n f.rad f.lc w) (hn : ∀ p ∈ f.tp, ∀ x ∈ occT p.1 ++ occT p.2, x.1 < n)
    (ho : ∀ t, (∀ x ∈ occT t, 0 ≤ x.2) ∧ ((occT t).map (·.2)).sum = 1)
    (hs : f.lc.Pairwise (· ≤ ·)) (hl : f.lc.length = f.tp.length) (h0 : (centers f.tp).Nonempty) (lo hi : ℝ)
    (hb : ∀ m, lo ≤ w m ∧ w m ≤ hi) :
    ∃ v, featureCoeff mapF occT f = .ok v ∧ lo ≤ v ∧ v ≤ hi := by
  refine ⟨_, C133_feature mapF n occT f w hw hn hs hl h0, ?_⟩
  have hpos : (0 : ℝ) < (centers f.tp).card := by exact_mod_cast h0.card_pos
  have hc : ∀ c ∈ centers f.tp, _ := fun c _ => expect_bounds ((c :: f.tp.map (partner c)).map occT)
    (fun d hd => by obtain ⟨t, -, rfl⟩ := List.mem_map.1 hd; exact ho t)
    (fun ts => w (content f.lc (ts.headD 0) ts.tail)) lo hi fun ts => hb _
  constructor
  · rw [le_div_iff₀ hpos]
    have := Finset.card_nsmul_le_sum _ _ lo fun c hcc => (hc c hcc).1
    rw [nsmul_eq_mul] at this
    linarith
  · rw [div_le_iff₀ hpos]
    have := Finset.sum_le_card_nsmul _ _ hi fun c hcc => (hc c hcc).2
    rw [nsmul_eq_mul] at this
    linarith

theorem expect_pure (l : List ℕ) (f : List ℕ → ℝ) : expect (l.map fun t => [(t, (1 : ℝ))]) f = f l := by
  induction l generalizing f with
  | nil => rfl
  | cons t l ih => simp [expect, ih]

theorem partner_sym (c : ℕ) (p : ℕ × ℕ) (h : c = p.1 ∨ c = p.2) : s(c, partner c p) = s(p.1, p.2) := by
  unfold partner
  split
  · rename_i e; rw [e]
  · rename_i e
    rcases h with h | h
    · exact absurd h.symm e
    · rw [h]; exact Sym2.eq_swap

/-- **C133 (no disorder).**  When every site has its own type only, a linear feature keeps its coefficient. -/
theorem C133_ordered (mapF : Feat → Option ℝ) (n : ℕ) (f : Feat)
    (w : Multiset (ℕ × Sym2 ℕ) → ℝ) (hw : Maps mapF n f.rad f.lc w) (hn : ∀ p ∈ f.tp, p.1 ≤ p.2 ∧ p.2 < n)
    (hs : f.lc.Pairwise (· ≤ ·)) (hl : f.lc.length = f.tp.length) (h0 : (centers f.tp).Nonempty)
    (hk : (f.lc.zip f.tp).Pairwise entryLe) :
    ∃ v, featureCoeff mapF (fun t => [(t, 1)]) f = .ok v ∧ mapF f = some v := by
  have hn' : ∀ p ∈ f.tp, ∀ x ∈ [(p.1, (1 : ℝ))] ++ [(p.2, 1)], x.1 < n := by
    intro p hp x hx
    have := hn p hp
    simp only [List.cons_append, List.nil_append, List.mem_cons, List.not_mem_nil, or_false] at hx
    rcases hx with rfl | rfl <;> dsimp only <;> omega
  refine ⟨_, C133_feature mapF n (fun t => [(t, 1)]) f w hw hn' hs hl h0, ?_⟩
  have hcen : ∃ c, ∀ p ∈ f.tp, (c = p.1 ∨ c = p.2) ∧ p.1 ≤ p.2 ∧ p.2 < n := by
    obtain ⟨c, hc⟩ := h0
    simp only [centers, Finset.mem_filter] at hc
    exact ⟨c, fun p hp => ⟨hc.2 p hp, hn p hp⟩⟩
  rw [show f = ⟨f.rad, f.lc, f.tp⟩ from rfl, hw f.tp hl hk hcen]
  congr 1
  have hc : ∀ c ∈ centers f.tp, (expect ((c :: f.tp.map (partner c)).map fun t => [(t, (1 : ℝ))]) fun ts =>
      w (content f.lc (ts.headD 0) ts.tail)) =
      w ↑((f.lc.zip f.tp).map fun x => (x.1, s(x.2.1, x.2.2))) := by
    intro c hcc
    rw [expect_pure]
    show w (content f.lc c (f.tp.map (partner c))) = _
    unfold content
    rw [List.map_map, show (fun x : ℕ × ℕ × ℕ => (x.1, s(x.2.1, x.2.2))) = Prod.map id (fun y : ℕ × ℕ => s(y.1, y.2)) from rfl,
      ← List.zip_map_right]
    congr 3
    refine List.map_congr_left fun p hp => partner_sym c p ?_
    simp only [centers, Finset.mem_filter] at hcc
    exact hcc.2 p hp
  have hpos : ((centers f.tp).card : ℝ) ≠ 0 := by exact_mod_cast h0.card_pos.ne'
  rw [Finset.sum_congr rfl hc, Finset.sum_const, nsmul_eq_mul]
  field_simp

theorem getD_eq (l : List Feat) (d : Feat) {i : ℕ} (h : i < l.length) : l.getD i d = l[i] := by
  simp [h]

theorem mapKeys_ok {K : Type} [DecidableEq K] (coeffs : List ℝ) (ks : List K) (hn : ks.Nodup) (seq : ℕ) (m : K → Option ℝ)
    (hl : seq + ks.length ≤ coeffs.length) :
    ∃ m', mapKeys coeffs seq m ks = .ok m' ∧ (∀ (i : ℕ) (h : i < ks.length), m' ks[i] = coeffs[seq + i]?) ∧
      ∀ k, k ∉ ks → m' k = m k := by
  induction ks generalizing seq m with
  | nil => exact ⟨m, rfl, fun i h => by simp at h, fun _ _ => rfl⟩
  | cons k ks ih =>
    rw [List.length_cons] at hl
    obtain ⟨hk, hn⟩ := List.nodup_cons.1 hn
    obtain ⟨m', e, h1, h2⟩ := ih hn (seq + 1) (fun k' => if k' = k then some (coeffs[seq]'(by omega)) else m k') (by omega)
    refine ⟨m', ?_, ?_, ?_⟩
    · unfold mapKeys
      rw [List.getElem?_eq_getElem (show seq < coeffs.length by omega)]
      exact e
    · intro i h
      cases i with
      | zero =>
        simp only [List.getElem_cons_zero, add_zero]
        rw [h2 k hk, if_pos rfl, List.getElem?_eq_getElem]
      | succ i =>
        rw [List.getElem_cons_succ, h1 i (by simpa using h)]
        congr 1
        omega
    · intro k' hk'
      rw [List.mem_cons, not_or] at hk'
      rw [h2 k' hk'.2, if_neg hk'.1]

/-- **C133 (mapping).**  The mapping of the original potential has the coefficient of every feature at its key and after
those the coefficient of every polynomial at the keys of its features, and nothing else. -/
theorem C133_mapping (feats : List Feat) (polys : List (List ℕ)) (coeffs : List ℝ) (keys : List (List Feat))
    (hk : keys.length = polys.length) (hkeys : ∀ (j : ℕ) (h : j < polys.length), ∃ h' : ∀ i ∈ polys[j], i < feats.length,
      keys[j] = polys[j].attach.map fun i => feats[i.1]'(h' i.1 i.2))
    (hf : feats.Nodup) (hp : keys.Nodup) (hl : feats.length + polys.length ≤ coeffs.length) :
    ∃ mf mp, setMapping feats polys coeffs = .ok (mf, mp) ∧ (∀ (i : ℕ) (h : i < feats.length), mf feats[i] = coeffs[i]?) ∧
      (∀ k, k ∉ feats → mf k = none) ∧ (∀ (j : ℕ) (h : j < keys.length), mp keys[j] = coeffs[feats.length + j]?) ∧
      ∀ k, k ∉ keys → mp k = none := by
  obtain ⟨mf, e1, f1, f2⟩ := mapKeys_ok coeffs feats hf 0 (fun _ => none) (by omega)
  obtain ⟨mp, e2, g1, g2⟩ := mapKeys_ok coeffs keys hp feats.length (fun _ => none) (by omega)
  refine ⟨mf, mp, ?_, fun i h => by simpa using f1 i h, f2, g1, g2⟩
  have hatt : ∀ attr : List ℕ, (∀ i ∈ attr, i < feats.length) →
      (attr.mapM fun (i : ℕ) => orErr Err.indexError feats[i]?) = .ok (attr.map fun i => feats.getD i ⟨0, [], []⟩) := by
    intro attr ha
    refine mapM_except_ok _ _ _ fun i hi => ?_
    rw [List.getElem?_eq_getElem (ha i hi), getD_eq _ _ (ha i hi)]
    rfl
  have hall : ∀ attr ∈ polys, ∀ i ∈ attr, i < feats.length := by
    intro attr ha
    obtain ⟨j, hj, rfl⟩ := List.getElem_of_mem ha
    exact (hkeys j hj).1
  have e3 : (polys.mapM fun attr => attr.mapM fun (i : ℕ) => orErr Err.indexError feats[i]?) = .ok keys := by
    rw [mapM_except_ok _ _ _ fun attr ha => hatt attr (hall attr ha)]
    congr 1
    refine List.ext_getElem (by simp [hk]) fun j h1 h2 => ?_
    rw [List.getElem_map]
    rw [List.length_map] at h1
    obtain ⟨h', e⟩ := hkeys j h1
    rw [e]
    conv_lhs => rw [← List.attach_map_subtype_val polys[j], List.map_map]
    refine List.map_congr_left fun i _ => ?_
    exact getD_eq _ _ (h' i.1 i.2)
  unfold setMapping
  rw [e1]
  show (do
    let keys ← polys.mapM fun (attr : List ℕ) => attr.mapM fun (i : ℕ) => orErr Err.indexError feats[i]?
    let mp ← mapKeys coeffs feats.length (fun _ => none) keys
    return (mf, mp)) = _
  rw [e3]
  show (do
    let mp ← mapKeys coeffs feats.length (fun _ => none) keys
    return (mf, mp)) = _
  rw [e2]
  rfl

/-- **C133 (violation).**  The coefficient of a polynomial of features is taken for other pairs of types, with the central
atom as its own first neighbour: without any disorder the coefficient of a product of two features of unlike atoms is
replaced by that of a product with a feature of like atoms. -/
theorem C133_polynomial_violation : ∃ (mapP : List Feat → Option ℝ) (f : Feat),
    f.tp = [(0, 1)] ∧ mapP [f, f] = some 1 ∧ polyCoeff mapP (fun t => [(t, 1)]) [f, f] = .ok 5 := by
  refine ⟨fun m => if m = [⟨0, [0], [(0, 1)]⟩, ⟨0, [0], [(0, 1)]⟩] then some 1 else some 5, ⟨0, [0], [(0, 1)]⟩, rfl, by simp, ?_⟩
  have e1 : (polyKeys [⟨0, [0], [(0, 1)]⟩, ⟨0, [0], [(0, 1)]⟩] [sortedPair 0 0, sortedPair 0 1, sortedPair 0 1]).insertionSort
      (fun a b => featLe a b) ≠ [⟨0, [0], [(0, 1)]⟩, ⟨0, [0], [(0, 1)]⟩] := by decide
  have e2 : (polyKeys [⟨0, [0], [(0, 1)]⟩, ⟨0, [0], [(0, 1)]⟩] [sortedPair 1 1, sortedPair 1 0, sortedPair 1 0]).insertionSort
      (fun a b => featLe a b) ≠ [⟨0, [0], [(0, 1)]⟩, ⟨0, [0], [(0, 1)]⟩] := by decide
  have t1 : findCentralTypes [(0, 1), (0, 1)] = .ok [(0, [1, 1]), (1, [0, 0])] := by decide
  unfold polyCoeff centralMean
  simp only [List.flatMap_cons, List.flatMap_nil, List.append_nil, List.cons_append, List.nil_append, t1]
  simp [bind, Except.bind, List.mapM_cons, centralSum, product, polyTerm, e1, e2, orErr, pure, Except.pure]

/-- **C133 (violation).**  Keys of polynomials are looked up in another order than they were stored in: with a single type,
the product of the features with angular momenta `(1, 1)` and `(0, 0, 0)`, whose numbers are in this order, is not found. -/
theorem C133_key_order_violation : ∃ (f g : Feat) (mf : Feat → Option ℝ) (mp : List Feat → Option ℝ),
    f.lc = [1, 1] ∧ g.lc = [0, 0, 0] ∧ setMapping [f, g] [[0, 1]] [1, 2, 3] = .ok (mf, mp) ∧ mp [f, g] = some 3 ∧
    polyCoeff mp (fun t => [(t, 1)]) [f, g] = .error .keyError := by
  let f : Feat := ⟨0, [1, 1], [(0, 0), (0, 0)]⟩
  let g : Feat := ⟨0, [0, 0, 0], [(0, 0), (0, 0), (0, 0)]⟩
  refine ⟨f, g, fun k => if k = g then some 2 else if k = f then some 1 else none, fun k => if k = [f, g] then some 3 else none,
    rfl, rfl, rfl, if_pos rfl, ?_⟩
  have e1 : (polyKeys [f, g] [sortedPair 0 0, sortedPair 0 0, sortedPair 0 0, sortedPair 0 0, sortedPair 0 0, sortedPair 0 0]).insertionSort
      (fun a b => featLe a b) ≠ [f, g] := by decide
  have t1 : findCentralTypes [(0, 0), (0, 0), (0, 0), (0, 0), (0, 0)] = .ok [(0, [0, 0, 0, 0, 0])] := by decide
  unfold polyCoeff centralMean
  simp only [f, g, List.flatMap_cons, List.flatMap_nil, List.append_nil, List.cons_append, List.nil_append, t1]
  simp only [bind, Except.bind, List.mapM_cons, centralSum, product, List.map_cons, List.map_nil, List.flatMap_cons, List.flatMap_nil,
    List.append_nil, polyTerm]
  simp only [f, g] at e1
  rw [if_neg e1]
  rfl

/-- The hypotheses hold for the finite mapping of a potential with two types and one feature of order one per pair, and a
site with a mixture. -/
example : ∃ (mf : Feat → Option ℝ) (mp : List Feat → Option ℝ) (w : Multiset (ℕ × Sym2 ℕ) → ℝ) (occT : ℕ → List (ℕ × ℝ)) (f : Feat),
    setMapping [⟨0, [0], [(0, 0)]⟩, ⟨0, [0], [(0, 1)]⟩, ⟨0, [0], [(1, 1)]⟩] [] [1, 2, 3] = .ok (mf, mp) ∧
    Maps mf 2 f.rad f.lc w ∧ (∀ p ∈ f.tp, ∀ x ∈ occT p.1 ++ occT p.2, x.1 < 2) ∧
    (∀ t, (∀ x ∈ occT t, 0 ≤ x.2) ∧ ((occT t).map (·.2)).sum = 1) ∧ (occT 0).length = 2 ∧
    f.lc.Pairwise (· ≤ ·) ∧ f.lc.length = f.tp.length ∧ (centers f.tp).Nonempty ∧ (f.lc.zip f.tp).Pairwise entryLe := by
  obtain ⟨mf, mp, e, h1, -⟩ := C133_mapping [⟨0, [0], [(0, 0)]⟩, ⟨0, [0], [(0, 1)]⟩, ⟨0, [0], [(1, 1)]⟩] [] [1, 2, 3] [] rfl
    (fun j h => by simp at h) (by decide) (by decide) (by decide)
  refine ⟨mf, mp, fun m => if m = {(0, s(0, 0))} then 1 else if m = {(0, s(0, 1))} then 2 else 3,
    fun t => if t = 0 then [(0, 1 / 4), (1, 3 / 4)] else [(t, 1)], ⟨0, [0], [(0, 0)]⟩, e, ?_, ?_, ?_, rfl, by decide, rfl,
    ⟨0, by decide⟩, by decide⟩
  · intro tps hl _ hc
    obtain ⟨⟨a, b⟩, rfl⟩ : ∃ p, tps = [p] := List.length_eq_one_iff.1 hl.symm
    obtain ⟨c, hc⟩ := hc
    obtain ⟨-, h3, h4⟩ := hc (a, b) (by simp)
    dsimp only at h3 h4
    have g0 := h1 0 (by decide)
    have g1 := h1 1 (by decide)
    have g2 := h1 2 (by decide)
    have hcases : (a = 0 ∧ b = 0) ∨ (a = 0 ∧ b = 1) ∨ (a = 1 ∧ b = 1) := by omega
    rcases hcases with ⟨rfl, rfl⟩ | ⟨rfl, rfl⟩ | ⟨rfl, rfl⟩
    · simpa using g0
    · simpa using g1
    · simpa using g2
  · intro p hp x hx
    simp only [List.mem_singleton] at hp
    subst hp
    simp at hx
    rcases hx with rfl | rfl | rfl | rfl <;> simp
  · intro t
    by_cases ht : t = 0
    · subst ht
      simp only [if_true]
      constructor
      · intro x hx
        simp only [List.mem_cons, List.not_mem_nil, or_false] at hx
        rcases hx with rfl | rfl <;> norm_num
      · norm_num
    · simp [ht]

end Verif.DisAn
