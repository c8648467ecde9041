import Verif.Lemmas.FeatAttr
import Verif.Lemmas.MlpGtFeat
import Verif.Lemmas.MlpPoly

namespace Verif.FeatAttr
open Verif Verif.Mlp

section Lists
variable (n : ℕ) (cond : ℕ → ℕ → List ℕ)

theorem checkType_iff (tps : List ℕ) {t : ℕ} (ht : t < n) :
    checkType n (setTypePairs n cond).typePairs tps t = true ↔
      Spec.CarriedBy n (pairDict n (setTypePairs n cond).typePairs) tps t := by
  unfold checkType Spec.CarriedBy
  simp only [List.all_eq_true, List.any_eq_true, List.mem_range, beq_iff_eq]
  refine forall₂_congr fun tp _ => exists_congr fun u => and_congr_right fun hu => ?_
  rw [belongs_iff]
  exact ⟨fun h => ⟨ht, hu, h⟩, fun h => h.2.2⟩

theorem mem_tpCombs (r : ℕ) (c : List ℕ) : c ∈ tpCombs n (setTypePairs n cond) r ↔
    c.length = r ∧ ∃ t < n, Spec.CarriedBy n (pairDict n (setTypePairs n cond).typePairs) c t := by
  unfold tpCombs
  rw [List.mem_filter, mem_permNr, List.any_eq_true]
  simp only [List.mem_range]
  constructor
  · rintro ⟨⟨h1, -⟩, t, ht, h⟩
    exact ⟨h1, t, ht, (checkType_iff n cond c ht).1 h⟩
  · rintro ⟨h1, t, ht, h⟩
    refine ⟨⟨h1, fun x hx => ?_⟩, t, ht, (checkType_iff n cond c ht).2 h⟩
    obtain ⟨u, hu, hb⟩ := h x hx
    obtain ⟨-, -, rfl⟩ := (belongs_iff n cond t u x).1 hb
    rw [tpTypes_eq]
    exact (List.getElem?_eq_some_iff.1 (allPairs_typePairs n cond ht hu)).1

theorem active_iff (f tp : ℕ) : Spec.Active (pairDict n (setTypePairs n cond).typePairs) cond f tp ↔
    f ∈ (setTypePairs n cond).tpN.getD tp [] := by
  rw [tpN_eq, List.getD_eq_getElem?_getD, List.getElem?_map]
  unfold Spec.Active
  simp only [belongs_iff]
  constructor
  · rintro ⟨i, j, hij, ⟨hi, hj, rfl⟩, hf⟩
    rw [allPairs_typePairs n cond hi hj, min_eq_left hij, max_eq_right hij]
    exact hf
  · intro h
    cases hk : (allPairs n)[tp]? with
    | none => rw [hk] at h; simp at h
    | some e =>
      rw [hk] at h
      have hm := (mem_allPairs n e.1 e.2).1 (List.mem_of_getElem? hk)
      exact ⟨e.1, e.2, hm.1, ⟨by omega, hm.2, tpOf_get n cond hk⟩, h⟩

theorem sort_strict {l : List ℕ} (h : l.Nodup) : (l.insertionSort (· ≤ ·)).Pairwise (· < ·) := by
  have h1 : (l.insertionSort (· ≤ ·)).Pairwise (· ≤ ·) := List.pairwise_insertionSort _ _
  have h2 : (l.insertionSort (· ≤ ·)).Nodup := (List.perm_insertionSort _ _).nodup_iff.2 h
  exact h1.imp₂ (fun a b hab hne => lt_of_le_of_ne hab hne) h2

theorem nonzeroN_iff (m : TpMaps) (hm : ∀ tp, (m.tpN.getD tp []).Nodup) (tps : List ℕ) (hne : tps ≠ []) :
    (nonzeroN m tps).Nodup ∧ ∀ f, f ∈ nonzeroN m tps ↔ ∀ tp ∈ tps, f ∈ m.tpN.getD tp [] := by
  cases tps with
  | nil => exact absurd rfl hne
  | cons tp0 tps =>
    unfold nonzeroN
    have key : ∀ (l v : List ℕ), v.Nodup →
        (l.foldl (fun v tp => setInter (v.insertionSort (· ≤ ·))
          ((m.tpN.getD tp []).insertionSort (· ≤ ·))) v).Nodup ∧
        ∀ f, f ∈ l.foldl (fun v tp => setInter (v.insertionSort (· ≤ ·))
          ((m.tpN.getD tp []).insertionSort (· ≤ ·))) v ↔ f ∈ v ∧ ∀ tp ∈ l, f ∈ m.tpN.getD tp [] := by
      intro l
      induction l with
      | nil => intro v hv; exact ⟨hv, by simp⟩
      | cons tp l ih =>
        intro v hv
        obtain ⟨h1, h2⟩ := setInter_mem _ _ (sort_strict hv) (sort_strict (hm tp))
        obtain ⟨h3, h4⟩ := ih _ (List.Pairwise.imp (fun h => ne_of_lt h) h2)
        refine ⟨h3, fun f => ?_⟩
        rw [List.foldl_cons, h4 f, h1 f, List.mem_insertionSort, List.mem_insertionSort]
        simp only [List.mem_cons, forall_eq_or_imp, and_assoc]
    obtain ⟨h1, h2⟩ := key tps _ (hm tp0)
    refine ⟨h1, fun f => ?_⟩
    rw [h2 f]
    simp

/-! ## Multisets of pairs -/

instance : Std.Total (fun a b : ℕ × ℕ => pairLe a b = true) :=
  ⟨fun a b => by simp only [pairLe, Bool.or_eq_true, Bool.and_eq_true, decide_eq_true_eq]; omega⟩
instance : IsTrans (ℕ × ℕ) (fun a b : ℕ × ℕ => pairLe a b = true) :=
  ⟨fun a b c => by simp only [pairLe, Bool.or_eq_true, Bool.and_eq_true, decide_eq_true_eq]; omega⟩
instance : Std.Antisymm (fun a b : ℕ × ℕ => pairLe a b = true) :=
  ⟨fun a b => by
    simp only [pairLe, Bool.or_eq_true, Bool.and_eq_true, decide_eq_true_eq, Prod.ext_iff]; omega⟩

/-- The sorted pairs of factors and pair numbers. -/
def sorted (l c : List ℕ) : List (ℕ × ℕ) := (l.zip c).insertionSort fun a b => pairLe a b

theorem sorted_perm (l c : List ℕ) : (sorted l c).Perm (l.zip c) := List.perm_insertionSort _ _

theorem sorted_pairwise (l c : List ℕ) : (sorted l c).Pairwise fun a b => pairLe a b = true :=
  List.pairwise_insertionSort _ _

theorem sorted_fst {l c : List ℕ} (hl : l.Pairwise (· ≤ ·)) (hc : c.length = l.length) :
    (sorted l c).map (·.1) = l := by
  refine List.Perm.eq_of_pairwise' (r := fun a b : ℕ => a ≤ b) ?_ hl ?_
  · rw [List.pairwise_map]
    refine (sorted_pairwise l c).imp ?_
    intro a b h
    simp only [pairLe, Bool.or_eq_true, Bool.and_eq_true, decide_eq_true_eq] at h
    omega
  · refine ((sorted_perm l c).map (·.1)).trans ?_
    rw [show (fun e : ℕ × ℕ => e.1) = Prod.fst from rfl, List.map_fst_zip (by omega)]

theorem sorted_zip {l c : List ℕ} (hl : l.Pairwise (· ≤ ·)) (hc : c.length = l.length) :
    l.zip ((sorted l c).map (·.2)) = sorted l c := by
  exact (List.zip_of_prod (sorted_fst hl hc) rfl).symm

theorem sorted_snd_perm {l c : List ℕ} (hc : c.length = l.length) :
    ((sorted l c).map (·.2)).Perm c := by
  refine ((sorted_perm l c).map (·.2)).trans ?_
  rw [show (fun e : ℕ × ℕ => e.2) = Prod.snd from rfl, List.map_snd_zip (by omega)]

theorem mem_uniqLt (l : List ℕ) (combs : List (List ℕ)) (lt : List (ℕ × ℕ)) :
    lt ∈ uniqLt l combs ↔ ∃ c ∈ combs, sorted l c = lt := by
  unfold uniqLt
  rw [List.mem_insertionSort, List.mem_dedup, List.mem_map]
  rfl

theorem nodup_uniqLt (l : List ℕ) (combs : List (List ℕ)) : (uniqLt l combs).Nodup := by
  unfold uniqLt
  exact (List.perm_insertionSort _ _).nodup_iff.2 (List.nodup_dedup _)

/-! ## The list -/

/-- The description of the terms of one entry of the table. -/
def entryAttrs (id : ℕ) (l : List ℕ) : List (ℕ × ℕ × List ℕ) :=
  (uniqLt l (tpCombs n (setTypePairs n cond) l.length)).flatMap fun lt =>
    (nonzeroN (setTypePairs n cond) (lt.map (·.2))).map fun f => (f, id, lt.map (·.2))

/-- The description of one term. -/
def attrOf (lin : LinearTerm) : ℕ × ℕ × List ℕ :=
  (lin.n, lin.lmId, (tpCombs n (setTypePairs n cond) lin.order).getD lin.tpId [])

theorem uniq_mem {l : List ℕ} {lt : List (ℕ × ℕ)}
    (h : lt ∈ uniqLt l (tpCombs n (setTypePairs n cond) l.length)) :
    ∃ c ∈ tpCombs n (setTypePairs n cond) l.length, c.length = l.length ∧ sorted l c = lt ∧
      lt.map (·.2) ∈ tpCombs n (setTypePairs n cond) l.length := by
  obtain ⟨c, hc, rfl⟩ := (mem_uniqLt _ _ _).1 h
  have hlen := ((mem_tpCombs n cond _ _).1 hc).1
  exact ⟨c, hc, hlen, rfl, tpCombs_perm _ _ _ (sorted_snd_perm hlen).symm hc⟩

theorem attr_linearOf (id : ℕ) (l : List ℕ) :
    (linearOf n (setTypePairs n cond) id l).map (attrOf n cond) = entryAttrs n cond id l := by
  unfold linearOf entryAttrs
  simp only
  rw [List.map_flatMap]
  refine List.flatMap_congr fun lt hlt => ?_
  obtain ⟨-, -, -, -, hm⟩ := uniq_mem n cond hlt
  have hidx : (tpCombs n (setTypePairs n cond) l.length)[(tpCombs n (setTypePairs n cond)
      l.length).idxOf (lt.map (·.2))]? = some (lt.map (·.2)) := by
    rw [List.getElem?_eq_getElem (List.idxOf_lt_length_of_mem hm)]
    simp
  rw [List.getD_eq_getElem?_getD, List.getElem?_map, hidx, Option.map_some, Option.getD_some,
    List.map_map]
  refine List.map_congr_left fun f _ => ?_
  simp only [Function.comp, attrOf, List.getD_eq_getElem?_getD, hidx, Option.getD_some]

theorem push_fold (big : List LinearTerm) (k : ℕ) : ∀ v : ℕ → List LinearTerm,
    (big.foldl (fun v x => push v x.n x) v) k = v k ++ big.filter fun x => x.n = k := by
  induction big with
  | nil => intro v; simp
  | cons x big ih =>
    intro v
    rw [List.foldl_cons, ih, push_apply, List.append_assoc]
    congr 1
    by_cases h : k = x.n
    · rw [if_pos h, List.filter_cons_of_pos (by simp [h])]; rfl
    · rw [if_neg h, List.filter_cons_of_neg (by simpa using Ne.symm h)]; rfl

theorem attrs_eq (nFn : ℕ) (lComb : List (List ℕ)) :
    (linearTerms n nFn (setTypePairs n cond) lComb).map (attrOf n cond) =
      (List.range nFn).flatMap fun k =>
        (lComb.zipIdx.flatMap fun e => entryAttrs n cond e.2 e.1).filter fun x => x.1 = k := by
  unfold linearTerms
  simp only
  rw [List.map_flatMap]
  refine List.flatMap_congr fun k _ => ?_
  rw [push_fold, List.nil_append]
  have : (lComb.zipIdx.flatMap fun e => entryAttrs n cond e.2 e.1) =
      (lComb.zipIdx.flatMap fun e => linearOf n (setTypePairs n cond) e.2 e.1).map (attrOf n cond) := by
    rw [List.map_flatMap]
    exact List.flatMap_congr fun e _ => (attr_linearOf n cond e.2 e.1).symm
  rw [this, List.filter_map]
  rfl

theorem mem_entry {id : ℕ} {l : List ℕ} {x : ℕ × ℕ × List ℕ} : x ∈ entryAttrs n cond id l ↔
    x.2.1 = id ∧ ∃ lt ∈ uniqLt l (tpCombs n (setTypePairs n cond) l.length),
      lt.map (·.2) = x.2.2 ∧ x.1 ∈ nonzeroN (setTypePairs n cond) x.2.2 := by
  obtain ⟨f, i, tps⟩ := x
  unfold entryAttrs
  simp only [List.mem_flatMap, List.mem_map, Prod.mk.injEq]
  constructor
  · rintro ⟨lt, hlt, g, hg, rfl, rfl, rfl⟩
    exact ⟨rfl, lt, hlt, rfl, hg⟩
  · rintro ⟨rfl, lt, hlt, rfl, hg⟩
    exact ⟨lt, hlt, f, hg, rfl, rfl, rfl⟩

variable (hcond : ∀ i j, (cond i j).Nodup)
include hcond

theorem tpN_nodup' (tp : ℕ) : ((setTypePairs n cond).tpN.getD tp []).Nodup := by
  rw [tpN_eq, List.getD_eq_getElem?_getD, List.getElem?_map]
  cases h : (allPairs n)[tp]? with
  | none => simp
  | some e => exact hcond e.1 e.2

theorem nodup_entry (id : ℕ) {l : List ℕ} (hl : l.Pairwise (· ≤ ·)) (hne : l ≠ []) :
    (entryAttrs n cond id l).Nodup := by
  unfold entryAttrs
  rw [List.nodup_flatMap]
  refine ⟨fun lt hlt => ?_, ?_⟩
  · obtain ⟨c, hc, hlen, rfl, hm⟩ := uniq_mem n cond hlt
    have hm' : (sorted l c).map (·.2) ≠ [] := by
      intro h
      have := (sorted_snd_perm hlen).length_eq
      rw [h, hlen] at this
      exact hne (List.length_eq_zero_iff.1 this.symm)
    refine List.Nodup.map ?_ (nonzeroN_iff _ (tpN_nodup' n cond hcond) _ hm').1
    intro a b h
    exact (Prod.mk.injEq .. ▸ h).1
  · refine List.Pairwise.imp_of_mem ?_ (nodup_uniqLt l (tpCombs n (setTypePairs n cond) l.length))
    intro a b ha hb hab
    rw [Function.onFun, List.disjoint_left]
    intro x hx hx'
    rw [List.mem_map] at hx hx'
    obtain ⟨f, -, rfl⟩ := hx
    obtain ⟨f', -, h⟩ := hx'
    simp only [Prod.mk.injEq] at h
    obtain ⟨c, hc, hlen, rfl, -⟩ := uniq_mem n cond ha
    obtain ⟨c', hc', hlen', rfl, -⟩ := uniq_mem n cond hb
    refine hab ?_
    rw [← sorted_zip hl hlen, ← sorted_zip hl hlen', h.2.2]

/-- The list of invariants of the model. -/
theorem lists (nFn : ℕ) (lComb : List (List ℕ)) (hl : ∀ l ∈ lComb, l ≠ [] ∧ l.Pairwise (· ≤ ·)) :
    Spec.ListsInvariants n nFn lComb (pairDict n (setTypePairs n cond).typePairs) cond
      ((linearTerms n nFn (setTypePairs n cond) lComb).map (attrOf n cond)) := by
  have hmem : ∀ x, x ∈ (linearTerms n nFn (setTypePairs n cond) lComb).map (attrOf n cond) ↔
      x.1 < nFn ∧ ∃ l, lComb[x.2.1]? = some l ∧ x ∈ entryAttrs n cond x.2.1 l := by
    intro x
    rw [attrs_eq]
    simp only [List.mem_flatMap, List.mem_range, List.mem_filter, decide_eq_true_eq]
    constructor
    · rintro ⟨k, hk, ⟨e, he, hx⟩, rfl⟩
      have h1 := ((mem_entry n cond).1 hx).1
      rw [List.mem_zipIdx_iff_getElem?] at he
      exact ⟨hk, e.1, by rw [h1]; exact he, by rw [h1]; exact hx⟩
    · rintro ⟨h1, l, h2, h3⟩
      exact ⟨x.1, h1, ⟨(l, x.2.1), List.mem_zipIdx_iff_getElem?.2 h2, h3⟩, rfl⟩
  have hnd : ((linearTerms n nFn (setTypePairs n cond) lComb).map (attrOf n cond)).Nodup := by
    rw [attrs_eq, List.nodup_flatMap]
    refine ⟨fun k _ => List.Nodup.filter _ ?_, ?_⟩
    · rw [List.nodup_flatMap]
      refine ⟨fun e he => ?_, ?_⟩
      · obtain ⟨h1, h2⟩ := hl e.1 (List.mem_of_getElem? (List.mem_zipIdx_iff_getElem?.1 he))
        exact nodup_entry n cond hcond e.2 h2 h1
      · have h1 : (lComb.zipIdx.map (·.2)).Nodup := by
          rw [show (fun e : List ℕ × ℕ => e.2) = Prod.snd from rfl, List.zipIdx_map_snd]
          exact List.nodup_range'
        rw [List.Nodup, List.pairwise_map] at h1
        refine h1.imp ?_
        intro a b hab
        rw [Function.onFun, List.disjoint_left]
        intro x hx hx'
        exact hab (((mem_entry n cond).1 hx).1.symm.trans ((mem_entry n cond).1 hx').1)
    · refine List.Pairwise.imp_of_mem ?_ (List.nodup_range (n := nFn))
      intro a b _ _ hab
      rw [Function.onFun, List.disjoint_left]
      intro x hx hx'
      rw [List.mem_filter, decide_eq_true_eq] at hx hx'
      exact hab (hx.2.symm.trans hx'.2)
  refine ⟨?_, ?_, ?_⟩
  · intro x hx
    obtain ⟨h1, l, h2, h3⟩ := (hmem x).1 hx
    obtain ⟨-, lt, hlt, h4, h5⟩ := (mem_entry n cond).1 h3
    obtain ⟨c, hc, hlen, rfl, hm⟩ := uniq_mem n cond hlt
    rw [h4] at hm
    obtain ⟨h6, h7⟩ := (mem_tpCombs n cond _ _).1 hm
    refine ⟨h1, ⟨l, h2, h6⟩, h7, fun tp htp => ?_⟩
    rw [active_iff]
    exact nonzeroN_mem _ _ _ h5 tp htp
  · intro f id tps l hI hid
    obtain ⟨hf, ⟨l', hl', hlen⟩, hcen, hact⟩ := hI
    rw [hid] at hl'
    obtain rfl := Option.some.inj hl'
    obtain ⟨hne, hsort⟩ := hl l (List.mem_of_getElem? hid)
    have hc : tps ∈ tpCombs n (setTypePairs n cond) l.length := (mem_tpCombs n cond _ _).2 ⟨hlen, hcen⟩
    have hp := sorted_snd_perm hlen
    have hne' : (sorted l tps).map (·.2) ≠ [] := by
      intro h
      have := hp.length_eq
      rw [h, hlen] at this
      exact hne (List.length_eq_zero_iff.1 this.symm)
    have hin : (f, id, (sorted l tps).map (·.2)) ∈
        (linearTerms n nFn (setTypePairs n cond) lComb).map (attrOf n cond) := by
      rw [hmem]
      refine ⟨hf, l, hid, (mem_entry n cond).2 ⟨rfl, sorted l tps, (mem_uniqLt _ _ _).2 ⟨tps, hc, rfl⟩, rfl, ?_⟩⟩
      refine ((nonzeroN_iff _ (tpN_nodup' n cond hcond) _ hne').2 f).2 fun tp htp => ?_
      exact (active_iff n cond f tp).1 (hact tp (hp.mem_iff.1 htp))
    obtain ⟨k, hk⟩ := List.mem_iff_getElem?.1 hin
    refine ⟨k, ⟨_, hk, ?_⟩, ?_⟩
    · rw [sorted_zip hsort hlen]; exact sorted_perm l tps
    · rintro k' ⟨tps', hk', hperm⟩
      obtain ⟨-, l', hl', h3⟩ := (hmem _).1 (List.mem_of_getElem? hk')
      simp only at hl'
      rw [hid] at hl'
      obtain rfl := Option.some.inj hl'
      obtain ⟨-, lt, hlt, h4, -⟩ := (mem_entry n cond).1 h3
      obtain ⟨c, -, hlenc, rfl, -⟩ := uniq_mem n cond hlt
      simp only at h4
      rw [← h4, sorted_zip hsort hlenc] at hperm
      have he : sorted l c = sorted l tps :=
        List.Perm.eq_of_pairwise' (sorted_pairwise l c) (sorted_pairwise l tps)
          (hperm.trans (sorted_perm l tps).symm)
      rw [← h4, he, ← hk] at hk'
      have hlt' : k < ((linearTerms n nFn (setTypePairs n cond) lComb).map (attrOf n cond)).length :=
        (List.getElem?_eq_some_iff.1 hk).1
      exact ((List.getElem?_inj hlt' hnd).1 hk'.symm).symm
  · rw [attrs_eq, List.pairwise_flatMap]
    refine ⟨fun k _ => ?_, ?_⟩
    · have h1 : (lComb.zipIdx.flatMap fun e => entryAttrs n cond e.2 e.1).Pairwise
          fun a b => a.2.1 ≤ b.2.1 := by
        rw [List.pairwise_flatMap]
        refine ⟨fun e _ => ?_, ?_⟩
        · refine List.pairwise_of_forall_mem_list fun a ha b hb => ?_
          rw [((mem_entry n cond).1 ha).1, ((mem_entry n cond).1 hb).1]
        · have h1 : (lComb.zipIdx.map (·.2)).Pairwise (· < ·) := by
            rw [show (fun e : List ℕ × ℕ => e.2) = Prod.snd from rfl, List.zipIdx_map_snd]
            exact List.pairwise_lt_range'
          rw [List.pairwise_map] at h1
          refine h1.imp ?_
          intro a b hab x hx y hy
          rw [((mem_entry n cond).1 hx).1, ((mem_entry n cond).1 hy).1]
          exact hab.le
      refine List.Pairwise.imp_of_mem ?_ (h1.filter fun x => decide (x.1 = k))
      intro a b ha hb hab
      rw [List.mem_filter, decide_eq_true_eq] at ha hb
      exact Or.inr ⟨ha.2.trans hb.2.symm, hab⟩
    · refine List.pairwise_lt_range.imp ?_
      intro a b hab x hx y hy
      rw [List.mem_filter, decide_eq_true_eq] at hx hy
      exact Or.inl (by omega)

end Lists

end Verif.FeatAttr
