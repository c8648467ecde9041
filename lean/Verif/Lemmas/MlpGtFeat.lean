import Verif.Lemmas.MlpGtChan
import Verif.Spec.GtTable

namespace Verif.Mlp
open Verif
open Verif.Neighbor (Vec Csr r2 mkCsr)

variable {K : Type} [Field K] [LinearOrder K]

/-! ## Linear terms -/

theorem setInter_subset : ∀ (xs ys : List ℕ) (t : ℕ), t ∈ setInter xs ys → t ∈ xs ∧ t ∈ ys
  | [], ys, t, h => by simp [setInter] at h
  | a :: as, [], t, h => by simp [setInter] at h
  | a :: as, b :: bs, t, h => by
    rw [setInter] at h
    split_ifs at h with h1 h2
    · have := setInter_subset as (b :: bs) t h
      exact ⟨by simp [this.1], this.2⟩
    · have := setInter_subset (a :: as) bs t h
      exact ⟨this.1, by simp [this.2]⟩
    · have hab : a = b := by omega
      subst hab
      rw [List.mem_cons] at h
      rcases h with rfl | h
      · simp
      · have := setInter_subset as bs t h
        simp [this.1, this.2]
termination_by xs ys => xs.length + ys.length

theorem nonzeroN_mem (m : TpMaps) (tps : List ℕ) (n : ℕ) (h : n ∈ nonzeroN m tps) :
    ∀ tp ∈ tps, n ∈ m.tpN.getD tp [] := by
  cases tps with
  | nil => intro tp htp; simp at htp
  | cons tp0 tps =>
    unfold nonzeroN at h
    have key : ∀ (l : List ℕ) (v : List ℕ), n ∈ l.foldl
        (fun v tp => setInter (v.insertionSort (· ≤ ·)) ((m.tpN.getD tp []).insertionSort (· ≤ ·))) v →
        n ∈ v ∧ ∀ tp ∈ l, n ∈ m.tpN.getD tp [] := by
      intro l
      induction l with
      | nil => intro v h; exact ⟨h, by simp⟩
      | cons tp l ih =>
        intro v h
        obtain ⟨h1, h2⟩ := ih _ h
        obtain ⟨h3, h4⟩ := setInter_subset _ _ _ h1
        rw [List.mem_insertionSort] at h3 h4
        refine ⟨h3, ?_⟩
        intro q hq
        rw [List.mem_cons] at hq
        rcases hq with rfl | hq
        · exact h4
        · exact h2 q hq
    obtain ⟨h1, h2⟩ := key tps _ h
    intro tp htp
    rw [List.mem_cons] at htp
    rcases htp with rfl | htp
    · exact h1
    · exact h2 tp htp

theorem mem_permNr (input : List ℕ) (r : ℕ) (q : List ℕ) :
    q ∈ permNr input r ↔ q.length = r ∧ ∀ x ∈ q, x ∈ input := by
  induction r generalizing q with
  | zero =>
    simp only [permNr, List.mem_singleton, List.length_eq_zero_iff]
    constructor
    · rintro rfl; simp
    · exact fun h => h.1
  | succ r ih =>
    simp only [permNr, List.mem_flatMap, List.mem_map]
    constructor
    · rintro ⟨i, hi, q', hq', rfl⟩
      obtain ⟨h1, h2⟩ := (ih q').1 hq'
      refine ⟨by simp [h1], ?_⟩
      intro x hx
      rw [List.mem_cons] at hx
      rcases hx with rfl | hx
      · exact hi
      · exact h2 x hx
    · rintro ⟨h1, h2⟩
      cases q with
      | nil => simp at h1
      | cons x q =>
        refine ⟨x, h2 x (by simp), q, (ih q).2 ⟨by simpa using h1, fun y hy => h2 y (by simp [hy])⟩, rfl⟩

theorem checkType_perm (nType : ℕ) (tpairs : ℕ → ℕ → ℕ) {q q' : List ℕ} (h : q.Perm q') (t : ℕ) :
    checkType nType tpairs q t = checkType nType tpairs q' t := by
  unfold checkType
  rw [Bool.eq_iff_iff, List.all_eq_true, List.all_eq_true]
  constructor
  · intro H x hx; exact H x (h.mem_iff.2 hx)
  · intro H x hx; exact H x (h.mem_iff.1 hx)

theorem tpCombs_perm (nType : ℕ) (m : TpMaps) (r : ℕ) {q q' : List ℕ} (h : q.Perm q')
    (hq : q ∈ tpCombs nType m r) : q' ∈ tpCombs nType m r := by
  unfold tpCombs at hq ⊢
  rw [List.mem_filter, mem_permNr] at hq ⊢
  obtain ⟨⟨h1, h2⟩, h3⟩ := hq
  refine ⟨⟨by rw [← h.length_eq, h1], fun x hx => h2 x (h.mem_iff.2 hx)⟩, ?_⟩
  rw [List.any_eq_true] at h3 ⊢
  obtain ⟨t, ht, hc⟩ := h3
  exact ⟨t, ht, by rw [← checkType_perm nType m.typePairs h]; exact hc⟩

/-- What the enumeration guarantees for a linear term and one of its types. -/
structure LinOK (p : GtParams K) (lin : LinearTerm) (ls tps : List ℕ) : Prop where
  hls : p.lComb[lin.lmId]? = some ls
  order : lin.order = ls.length
  htps : (tpCombs p.nType p.maps.tp lin.order)[lin.tpId]? = some tps
  len : tps.length = ls.length
  n : lin.n < p.nFn
  nz : ∀ tp ∈ tps, lin.n ∈ p.maps.tp.tpN.getD tp []
  types : lin.type1 = (List.range p.nType).filter fun t => checkType p.nType p.maps.tp.typePairs tps t

theorem linear_mem (p : GtParams K) (lin : LinearTerm) (h : lin ∈ p.linear) :
    ∃ ls tps, LinOK p lin ls tps := by
  unfold GtParams.linear linearTerms at h
  simp only [List.mem_flatMap, List.mem_range] at h
  obtain ⟨n, hn, h⟩ := h
  have key : ∀ (l : List LinearTerm) (v : ℕ → List LinearTerm), lin ∈ (l.foldl
      (fun v x => push v x.n x) v) n → lin ∈ v n ∨ (lin ∈ l ∧ lin.n = n) := by
    intro l
    induction l with
    | nil => intro v h; exact Or.inl h
    | cons x l ih =>
      intro v h
      rcases ih _ h with h | h
      · change lin ∈ push v x.n x n at h
        rw [push_apply, List.mem_append] at h
        rcases h with h | h
        · exact Or.inl h
        · split_ifs at h with hx
          · rw [List.mem_singleton] at h
            subst h
            exact Or.inr ⟨by simp, hx.symm⟩
          · simp at h
      · exact Or.inr ⟨by simp [h.1], h.2⟩
  rcases key _ _ h with h | ⟨h, hln⟩
  · simp at h
  rw [List.mem_flatMap] at h
  obtain ⟨⟨ls, i⟩, hi, h⟩ := h
  rw [List.mem_zipIdx_iff_getElem?] at hi
  unfold linearOf at h
  simp only [List.mem_flatMap, List.mem_map] at h
  obtain ⟨lt, hlt, n', hn', rfl⟩ := h
  simp only at hln hi
  subst hln
  unfold uniqLt at hlt
  rw [List.mem_insertionSort, List.mem_dedup, List.mem_map] at hlt
  obtain ⟨c, hc, rfl⟩ := hlt
  have hclen : c.length = ls.length := by
    unfold tpCombs at hc
    rw [List.mem_filter, mem_permNr] at hc
    exact hc.1.1
  have hperm : c.Perm (((ls.zip c).insertionSort (fun a b => pairLe a b)).map (·.2)) := by
    have h1 := (List.perm_insertionSort (fun a b => pairLe a b = true) (ls.zip c)).map (·.2)
    refine (h1.trans ?_).symm
    rw [show (fun e : ℕ × ℕ => e.2) = Prod.snd from rfl, List.map_snd_zip (by omega)]
  have hmem := tpCombs_perm p.nType p.maps.tp ls.length hperm hc
  generalize ((ls.zip c).insertionSort (fun a b => pairLe a b)).map (·.2) = tps at hmem hn' hperm
  have hidx : (tpCombs p.nType p.maps.tp ls.length)[(tpCombs p.nType p.maps.tp ls.length).idxOf tps]? =
      some tps := by
    rw [List.getElem?_eq_getElem (List.idxOf_lt_length_of_mem hmem)]
    simp
  refine ⟨ls, tps, hi, rfl, hidx, by rw [← hperm.length_eq, hclen], hn, ?_, rfl⟩
  rw [List.getD_eq_getElem?_getD, List.getElem?_map, hidx] at hn'
  exact nonzeroN_mem _ _ _ hn'

/-! ## Positions of the factors -/

/-- Radial function `n` is used for the pair `tp`, which contains the type `t`. -/
def PairOK (p : GtParams K) (n tp t : ℕ) : Prop :=
  ∃ i j, (setTypePairs p.nType p.cond).tpTypes[tp]? = some (i, j) ∧ n ∈ p.cond i j ∧ (i = t ∨ j = t)

theorem lin_pairs (p : GtParams K) {lin : LinearTerm} {ls tps : List ℕ} (h : LinOK p lin ls tps) {t : ℕ}
    (ht : t ∈ lin.type1) : t < p.nType ∧ ∀ tp ∈ tps, PairOK p lin.n tp t := by
  rw [h.types, List.mem_filter, List.mem_range] at ht
  refine ⟨ht.1, ?_⟩
  intro tp htp
  have hc := ht.2
  unfold checkType at hc
  rw [List.all_eq_true] at hc
  have h1 := hc tp htp
  rw [List.any_eq_true] at h1
  obtain ⟨t2, ht2, h2⟩ := h1
  rw [List.mem_range] at ht2
  rw [beq_iff_eq] at h2
  have h3 := allPairs_typePairs p.nType p.cond ht.1 ht2
  have h2' : (setTypePairs p.nType p.cond).typePairs t t2 = tp := h2
  rw [h2'] at h3
  refine ⟨min t t2, max t t2, by rw [tpTypes_eq]; exact h3, ?_, ?_⟩
  · have h4 := h.nz tp htp
    rw [show p.maps.tp.tpN = (setTypePairs p.nType p.cond).tpN from rfl, tpN_eq,
      List.getD_eq_getElem?_getD, List.getElem?_map, h3] at h4
    exact h4
  · omega

/-- Position of a factor in the array of the type `t`. -/
def kIdx (p : GtParams K) (n lm tp t : ℕ) : ℕ := p.maps.loc.iloc (p.maps.glob.toGlobal n lm tp) t

theorem tpN_nodup (p : GtParams K) (hcond : ∀ i j, (p.cond i j).Nodup) :
    ∀ ns ∈ (setTypePairs p.nType p.cond).tpN, ns.Nodup := by
  intro ns h
  rw [tpN_eq, List.mem_map] at h
  obtain ⟨e, -, rfl⟩ := h
  exact hcond _ _

theorem global_get (p : GtParams K) (hcond : ∀ i j, (p.cond i j).Nodup) {n l tp t : ℕ} {m : ℤ}
    (hn : n < p.nFn) (hl : l ≤ p.maxl) (h1 : -(l : ℤ) ≤ m) (h2 : m ≤ l) (htp : PairOK p n tp t) :
    ∃ a, p.maps.glob.attrs[p.maps.glob.toGlobal n (Spec.lmIdx l m) tp]? = some a ∧ a.n = n ∧
      a.lm = lmAttr l m ∧ a.tp = tp := by
  obtain ⟨i, j, h3, h4, -⟩ := htp
  have hm : (n, Spec.lmIdx l m, lmAttr l m, tp) ∈ nlmIter (setTypePairs p.nType p.cond) p.nFn p.maxl := by
    refine (mem_nlmIter p.nFn p.maxl _ _).2 ⟨hn, lmAttrs_get p.maxl l m hl h1 h2, ?_⟩
    rw [mem_nToTp]
    refine ⟨p.cond i j, ?_, h4⟩
    rw [tpTypes_eq] at h3
    rw [tpN_eq, List.getElem?_map, h3]
    rfl
  obtain ⟨g, hg⟩ := List.mem_iff_getElem?.1 hm
  have hnd := nlmIter_nodup p.nFn p.maxl _ (tpN_nodup p hcond)
  have h5 := nlmFold_toGlobal (setTypePairs p.nType p.cond) _ hnd g _ hg
  obtain ⟨hlen, hinv, -⟩ := nlmFold_inv (setTypePairs p.nType p.cond)
    (nlmIter (setTypePairs p.nType p.cond) p.nFn p.maxl)
  have hlt := (List.getElem?_eq_some_iff.1 hg).1
  rw [← hlen] at hlt
  have hga := List.getElem?_eq_getElem hlt
  generalize (nlmFold (setTypePairs p.nType p.cond)
    (nlmIter (setTypePairs p.nType p.cond) p.nFn p.maxl)).attrs[g] = a at hga
  obtain ⟨c, hc, hA⟩ := hinv g a hga
  rw [hg] at hc
  cases hc
  refine ⟨a, ?_, hA.n, hA.lm, hA.tp⟩
  rw [← hga, ← h5]
  rfl

theorem kIdx_get (p : GtParams K) (hcond : ∀ i j, (p.cond i j).Nodup) {n l tp t : ℕ} {m : ℤ}
    (hn : n < p.nFn) (hl : l ≤ p.maxl) (h1 : -(l : ℤ) ≤ m) (h2 : m ≤ l) (htp : PairOK p n tp t) :
    ∃ a, (p.attrs t)[kIdx p n (Spec.lmIdx l m) tp t]? = some a ∧ a.n = n ∧ a.lm = lmAttr l m ∧
      a.tp = tp := by
  obtain ⟨a, ha, e1, e2, e3⟩ := global_get p hcond hn hl h1 h2 htp
  obtain ⟨i, j, h3, h4, h5⟩ := htp
  have hr : nrel (setTypePairs p.nType p.cond) t a := by
    unfold nrel typesOf
    rw [e3, List.getD_eq_getElem?_getD, h3]
    simpa using h5
  obtain ⟨b', hb', hbb⟩ := local_of_global (nlm_nodup_gids (setTypePairs p.nType p.cond) p.nFn p.maxl)
    (List.mem_of_getElem? ha) hr
  have hgid : a.gid = p.maps.glob.toGlobal n (Spec.lmIdx l m) tp := nlm_gid _ _ _ _ _ ha
  rw [hgid] at hb'
  refine ⟨{ b' with ilocConj := ilocZ p.maps.loc.iloc b'.gConj t }, ?_, ?_, ?_, ?_⟩
  · show ((nlmConjIds (nlmLocal _ _)).attrs t)[_]? = _
    unfold nlmConjIds
    simp only
    rw [List.getElem?_map]
    unfold kIdx
    rw [show p.maps.loc.iloc = (nlmLocal (setTypePairs p.nType p.cond)
      (nlmGlobal (setTypePairs p.nType p.cond) p.nFn p.maxl).attrs).iloc from rfl, hb']
    rfl
  · have := congrArg NlmAttr.n hbb
    simp only [nbare] at this
    simp [this, e1]
  · have := congrArg NlmAttr.lm hbb
    simp only [nbare] at this
    simp [this, e2]
  · have := congrArg NlmAttr.tp hbb
    simp only [nbare] at this
    simp [this, e3]

theorem channel_inj (p : GtParams K) (hcond : ∀ i j, (p.cond i j).Nodup) {t k k' : ℕ} {a b : NlmAttr}
    (h : (p.attrs t)[k]? = some a) (h' : (p.attrs t)[k']? = some b) (hc : channel a = channel b) :
    k = k' := by
  have hnd : ((p.attrs t).map channel).Nodup := C30_channels_once p.nType p.nFn p.maxl p.cond hcond t
  have h1 : ((p.attrs t).map channel)[k]? = ((p.attrs t).map channel)[k']? := by
    rw [List.getElem?_map, List.getElem?_map, h, h', Option.map_some, Option.map_some, hc]
  have hlt : k < ((p.attrs t).map channel).length := by
    rw [List.length_map]; exact (List.getElem?_eq_some_iff.1 h).1
  exact (List.getElem?_inj hlt hnd).1 h1

theorem kIdx_kap (p : GtParams K) (hcond : ∀ i j, (p.cond i j).Nodup) {n l tp t : ℕ} {m : ℤ}
    (hn : n < p.nFn) (hl : l ≤ p.maxl) (h1 : -(l : ℤ) ≤ m) (h2 : m ≤ l) (htp : PairOK p n tp t) :
    p.kap t (kIdx p n (Spec.lmIdx l m) tp t) = kIdx p n (Spec.lmIdx l (-m)) tp t := by
  obtain ⟨a, ha, e1, e2, e3⟩ := kIdx_get p hcond hn hl h1 h2 htp
  obtain ⟨a', ha', e1', e2', e3'⟩ := kIdx_get p hcond (m := -m) hn hl (by omega) (by omega) htp
  obtain ⟨b, l', m', hb, f1, f2, -, -, -, -, -, f3, f4, -⟩ := gt_conj p ha
  rw [kap_of_get p ha]
  refine channel_inj p hcond hb ha' ?_
  have e4 : l' = l ∧ m' = m := by
    rw [e2] at f3
    have g1 := congrArg LmAttr.l f3
    have g2 := congrArg LmAttr.m f3
    simp at g1 g2
    exact ⟨g1.symm, g2.symm⟩
  unfold channel
  rw [f1, f2, f4, e1, e3, e1', e2', e3', e4.1, e4.2]

theorem conj_global (p : GtParams K) (hcond : ∀ i j, (p.cond i j).Nodup) {n l tp t : ℕ} {m : ℤ}
    (hn : n < p.nFn) (hl : l ≤ p.maxl) (h1 : -(l : ℤ) ≤ m) (h2 : m ≤ l) (htp : PairOK p n tp t) :
    (conjTable p.maps.glob.attrs (p.maps.glob.toGlobal n (Spec.lmIdx l m) tp)).toNat =
      p.maps.glob.toGlobal n (Spec.lmIdx l (-m)) tp := by
  obtain ⟨a, ha, e1, e2, e3⟩ := global_get p hcond hn hl h1 h2 htp
  obtain ⟨a', ha', e1', e2', e3'⟩ := global_get p hcond (m := -m) hn hl (by omega) (by omega) htp
  have hgid : a.gid = p.maps.glob.toGlobal n (Spec.lmIdx l m) tp := nlm_gid _ _ _ _ _ ha
  obtain ⟨b, l', m', hpos, hb, f1, f2, -, -, -, -, f3, f4, -, -⟩ :=
    attrs_conj (setTypePairs p.nType p.cond) p.nFn p.maxl a (List.mem_of_getElem? ha)
  have h3 := conjTable_eq p.maps.glob.attrs (nlm_nodup_gids (setTypePairs p.nType p.cond) p.nFn p.maxl) a
    (List.mem_of_getElem? ha)
  rw [hgid] at h3
  rw [h3]
  have e4 : l' = l ∧ m' = m := by
    rw [e2] at f3
    have g1 := congrArg LmAttr.l f3
    have g2 := congrArg LmAttr.m f3
    simp at g1 g2
    exact ⟨g1.symm, g2.symm⟩
  have hnd : ((p.maps.glob.attrs).map channel).Nodup :=
    global_nodup p.nFn p.maxl _ (tpN_nodup p hcond)
  have hb' : p.maps.glob.attrs[a.gConj.toNat]? = some b := hb
  have h4 : ((p.maps.glob.attrs).map channel)[a.gConj.toNat]? =
      ((p.maps.glob.attrs).map channel)[p.maps.glob.toGlobal n (Spec.lmIdx l (-m)) tp]? := by
    rw [List.getElem?_map, List.getElem?_map, hb', ha', Option.map_some, Option.map_some]
    unfold channel
    rw [f1, f2, f4, e1, e3, e1', e2', e3', e4.1, e4.2]
  have hlt : a.gConj.toNat < ((p.maps.glob.attrs).map channel).length := by
    rw [List.length_map]; exact (List.getElem?_eq_some_iff.1 hb').1
  exact (List.getElem?_inj hlt hnd).1 h4

/-- Positions of the factors of one product. -/
def kRow (p : GtParams K) (n t : ℕ) (ls : List ℕ) (ms : List ℤ) (tps : List ℕ) : List ℕ :=
  ((List.zipWith Spec.lmIdx ls ms).zip tps).map fun e => kIdx p n e.1 e.2 t

/-- Global identifiers of the factors of one product. -/
def gRow (p : GtParams K) (n : ℕ) (ls : List ℕ) (ms : List ℤ) (tps : List ℕ) : List ℕ :=
  ((List.zipWith Spec.lmIdx ls ms).zip tps).map fun e => p.maps.glob.toGlobal n e.1 e.2

theorem row_facts (p : GtParams K) (hcond : ∀ i j, (p.cond i j).Nodup) {n t : ℕ} (hn : n < p.nFn) :
    ∀ (ls : List ℕ) (ms : List ℤ) (tps : List ℕ), ms.length = ls.length → tps.length = ls.length →
    (∀ l ∈ ls, l ≤ p.maxl) → (∀ e ∈ ls.zip ms, -(e.1 : ℤ) ≤ e.2 ∧ e.2 ≤ e.1) →
    (∀ tp ∈ tps, PairOK p n tp t) →
    (∀ q ∈ kRow p n t ls ms tps, q < (p.attrs t).length) ∧
    (kRow p n t ls ms tps).map (p.mOf t) = ms ∧ (kRow p n t ls ms tps).map (p.lOf t) = ls ∧
    (kRow p n t ls ms tps).map (p.kap t) = kRow p n t ls (ms.map fun m => -m) tps ∧
    (gRow p n ls ms tps).map (fun g => (conjTable p.maps.glob.attrs g).toNat) =
      gRow p n ls (ms.map fun m => -m) tps
  | [], [], [], _, _, _, _, _ => by simp [kRow, gRow]
  | l :: ls, m :: ms, tp :: tps, h1, h2, h3, h4, h5 => by
    obtain ⟨i1, i2, i3, i4, i5⟩ := row_facts p hcond hn ls ms tps (by simpa using h1) (by simpa using h2)
      (fun l hl => h3 l (by simp [hl])) (fun e he => h4 e (by simp [he])) (fun q hq => h5 q (by simp [hq]))
    have hl := h3 l (by simp)
    obtain ⟨hm1, hm2⟩ := h4 (l, m) (by simp)
    have htp := h5 tp (by simp)
    obtain ⟨a, ha, e1, e2, e3⟩ := kIdx_get p hcond hn hl hm1 hm2 htp
    have hk : kRow p n t (l :: ls) (m :: ms) (tp :: tps) =
      kIdx p n (Spec.lmIdx l m) tp t :: kRow p n t ls ms tps := rfl
    have hk' : kRow p n t (l :: ls) ((m :: ms).map fun m => -m) (tp :: tps) =
      kIdx p n (Spec.lmIdx l (-m)) tp t :: kRow p n t ls (ms.map fun m => -m) tps := rfl
    have hg : gRow p n (l :: ls) (m :: ms) (tp :: tps) =
      p.maps.glob.toGlobal n (Spec.lmIdx l m) tp :: gRow p n ls ms tps := rfl
    have hg' : gRow p n (l :: ls) ((m :: ms).map fun m => -m) (tp :: tps) =
      p.maps.glob.toGlobal n (Spec.lmIdx l (-m)) tp :: gRow p n ls (ms.map fun m => -m) tps := rfl
    rw [hk, hk', hg, hg']
    refine ⟨?_, ?_, ?_, ?_, ?_⟩
    · intro q hq
      rw [List.mem_cons] at hq
      rcases hq with rfl | hq
      · exact (List.getElem?_eq_some_iff.1 ha).1
      · exact i1 q hq
    · rw [List.map_cons, i2, mOf_of_get p ha, e2, lmAttr_m]
    · rw [List.map_cons, i3, lOf_of_get p ha, e2, lmAttr_l]
    · rw [List.map_cons, i4, kIdx_kap p hcond hn hl hm1 hm2 htp]
    · rw [List.map_cons, i5, conj_global p hcond hn hl hm1 hm2 htp]
  | [], _ :: _, _, h1, _, _, _, _ => by simp at h1
  | _ :: _, [], _, h1, _, _, _, _ => by simp at h1
  | [], _, _ :: _, _, h2, _, _, _ => by simp at h2
  | _ :: _, _, [], _, h2, _, _, _ => by simp at h2

theorem kRow_gRow (p : GtParams K) (n t : ℕ) (ls : List ℕ) (ms : List ℤ) (tps : List ℕ) :
    kRow p n t ls ms tps = (gRow p n ls ms tps).map fun g => p.maps.loc.iloc g t := by
  unfold kRow gRow
  rw [List.map_map]
  rfl

theorem globalIds_perm (p : GtParams K) (n : ℕ) (ls : List ℕ) (ms : List ℤ) (tps : List ℕ) :
    (globalIds p.maps.glob n (List.zipWith Spec.lmIdx ls ms) tps).Perm (gRow p n ls ms tps) :=
  List.perm_insertionSort _ _

/-! ## Features -/

/-- The linear terms of one type, in order. -/
def GtParams.linFor (p : GtParams K) (t : ℕ) : List LinearTerm :=
  p.linear.flatMap fun lin => lin.type1.flatMap fun t' => if t = t' then [lin] else []

theorem mem_linFor (p : GtParams K) (t : ℕ) (lin : LinearTerm) :
    lin ∈ p.linFor t ↔ lin ∈ p.linear ∧ t ∈ lin.type1 := by
  unfold GtParams.linFor
  simp only [List.mem_flatMap]
  constructor
  · rintro ⟨x, hx, t', ht', h⟩
    split_ifs at h with e
    · rw [List.mem_singleton] at h
      subst h e
      exact ⟨hx, ht'⟩
    · simp at h
  · rintro ⟨h1, h2⟩
    exact ⟨lin, h1, t, h2, by simp⟩

theorem featuresBy_eq (p : GtParams K) (ids : List ℕ → List ℕ) (t : ℕ) :
    p.featuresBy ids t = (p.linFor t).map fun lin => p.feature ids lin t := by
  unfold GtParams.featuresBy GtParams.linFor
  have inner : ∀ (lin : LinearTerm) (l : List ℕ) (v : ℕ → List (List (SingleTerm K))),
      (l.foldl (fun fs t' => push fs t' (p.feature ids lin t')) v) t =
        v t ++ (l.flatMap fun t' => if t = t' then [lin] else []).map fun lin => p.feature ids lin t := by
    intro lin l
    induction l with
    | nil => intro v; simp
    | cons x l ih =>
      intro v
      rw [List.foldl_cons, ih, push_apply, List.flatMap_cons, List.map_append, List.append_assoc]
      congr 2
      split_ifs with h
      · rw [h]; rfl
      · rfl
  have outer : ∀ (l : List LinearTerm) (v : ℕ → List (List (SingleTerm K))),
      (l.foldl (fun fs lin => lin.type1.foldl (fun fs t' => push fs t' (p.feature ids lin t')) fs) v) t =
        v t ++ (l.flatMap fun lin => lin.type1.flatMap fun t' => if t = t' then [lin] else []).map
          fun lin => p.feature ids lin t := by
    intro l
    induction l with
    | nil => intro v; simp
    | cons x l ih =>
      intro v
      rw [List.foldl_cons, ih, inner, List.flatMap_cons, List.map_append, List.append_assoc]
  rw [outer]
  rfl

theorem zip_rows {α : Type} (rows : List (α × K)) (A : α → List ℕ) (G : List ℕ → List ℕ) :
    ((rows.map fun r => A r.1).zipIdx.map fun e => ((rows.map (·.2)).getD e.2 0, G e.1)) =
      rows.map fun r => (r.2, G (A r.1)) := by
  apply List.ext_getElem
  · simp
  · intro i h1 h2
    simp only [List.length_map, List.length_zipIdx] at h1
    simp [List.getD_eq_getElem?_getD, List.getElem?_eq_getElem h1]

variable (p : GtParams K)

theorem feature_rows (htab : Spec.TableOK p.maxl p.lComb p.lmArray p.lmCoeffs) {lin : LinearTerm}
    {ls tps : List ℕ} (h : LinOK p lin ls tps) : ∃ rows : List (List ℤ × K),
    Spec.InvEntry p.maxl ls rows ∧ ∀ ids t, p.feature ids lin t = rows.map fun r =>
      (r.2, (ids (globalIds p.maps.glob lin.n (List.zipWith Spec.lmIdx ls r.1) tps)).map
        fun g => p.maps.loc.iloc g t) := by
  obtain ⟨rows, h1, h2, h3⟩ := htab _ _ h.hls
  refine ⟨rows, h1, ?_⟩
  intro ids t
  unfold GtParams.feature
  simp only [List.getD_eq_getElem?_getD, h2, h3, h.htps, Option.getD_some]
  have := zip_rows rows (fun ms => List.zipWith Spec.lmIdx ls ms)
    (fun x => (ids (globalIds p.maps.glob lin.n x tps)).map fun g => p.maps.loc.iloc g t)
  rw [← this]
  simp only [List.getD_eq_getElem?_getD]

variable (hcond : ∀ i j, (p.cond i j).Nodup)
variable (htab : Spec.TableOK p.maxl p.lComb p.lmArray p.lmCoeffs)
include hcond htab

/-- The rows of a feature. -/
theorem gt_rows (t : ℕ) {lin : LinearTerm} (hl : lin ∈ p.linFor t) :
    ∃ (ls tps : List ℕ) (rows : List (List ℤ × K)), Spec.InvEntry p.maxl ls rows ∧
      t < p.nType ∧ lin.n < p.nFn ∧ tps.length = ls.length ∧ (∀ tp ∈ tps, PairOK p lin.n tp t) ∧
      (∀ r ∈ rows, (∀ q ∈ kRow p lin.n t ls r.1 tps, q < (p.attrs t).length) ∧
        (kRow p lin.n t ls r.1 tps).map (p.mOf t) = r.1 ∧ (kRow p lin.n t ls r.1 tps).map (p.lOf t) = ls ∧
        (kRow p lin.n t ls r.1 tps).map (p.kap t) = kRow p lin.n t ls (r.1.map fun m => -m) tps) ∧
      (∃ f : List ℤ × K → List ℕ, (p.feature id lin t = rows.map fun r => (r.2, f r)) ∧
        ∀ r ∈ rows, (f r).Perm (kRow p lin.n t ls r.1 tps)) ∧
      (∃ f : List ℤ × K → List ℕ, (p.feature (repIds p.maps.glob) lin t = rows.map fun r => (r.2, f r)) ∧
        ∀ r ∈ rows, (f r).Perm (kRow p lin.n t ls r.1 tps) ∨
          (f r).Perm ((kRow p lin.n t ls r.1 tps).map (p.kap t))) := by
  obtain ⟨h1, h2⟩ := (mem_linFor p t lin).1 hl
  obtain ⟨ls, tps, hlin⟩ := linear_mem p lin h1
  obtain ⟨ht, hpair⟩ := lin_pairs p hlin h2
  obtain ⟨rows, hrows, hfeat⟩ := feature_rows p htab hlin
  have hfacts := fun r (hr : r ∈ rows) => row_facts p hcond (t := t) hlin.n ls r.1 tps (hrows.len r hr)
    hlin.len hrows.lmax (hrows.range r hr) hpair
  refine ⟨ls, tps, rows, hrows, ht, hlin.n, hlin.len, hpair, ?_, ?_, ?_⟩
  · intro r hr
    obtain ⟨i1, i2, i3, i4, -⟩ := hfacts r hr
    exact ⟨i1, i2, i3, i4⟩
  · refine ⟨_, hfeat id t, ?_⟩
    intro r hr
    rw [kRow_gRow]
    exact (globalIds_perm p lin.n ls r.1 tps).map _
  · refine ⟨_, hfeat (repIds p.maps.glob) t, ?_⟩
    intro r hr
    obtain ⟨-, -, -, i4, i5⟩ := hfacts r hr
    unfold repIds
    simp only
    split_ifs with hle
    · left
      rw [kRow_gRow]
      exact (globalIds_perm p lin.n ls r.1 tps).map _
    · right
      rw [i4, kRow_gRow]
      refine List.Perm.map _ ?_
      refine (List.perm_insertionSort _ _).trans ?_
      rw [← i5]
      exact (globalIds_perm p lin.n ls r.1 tps).map _

theorem gt_features_getD (ids : List ℕ → List ℕ) (t f : ℕ) :
    (p.featuresBy ids t).getD f [] = [] ∨ ∃ lin ∈ p.linFor t,
      (p.linFor t)[f]? = some lin ∧ (p.featuresBy ids t).getD f [] = p.feature ids lin t := by
  rw [featuresBy_eq, List.getD_eq_getElem?_getD, List.getElem?_map]
  cases h : (p.linFor t)[f]? with
  | none => left; rfl
  | some lin => right; exact ⟨lin, List.mem_of_getElem? h, rfl, rfl⟩

theorem gt_featSym (t f : ℕ) :
    FeatSym (p.attrs t).length (p.kap t) (p.mOf t) ((p.features t).getD f []) := by
  unfold GtParams.features
  rcases gt_features_getD p hcond htab id t f with h | ⟨lin, hlin, -, h⟩
  · rw [h]; exact ⟨by simp, by simp, by simp⟩
  · rw [h]
    obtain ⟨ls, tps, rows, hrows, ht, hn, hlen, hpair, hf, ⟨g, hg, hperm⟩, -⟩ := gt_rows p hcond htab t hlin
    rw [hg]
    refine ⟨?_, ?_, ?_⟩
    · intro s hs q hq
      rw [List.mem_map] at hs
      obtain ⟨r, hr, rfl⟩ := hs
      exact (hf r hr).1 q ((hperm r hr).mem_iff.1 hq)
    · intro s hs
      rw [List.mem_map] at hs
      obtain ⟨r, hr, rfl⟩ := hs
      rw [((hperm r hr).map (p.mOf t)).sum_eq, (hf r hr).2.1]
      exact hrows.sum r hr
    · rw [List.map_map, List.map_map]
      have e1 : rows.map ((fun s : SingleTerm K => (s.1, (↑(s.2.map (p.kap t)) : Multiset ℕ))) ∘
          fun r => (r.2, g r)) = (rows.map fun r => (r.1.map fun m => -m, r.2)).map fun r =>
            (r.2, (↑(kRow p lin.n t ls r.1 tps) : Multiset ℕ)) := by
        rw [List.map_map]
        refine List.map_congr_left ?_
        intro r hr
        simp only [Function.comp]
        rw [← (hf r hr).2.2.2, Multiset.coe_eq_coe.2 ((hperm r hr).map _)]
      have e2 : rows.map ((fun s : SingleTerm K => (s.1, (↑s.2 : Multiset ℕ))) ∘
          fun r => (r.2, g r)) = rows.map fun r => (r.2, (↑(kRow p lin.n t ls r.1 tps) : Multiset ℕ)) := by
        refine List.map_congr_left ?_
        intro r hr
        simp only [Function.comp]
        rw [Multiset.coe_eq_coe.2 (hperm r hr)]
      rw [e1, e2]
      exact hrows.closed.map _

theorem gt_even (t f : ℕ) : ∀ s ∈ (p.features t).getD f [], Even (s.2.map (p.lOf t)).sum := by
  unfold GtParams.features
  rcases gt_features_getD p hcond htab id t f with h | ⟨lin, hlin, -, h⟩
  · rw [h]; simp
  · rw [h]
    obtain ⟨ls, tps, rows, hrows, ht, hn, hlen, hpair, hf, ⟨g, hg, hperm⟩, -⟩ := gt_rows p hcond htab t hlin
    rw [hg]
    intro s hs
    rw [List.mem_map] at hs
    obtain ⟨r, hr, rfl⟩ := hs
    rw [((hperm r hr).map (p.lOf t)).sum_eq, (hf r hr).2.2.1]
    exact hrows.even

theorem gt_size (t f : ℕ) : ∀ s ∈ (p.features t).getD f [],
    s.2.length = featureSize (p.features t) f ∧ 0 < s.2.length := by
  unfold featureSize GtParams.features
  rcases gt_features_getD p hcond htab id t f with h | ⟨lin, hlin, -, h⟩
  · rw [h]; simp
  · rw [h]
    obtain ⟨ls, tps, rows, hrows, ht, hn, hlen, hpair, hf, ⟨g, hg, hperm⟩, -⟩ := gt_rows p hcond htab t hlin
    rw [hg]
    have hL : ∀ r ∈ rows, (g r).length = ls.length := by
      intro r hr
      rw [(hperm r hr).length_eq]
      have := congrArg List.length (hf r hr).2.2.1
      simpa using this
    have hpos : 0 < ls.length := List.length_pos_of_ne_nil hrows.pos
    intro s hs
    rw [List.mem_map] at hs
    obtain ⟨r, hr, rfl⟩ := hs
    cases rows with
    | nil => simp at hr
    | cons r0 rows =>
      simp only [List.map_cons, List.getD_cons_zero]
      rw [hL r hr, hL r0 (by simp)]
      exact ⟨rfl, hpos⟩

/-- Representatives: every product has the factors of the feature or their conjugates. -/
theorem gt_reps (t f : ℕ) : List.Forall₂ (fun s s' : SingleTerm K => s'.1 = s.1 ∧
      (s'.2.Perm s.2 ∨ s'.2.Perm (s.2.map (p.kap t))))
    ((p.features t).getD f []) ((p.featuresRep t).getD f []) := by
  unfold GtParams.features GtParams.featuresRep
  rw [featuresBy_eq, featuresBy_eq, List.getD_eq_getElem?_getD, List.getD_eq_getElem?_getD,
    List.getElem?_map, List.getElem?_map]
  cases h : (p.linFor t)[f]? with
  | none => exact List.Forall₂.nil
  | some lin =>
    simp only [Option.map_some, Option.getD_some]
    obtain ⟨ls, tps, rows, hrows, ht, hn, hlen, hpair, hf, ⟨g, hg, hperm⟩, ⟨g', hg', hperm'⟩⟩ :=
      gt_rows p hcond htab t (List.mem_of_getElem? h)
    rw [hg, hg', List.forall₂_map_left_iff, List.forall₂_map_right_iff]
    refine List.forall₂_same.2 ?_
    intro r hr
    refine ⟨rfl, ?_⟩
    rcases hperm' r hr with h1 | h1
    · exact Or.inl (h1.trans (hperm r hr).symm)
    · exact Or.inr (h1.trans ((hperm r hr).map _).symm)

end Verif.Mlp
