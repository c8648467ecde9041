import Verif.Props.FeatAttr
import Verif.Props.MlpGtEval
import Verif.Lemmas.MlpGtRot

/-!
# C122: values of the listed invariants
-/

namespace Verif.FeatAttr
open Verif Verif.Mlp
open Verif.Neighbor (Vec Csr r2 mkCsr)

variable {K : Type} [Field K] [LinearOrder K]

/-! ## Terms of a column -/

theorem terms_single {M : Type} [AddCommMonoid M] {V : ℕ → ℕ → Prop} {nLin t : ℕ} {cols : List (List ℕ)}
    {ids : List ℕ} {terms : List (ℕ × List ℕ)} (hT : Spec.TermsOf V nLin cols t ids terms)
    (f F : List ℕ → M)
    (hF : ∀ e2 c : List ℕ, e2.map (fun k => ids[k]?) = c.map some → f e2 = F c)
    {k : ℕ} {c : List ℕ} (hc : cols[k]? = some c) (hz : (∃ g ∈ c, ¬V g t) → F c = 0) :
    (terms.map fun e => if k = e.1 then f e.2 else 0).sum = F c := by
  have h1 : (terms.map fun e => if k = e.1 then f e.2 else 0).sum =
      ((terms.map (·.1)).map fun q => if k = q then F c else 0).sum := by
    rw [List.map_map]
    refine sum_map_congr _ _ _ ?_
    intro e he
    simp only [Function.comp]
    by_cases hke : k = e.1
    · rw [if_pos hke, if_pos hke]
      obtain ⟨c', hc', hf⟩ := hT.factors e he
      rw [← hke, hc] at hc'
      rw [hF _ _ hf, Option.some.inj hc']
    · rw [if_neg hke, if_neg hke]
  have h2 : ∀ (l : List ℕ) (x : M), l.Nodup → (l.map fun q => if k = q then x else 0).sum =
      if k ∈ l then x else 0 := by
    intro l x
    induction l with
    | nil => intro _; simp
    | cons a l ih =>
      intro hnd
      rw [List.nodup_cons] at hnd
      rw [List.map_cons, List.sum_cons, ih hnd.2]
      by_cases h : k = a
      · subst h; simp [hnd.1]
      · simp [h]
  rw [h1, h2 _ _ (hT.once.imp fun h => Nat.ne_of_lt h)]
  split_ifs with hk
  · rfl
  · rw [hT.columns k] at hk
    refine (hz ?_).symm
    by_contra hno
    push Not at hno
    exact hk ⟨c, hc, hno⟩

/-- Increasing positions of the entries with a property. -/
theorem positions {α : Type} (xs : List α) (q : α → Bool) (ids : List ℕ) (hinc : ids.Pairwise (· < ·))
    (hmem : ∀ g : ℕ, g ∈ ids ↔ ∃ x, xs[g]? = some x ∧ q x = true) :
    ids.map (fun g => xs[g]?) = (xs.filter q).map some := by
  have h1 : ids = (xs.zipIdx.filter fun e => q e.1).map (·.2) := by
    have h2 : ((xs.zipIdx.filter fun e => q e.1).map (·.2)).Pairwise (· < ·) := by
      have h3 : (xs.zipIdx.map (·.2)).Pairwise (· < ·) := by
        rw [show (fun e : α × ℕ => e.2) = Prod.snd from rfl, List.zipIdx_map_snd]
        exact List.pairwise_lt_range'
      exact h3.sublist (List.Sublist.map _ List.filter_sublist)
    refine List.Perm.eq_of_pairwise' (r := fun a b : ℕ => a < b) hinc h2 ?_
    rw [List.perm_ext_iff_of_nodup (hinc.imp fun h => ne_of_lt h) (h2.imp fun h => ne_of_lt h)]
    intro g
    rw [hmem g, List.mem_map]
    constructor
    · rintro ⟨x, hx, hq⟩
      exact ⟨(x, g), List.mem_filter.2 ⟨List.mem_zipIdx_iff_getElem?.2 hx, hq⟩, rfl⟩
    · rintro ⟨⟨x, g'⟩, he, rfl⟩
      rw [List.mem_filter, List.mem_zipIdx_iff_getElem?] at he
      exact ⟨x, he.1, he.2⟩
  have h2 : xs.filter q = (xs.zipIdx.filter fun e => q e.1).map (·.1) := by
    conv_lhs => rw [show xs = xs.zipIdx.map (·.1) by
      rw [show (fun e : α × ℕ => e.1) = Prod.fst from rfl, List.zipIdx_map_fst]]
    rw [List.filter_map]
    rfl
  rw [h1, h2, List.map_map, List.map_map]
  refine List.map_congr_left fun e he => ?_
  exact List.mem_zipIdx_iff_getElem?.1 (List.mem_filter.1 he).1

section Values
variable (p : GtParams K) (sqrt : K → K) (types : ℕ → ℕ)
  (hcond : ∀ i j, (p.cond i j).Nodup) (htab : Spec.TableOK p.maxl p.lComb p.lmArray p.lmCoeffs)

theorem linFor_eq (t : ℕ) : p.linFor t = p.linear.filter fun lin => decide (t ∈ lin.type1) := by
  unfold GtParams.linFor
  have h : ∀ l : List LinearTerm, (∀ lin ∈ l, lin.type1.Nodup) →
      (l.flatMap fun lin => lin.type1.flatMap fun t' => if t = t' then [lin] else []) =
        l.filter fun lin => decide (t ∈ lin.type1) := by
    intro l
    induction l with
    | nil => intro _; rfl
    | cons x l ih =>
      intro hl
      rw [List.flatMap_cons, ih fun lin hlin => hl lin (by simp [hlin])]
      have hx : ∀ ts : List ℕ, ts.Nodup → (ts.flatMap fun t' => if t = t' then [x] else []) =
          if t ∈ ts then [x] else [] := by
        intro ts
        induction ts with
        | nil => intro _; rfl
        | cons a ts ih =>
          intro hnd
          rw [List.nodup_cons] at hnd
          rw [List.flatMap_cons, ih hnd.2]
          by_cases ha : t = a
          · subst ha; simp [hnd.1]
          · simp [ha]
      rw [hx _ (hl x (by simp))]
      by_cases hm : t ∈ x.type1
      · rw [if_pos hm, List.filter_cons_of_pos (by simpa using hm)]; rfl
      · rw [if_neg hm, List.filter_cons_of_neg (by simpa using hm)]; rfl
  refine h _ fun lin hlin => ?_
  exact (type1_inc p lin.type1 (List.mem_map.2 ⟨lin, hlin, rfl⟩)).imp fun h => ne_of_lt h

/-- The terms of a type in the order of the local identifiers. -/
theorem linFor_get (t k g : ℕ) (h : (p.params.comb1 t)[k]? = some g) :
    ∃ lin, p.linear[g]? = some lin ∧ (p.linFor t)[k]? = some lin := by
  have hT := gtpoly_terms p t
  have hpos := positions p.linear (fun lin => decide (t ∈ lin.type1)) (p.params.comb1 t) hT.ids_increasing
    (by
      intro g
      rw [hT.ids_mem g]
      unfold GtinvExists
      simp only [List.length_map, List.getElem?_map, Option.map_eq_some_iff, decide_eq_true_eq]
      constructor
      · rintro ⟨_, l, ⟨x, hx, rfl⟩, ht⟩; exact ⟨x, hx, ht⟩
      · rintro ⟨x, hx, ht⟩; exact ⟨(List.getElem?_eq_some_iff.1 hx).1, x.type1, ⟨x, hx, rfl⟩, ht⟩)
  rw [← linFor_eq] at hpos
  have h1 := congrArg (fun l : List (Option LinearTerm) => l[k]?) hpos
  simp only [List.getElem?_map, h, Option.map_some] at h1
  cases hl : (p.linFor t)[k]? with
  | none => rw [hl] at h1; simp at h1
  | some lin =>
    rw [hl, Option.map_some, Option.some.injEq] at h1
    exact ⟨lin, h1, rfl⟩

/-- Expansion coefficient of the density of the neighbours of atom `i` that belong to the pair `tp`, for radial
function `f`: the radial function, cut off below `tol`, times the spherical harmonic. -/
def coefficient (N : ℕ → List (ℕ × Vec K)) (i f l : ℕ) (m : ℤ) (tp : ℕ) : Cx K :=
  Spec.pairSum (attrsGt p).pairs (fun d => decide (sqrt (r2 d) < p.cutoff)) types N i tp fun e =>
    Cx.smul (if p.rad f (sqrt (r2 e.2)) < p.tol then 0 else p.rad f (sqrt (r2 e.2)))
      (Spec.full (p.ylmV (sqrt (r2 e.2)) e.2) l m)

include hcond in
theorem coefficient_eq (N : ℕ → List (ℕ × Vec K)) (i : ℕ) {n l tp : ℕ} {m : ℤ} (hn : n < p.nFn)
    (hl : l ≤ p.maxl) (h1 : -(l : ℤ) ≤ m) (h2 : m ≤ l) (htp : PairOK p n tp (types i))
    (hi : types i < p.nType) (hN : ∀ e ∈ N i, types e.1 < p.nType) :
    arrM p sqrt types i (N i) (kIdx p n (Spec.lmIdx l m) tp (types i)) =
      coefficient p sqrt types N i n l m tp := by
  rw [arrM_at p sqrt types hcond i (N i) hn hl h1 h2 htp]
  unfold coefficient Spec.pairSum
  refine sum_map_congr _ _ _ ?_
  intro e he
  obtain ⟨a, b, hab, hmem, -⟩ := htp
  have hns : p.maps.tp.tpN.getD tp [] = p.cond a b := by
    rw [show p.maps.tp.tpN = (setTypePairs p.nType p.cond).tpN from rfl, tpN_eq,
      List.getD_eq_getElem?_getD, List.getElem?_map]
    rw [tpTypes_eq] at hab
    rw [hab]
    rfl
  have hb : Spec.Belongs (attrsGt p).pairs (types i) (types e.1) tp ↔ tpE p types i e = tp := by
    have := belongs_iff p.nType p.cond (types i) (types e.1) tp
    refine this.trans ⟨fun h => h.2.2, fun h => ⟨hi, hN e he, h⟩⟩
  unfold phiE
  by_cases hd : sqrt (r2 e.2) < p.cutoff
  · by_cases ht : tpE p types i e = tp
    · have hB := hb.2 ht
      rw [if_pos (show decide (sqrt (r2 e.2) < p.cutoff) = true ∧
        Spec.Belongs (attrsGt p).pairs (types i) (types e.1) tp from ⟨decide_eq_true hd, hB⟩), ht, hns,
        fnAt_nId _ _ _ hmem]
      congr 1
      by_cases hr : p.rad n (sqrt (r2 e.2)) < p.tol
      · rw [if_pos hr, if_neg fun h => h.2.2 hr]
      · rw [if_neg hr, if_pos ⟨not_le.2 hd, rfl, hr⟩]
    · rw [if_neg fun h => ht h.2.1, if_neg fun h => ht (hb.1 h.2)]
      ext <;> simp
  · rw [if_neg fun h => h.1 (not_lt.1 hd), if_neg fun h => hd (of_decide_eq_true h.1)]
    ext <;> simp

/-- The value that the description of feature `g` gives to atom `i`, with the rows of the table. -/
def listedValue (rows : ℕ → List (List ℤ × K)) (N : ℕ → List (ℕ × Vec K)) (i g : ℕ) : K :=
  match (attrsGt p).linear[g]? with
  | none => 0
  | some x => Spec.invariantValue (coefficient p sqrt types N i x.1) (p.lComb.getD x.2.1 []) x.2.2 (rows x.2.1)

theorem kRow_prod (a : ℕ → Cx K) (A : ℕ → ℤ → ℕ → Cx K) (n t : ℕ) : ∀ (ls : List ℕ) (ms : List ℤ) (tps : List ℕ),
    (∀ x ∈ (ls.zip ms).zip tps, a (kIdx p n (Spec.lmIdx x.1.1 x.1.2) x.2 t) = A x.1.1 x.1.2 x.2) →
    (kRow p n t ls ms tps).map a = ((ls.zip ms).zip tps).map fun x => A x.1.1 x.1.2 x.2
  | [], _, _, _ => by simp [kRow]
  | _ :: _, [], _, _ => by simp [kRow]
  | _ :: _, _ :: _, [], _ => by simp [kRow]
  | l :: ls, m :: ms, tp :: tps, h => by
    have ih := kRow_prod a A n t ls ms tps fun x hx => h x (by simp [hx])
    have h0 := h ((l, m), tp) (by simp)
    have e : kRow p n t (l :: ls) (m :: ms) (tp :: tps) =
      kIdx p n (Spec.lmIdx l m) tp t :: kRow p n t ls ms tps := rfl
    rw [e, List.map_cons, ih, h0]
    rfl

variable (rows : ℕ → List (List ℤ × K))
  (hrows : ∀ (id : ℕ) (ls : List ℕ), p.lComb[id]? = some ls → Spec.InvEntry p.maxl ls (rows id) ∧
    p.lmArray[id]? = some ((rows id).map fun r => List.zipWith Spec.lmIdx ls r.1) ∧
    p.lmCoeffs[id]? = some ((rows id).map (·.2)))
include hcond hrows

theorem value_eq (N : ℕ → List (ℕ × Vec K)) (i : ℕ) (hi : types i < p.nType)
    (hN : ∀ e ∈ N i, types e.1 < p.nType) (hY : ∀ e ∈ N i, YOK p sqrt e.2)
    (hno : NoSkip p (types i) (anlmD p sqrt types i (N i)).a) (k g : ℕ)
    (hk : (p.params.comb1 (types i))[k]? = some g) :
    FM p sqrt types i (N i) k = listedValue p sqrt types rows N i g := by
  have htab : Spec.TableOK p.maxl p.lComb p.lmArray p.lmCoeffs := fun id ls h => ⟨rows id, hrows id ls h⟩
  obtain ⟨lin, hlin, hfor⟩ := linFor_get p (types i) k g hk
  have hno' := (noSkip_congr p hcond htab (types i) (anlmD_a p sqrt types i (N i))).1 hno
  unfold FM
  rw [rep_exact p hcond htab (types i) _ (arrM_sym p sqrt types i (N i) hY) hno' k]
  unfold featV GtParams.features
  rw [featuresBy_eq, List.getD_eq_getElem?_getD, List.getElem?_map, hfor, Option.map_some, Option.getD_some]
  obtain ⟨h1, h2⟩ := (mem_linFor p (types i) lin).1 (List.mem_of_getElem? hfor)
  obtain ⟨ls, tps, hok⟩ := linear_mem p lin h1
  obtain ⟨ht, hpair⟩ := lin_pairs p hok h2
  obtain ⟨hE, hA, hC⟩ := hrows _ _ hok.hls
  have hatt : (attrsGt p).linear[g]? = some (lin.n, lin.lmId, tps) := by
    unfold attrsGt
    rw [List.getElem?_map, hlin, Option.map_some, List.getD_eq_getElem?_getD, hok.htps]
    rfl
  unfold listedValue
  rw [hatt]
  simp only
  have hfeat : p.feature id lin (types i) = (rows lin.lmId).map fun r =>
      (r.2, (globalIds p.maps.glob lin.n (List.zipWith Spec.lmIdx ls r.1) tps).map
        fun g => p.maps.loc.iloc g (types i)) := by
    unfold GtParams.feature
    simp only [List.getD_eq_getElem?_getD, hA, hC, hok.htps, Option.getD_some, id]
    have := zip_rows (rows lin.lmId) (fun ms => List.zipWith Spec.lmIdx ls ms)
      (fun x => (globalIds p.maps.glob lin.n x tps).map fun g => p.maps.loc.iloc g (types i))
    rw [← this]
    simp only [List.getD_eq_getElem?_getD]
  rw [hfeat, List.map_map]
  unfold Spec.invariantValue
  rw [List.getD_eq_getElem?_getD, hok.hls, Option.getD_some]
  refine sum_map_congr _ _ _ ?_
  intro r hr
  simp only [Function.comp]
  have hperm : ((globalIds p.maps.glob lin.n (List.zipWith Spec.lmIdx ls r.1) tps).map
      fun g => p.maps.loc.iloc g (types i)).Perm (kRow p lin.n (types i) ls r.1 tps) := by
    rw [kRow_gRow]
    exact (globalIds_perm p lin.n ls r.1 tps).map _
  rw [(hperm.map _).prod_eq, kRow_prod p _ (coefficient p sqrt types N i lin.n) lin.n (types i) ls r.1 tps]
  intro x hx
  have hx1 := List.of_mem_zip hx
  have hx2 := List.of_mem_zip hx1.1
  have hr' := hE.range r hr x.1 hx1.1
  exact coefficient_eq p sqrt types hcond N i hok.n (hE.lmax _ hx2.1) hr'.1 hr'.2 (hpair _ hx1.2) hi hN

omit hcond in
theorem value_zero (N : ℕ → List (ℕ × Vec K)) (i g : ℕ) (hi : types i < p.nType)
    (hN : ∀ e ∈ N i, types e.1 < p.nType)
    (h : ¬GtinvExists (p.linear.map (·.type1)) g (types i)) :
    listedValue p sqrt types rows N i g = 0 := by
  unfold listedValue
  cases hg : (attrsGt p).linear[g]? with
  | none => rfl
  | some x =>
    simp only
    unfold attrsGt at hg
    simp only [List.getElem?_map, Option.map_eq_some_iff] at hg
    obtain ⟨lin, hlin, rfl⟩ := hg
    obtain ⟨ls, tps, hok⟩ := linear_mem p lin (List.mem_of_getElem? hlin)
    obtain ⟨hE, -, -⟩ := hrows _ _ hok.hls
    have hnt : types i ∉ lin.type1 := by
      intro ht
      exact h ⟨lin.type1, by rw [List.getElem?_map, hlin]; rfl, ht⟩
    rw [hok.types, List.mem_filter, List.mem_range] at hnt
    have hnc : ¬Spec.CarriedBy p.nType (attrsGt p).pairs tps (types i) := fun hc =>
      hnt ⟨hi, (checkType_iff p.nType p.cond tps hi).2 hc⟩
    unfold Spec.CarriedBy at hnc
    push Not at hnc
    obtain ⟨tp, htp, hno⟩ := hnc
    have hzero : ∀ f l m, coefficient p sqrt types N i f l m tp = 0 := by
      intro f l m
      unfold coefficient Spec.pairSum
      refine List.sum_eq_zero fun y hy => ?_
      rw [List.mem_map] at hy
      obtain ⟨e, he, rfl⟩ := hy
      rw [if_neg fun hb => hno _ (hN e he) hb.2]
    simp only
    simp only [List.getD_eq_getElem?_getD, hok.htps, hok.hls, Option.getD_some]
    unfold Spec.invariantValue
    refine List.sum_eq_zero fun y hy => ?_
    rw [List.mem_map] at hy
    obtain ⟨r, hr, rfl⟩ := hy
    obtain ⟨q, hq⟩ := List.mem_iff_getElem?.1 htp
    have hq' := (List.getElem?_eq_some_iff.1 hq).1
    have hl1 : q < (ls.zip r.1).length := by
      rw [List.length_zip, hE.len r hr, min_self, ← hok.len]; exact hq'
    have hmem : ((ls.zip r.1)[q], tp) ∈ (ls.zip r.1).zip tps := by
      refine List.mem_iff_getElem?.2 ⟨q, ?_⟩
      rw [List.getElem?_zip_eq_some]
      exact ⟨List.getElem?_eq_getElem hl1, hq⟩
    rw [List.prod_eq_zero (List.mem_map.2 ⟨_, hmem, hzero _ _ _⟩)]
    simp

/-- **C122 (columns of models with invariants).**  The list has as many features as the design matrix has
columns.  As long as no product is cut off, column `k` is the sum over the atoms of the value of the
invariant that the list describes: the sum over the rows of its entry of the table of the products of the
expansion coefficients of the density of the neighbours, one for every listed pair of types; the column of a
product of features is the sum of the products of their values. -/
theorem C122_invariant_columns (n : ℕ) (neigh : Csr (ℕ × Vec K)) (htypes : ∀ i < n, types i < p.nType)
    (hneigh : ∀ i < n, ∀ e ∈ neigh.row i, e.1 < n) (hY : ∀ i < n, ∀ e ∈ neigh.row i, YOK p sqrt e.2)
    (hno : ∀ i < n, NoSkip p (types i) (anlmD p sqrt types i (neigh.row i)).a) :
    let a := attrsGt p
    let X := gtModelRun p sqrt types n neigh
    let A : ℕ → ℕ → ℕ → ℤ → ℕ → Cx K := fun i f l m tp =>
      Spec.pairSum a.pairs (fun d => decide (sqrt (r2 d) < p.cutoff)) types neigh.row i tp fun e =>
        Cx.smul (if p.rad f (sqrt (r2 e.2)) < p.tol then 0 else p.rad f (sqrt (r2 e.2)))
          (Spec.full (p.ylmV (sqrt (r2 e.2)) e.2) l m)
    let V : ℕ → ℕ × ℕ × List ℕ → K := fun i x =>
      Spec.invariantValue (A i x.1) (p.lComb.getD x.2.1 []) x.2.2 (rows x.2.1)
    let atoms := List.range n
    numFeatures a = nVariables p.params ∧
    (∀ (k : ℕ) (x : ℕ × ℕ × List ℕ), a.linear[k]? = some x → ∃ ls, p.lComb[x.2.1]? = some ls ∧
      X.xe k = (atoms.map fun i => Spec.invariantValue (A i x.1) ls x.2.2 (rows x.2.1)).sum) ∧
    ∀ (k : ℕ) (c : List ℕ), a.poly[k]? = some c → ∃ xs : List (ℕ × ℕ × List ℕ),
      c.map (fun g => a.linear[g]?) = xs.map some ∧
      X.xe (a.linear.length + k) = (atoms.map fun i => (xs.map (V i)).prod).sum := by
  intro a X A V' atoms
  let V : ℕ → ℕ → K := listedValue p sqrt types rows neigh.row
  have htab : Spec.TableOK p.maxl p.lComb p.lmArray p.lmCoeffs := fun id ls h => ⟨rows id, hrows id ls h⟩
  have hlen : a.linear.length = p.params.nLinear := by
    simp [a, attrsGt, GtParams.params, polyGtinv]
  have hnum : numFeatures a = nVariables p.params := by
    unfold numFeatures nVariables
    rw [hlen, show a.poly = polyIds p.params from rfl, polyIds, List.length_append]
    omega
  have hcol : ∀ (k : ℕ) (c : List ℕ), (columns p.params)[k]? = some c →
      X.xe k = (atoms.map fun i => (c.map (V i)).prod).sum := by
    intro k c hc
    rw [(gtModelRun_terms p sqrt types hcond htab n neigh hY k).1]
    refine sum_map_congr _ _ _ fun i hi => ?_
    have hi := List.mem_range.1 hi
    have hN : ∀ e ∈ neigh.row i, types e.1 < p.nType := fun e he => htypes _ (hneigh i hi e he)
    refine terms_single (gtpoly_terms p (types i))
      (fun e2 => (e2.map (FM p sqrt types i (neigh.row i))).prod) (fun c => (c.map (V i)).prod) ?_ hc ?_
    · intro e2 c h
      rw [factors_map _ e2 c h _ (V i) fun l g hl =>
        value_eq p sqrt types hcond rows hrows neigh.row i (htypes i hi) hN (hY i hi) (hno i hi) l g hl]
    · rintro ⟨g, hg, hng⟩
      exact List.prod_eq_zero (List.mem_map.2 ⟨g, hg,
        value_zero p sqrt types rows hrows neigh.row i g (htypes i hi) hN hng⟩)
  refine ⟨hnum, ?_, ?_⟩
  · intro k x hx
    have hk : k < p.params.nLinear := by rw [← hlen]; exact (List.getElem?_eq_some_iff.1 hx).1
    have h1 := hcol k [k] (columns_linear p.params hk)
    have hlc : ∃ ls, p.lComb[x.2.1]? = some ls := by
      have hm := List.mem_of_getElem? hx
      simp only [a, attrsGt, List.mem_map] at hm
      obtain ⟨lin, hlin, rfl⟩ := hm
      obtain ⟨ls, tps, hok⟩ := linear_mem p lin hlin
      exact ⟨ls, hok.hls⟩
    obtain ⟨ls, hls⟩ := hlc
    refine ⟨ls, hls, ?_⟩
    rw [h1]
    refine sum_map_congr _ _ _ fun i _ => ?_
    have hx' : (attrsGt p).linear[k]? = some x := hx
    simp only [List.map_cons, List.map_nil, List.prod_cons, List.prod_nil, mul_one, V, listedValue, hx',
      List.getD_eq_getElem?_getD, hls, Option.getD_some]
    rfl
  · intro k c hc
    have hc' : (columns p.params)[a.linear.length + k]? = some c := by
      rw [hlen, columns_poly]; exact hc
    have hlt : ∀ g ∈ c, g < a.linear.length := ?_
    · have hget : ∀ c : List ℕ, (∀ g ∈ c, g < a.linear.length) → ∃ xs : List (ℕ × ℕ × List ℕ),
          c.map (fun g => a.linear[g]?) = xs.map some ∧ ∀ i, (c.map (V i)).prod = (xs.map (V' i)).prod := by
        intro c
        induction c with
        | nil => intro _; exact ⟨[], rfl, fun i => rfl⟩
        | cons g c ih =>
          intro h
          obtain ⟨xs, h1, h2⟩ := ih fun g hg => h g (by simp [hg])
          have hg := List.getElem?_eq_getElem (h g (by simp))
          refine ⟨a.linear[g]'(h g (by simp)) :: xs, by rw [List.map_cons, List.map_cons, h1, hg], fun i => ?_⟩
          rw [List.map_cons, List.map_cons, List.prod_cons, List.prod_cons, h2 i]
          congr 1
          have hg' : (attrsGt p).linear[g]? = some (a.linear[g]'(h g (by simp))) := hg
          simp only [V, listedValue, hg']
          rfl
      obtain ⟨xs, h1, h2⟩ := hget c hlt
      refine ⟨xs, h1, ?_⟩
      rw [hcol _ c hc']
      exact sum_map_congr _ _ _ fun i _ => h2 i
    intro g hg
    have hE := (C27_gtinv (p.linear.map (·.type1)) (p.linear.map (·.order)) p.modelType p.maxp (type1_inc p)
      (by simp)).1
    rcases (hE.mem c).1 (List.mem_of_getElem? hc') with ⟨g', hg', rfl⟩ | ⟨-, -, -, -, h, -⟩
    · rw [List.mem_singleton] at hg
      subst hg
      simpa [a, attrsGt] using hg'
    · obtain ⟨o, ho, -⟩ := h g hg
      have := (List.getElem?_eq_some_iff.1 ho).1
      simpa [a, attrsGt] using this

end Values

/-! ## Example -/

/-- The rows of the table of the example. -/
def exRows (id : ℕ) : List (List ℤ × ℚ) :=
  if id = 0 then [([0], 1)] else [([-1, 1], -1), ([0, 0], 1), ([1, -1], -1)]

/-- The table of the example. -/
theorem exRows_ok : ∀ (id : ℕ) (ls : List ℕ), exGt.lComb[id]? = some ls →
    Spec.InvEntry exGt.maxl ls (exRows id) ∧
    exGt.lmArray[id]? = some ((exRows id).map fun r => List.zipWith Spec.lmIdx ls r.1) ∧
    exGt.lmCoeffs[id]? = some ((exRows id).map (·.2)) := by
  intro i ls h
  rcases i with _ | _ | i
  · obtain rfl : [0] = ls := Option.some.inj h
    exact ⟨⟨by decide, by decide, by decide, by decide, by decide, by decide, by decide +kernel⟩, rfl, rfl⟩
  · obtain rfl : [1, 1] = ls := Option.some.inj h
    exact ⟨⟨by decide, by decide, by decide, by decide, by decide, by decide, by decide +kernel⟩, rfl, rfl⟩
  · simp [exGt] at h

set_option maxRecDepth 100000 in
/-- Two types, ten invariants: the invariant of second order with the pairs 0 and 1 is listed once, although
the pairs can be assigned to the two factors in two ways. -/
example : (attrsGt exGt).linear = [(0, 0, [0]), (0, 0, [1]), (0, 0, [2]), (0, 1, [0, 0]), (0, 1, [0, 1]),
    (0, 1, [1, 1]), (0, 1, [1, 2]), (0, 1, [2, 2]), (1, 0, [1]), (1, 1, [1, 1])] := by decide +kernel

example : (∀ i j, (exGt.cond i j).Nodup) ∧ (∀ l ∈ exGt.lComb, l ≠ [] ∧ l.Pairwise (· ≤ ·)) := by
  refine ⟨fun i j => ?_, by decide +kernel⟩
  unfold exGt
  simp only
  split_ifs <;> decide

/-- A structure of two atoms for the example. -/
def exRow : Csr (ℕ × Vec ℚ) := mkCsr [[(1, ![1, 0, 0])], [(0, ![-1, 0, 0])]]

set_option maxRecDepth 100000 in
/-- The remaining hypotheses of `C122_invariant_columns`. -/
example : (∀ i < 2, (fun i : ℕ => i) i < exGt.nType) ∧ (∀ i < 2, ∀ e ∈ exRow.row i, e.1 < 2) ∧
    (∀ i < 2, ∀ e ∈ exRow.row i, YOK exGt (fun x => x) e.2) ∧
    ∀ i < 2, NoSkip exGt ((fun i : ℕ => i) i) (anlmD exGt (fun x => x) (fun i => i) i (exRow.row i)).a := by
  refine ⟨by decide, by decide +kernel, fun i _ e _ => ⟨exGt_rules _ _, exGt_rules _ _⟩, ?_⟩
  intro i hi
  left
  interval_cases i <;> decide +kernel

end Verif.FeatAttr
