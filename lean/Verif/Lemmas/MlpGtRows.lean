import Verif.Lemmas.MlpGtSide
import Verif.Props.MlpEval

namespace Verif.Mlp
open Verif
open Verif.Neighbor (Vec Csr r2 mkCsr)

variable {K : Type} [Field K] [LinearOrder K]

/-! ## Linearity -/

theorem termDeriv_leib (a w : ℕ → K) (ids : List ℕ) : termDeriv a w ids = leib a w ids :=
  (leib_eq a w ids).symm

theorem featD_sum {β : Type} (features : List (List (SingleTerm K))) (a : ℕ → Cx K) (l : List β)
    (w : β → ℕ → Cx K) (f : ℕ) : featD features a (fun k => (l.map fun b => w b k).sum) f =
      (l.map fun b => featD features a (w b) f).sum := by
  unfold featD
  rw [sum_map_comm]
  refine sum_map_congr _ _ _ ?_
  intro s _
  rw [leib_sum, re_sum, sum_map_mul_left']

theorem featD_mul (features : List (List (SingleTerm K))) (a w : ℕ → Cx K) (c : K) (f : ℕ) :
    featD features a (fun k => algebraMap K (Cx K) c * w k) f = c * featD features a w f := by
  unfold featD
  rw [← sum_map_mul_left']
  refine sum_map_congr _ _ _ ?_
  intro s _
  rw [leib_mul, re_algebraMap_mul]
  ring

theorem featD_congr (features : List (List (SingleTerm K))) (L : ℕ)
    (hlt : ∀ f, ∀ s ∈ features.getD f [], ∀ q ∈ s.2, q < L) {a a' w w' : ℕ → Cx K}
    (ha : ∀ k < L, a k = a' k) (hw : ∀ k < L, w k = w' k) (f : ℕ) :
    featD features a w f = featD features a' w' f := by
  unfold featD
  refine sum_map_congr _ _ _ ?_
  intro s hs
  rw [leib_congr (fun k hk => ha k (hlt f s hs k hk)) (fun k hk => hw k (hlt f s hs k hk))]

theorem featuresDeriv_eq (features : List (List (SingleTerm K))) (a : ℕ → Cx K) (ad : ℕ → ℕ → Cx K)
    (f j : ℕ) : featuresDeriv features a ad f j = featD features a (fun k => ad k j) f := by
  rw [C29_derivative]
  unfold featD
  refine sum_map_congr _ _ _ ?_
  intro s _
  rw [leib_eq, re_sum]
  congr 2
  refine List.map_congr_left ?_
  intro i _
  rw [mul_comm]

/-! ## Values of the features -/

theorem computeFeatures_congr (threshold : ℕ) (skip : K) (features : List (List (SingleTerm K)))
    (a a' : ℕ → Cx K) (h : ∀ f ∈ features, ∀ s ∈ f, ((s.2.map a).prod).re = ((s.2.map a').prod).re) :
    computeFeaturesGtinv threshold skip features a = computeFeaturesGtinv threshold skip features a' := by
  have h1 : ∀ ids ∈ prodMap features, productReal ids a = productReal ids a' := by
    intro ids hids
    unfold prodMap uniqKeys at hids
    rw [List.mem_insertionSort, List.mem_dedup, List.mem_flatMap] at hids
    obtain ⟨f, hf, hids⟩ := hids
    rw [List.mem_map] at hids
    obtain ⟨s, hs, rfl⟩ := hids
    rw [C29_product_real, C29_product_real, h f hf s hs]
  have h2 : ∀ i, productReal ((prodMap features).getD i []) a =
      productReal ((prodMap features).getD i []) a' := by
    intro i
    rw [List.getD_eq_getElem?_getD]
    cases hi : (prodMap features)[i]? with
    | none => rfl
    | some ids => exact h1 ids (List.mem_of_getElem? hi)
  unfold computeFeaturesGtinv
  simp only [h2]
  rw [List.map_congr_left h1]

variable (p : GtParams K) (sqrt : K → K) (types : ℕ → ℕ)
  (hcond : ∀ i j, (p.cond i j).Nodup) (htab : Spec.TableOK p.maxl p.lComb p.lmArray p.lmCoeffs)

include hcond htab in
/-- Products of the terms, of the conjugate representatives and with the signs of the parity. -/
theorem rep_prod (t f : ℕ) (a a' : ℕ → Cx K)
    (ha : ConjSym (p.attrs t).length (p.kap t) (p.mOf t) a)
    (ha' : ∀ k < (p.attrs t).length, a' k = algebraMap K (Cx K) (sgK p t k) * a k) :
    List.Forall₂ (fun s s' : SingleTerm K => s'.1 = s.1 ∧
      ((s'.2.map a).prod).re = ((s.2.map a).prod).re ∧
      ((s'.2.map a').prod).re = ((s'.2.map a).prod).re ∧ (s.2.map a').prod = (s.2.map a).prod)
      ((p.features t).getD f []) ((p.featuresRep t).getD f []) := by
  have hc := gt_chanSym p t
  have hS := gt_featSym p hcond htab t f
  have hE := gt_even p hcond htab t f
  have h := gt_reps p hcond htab t f
  have key : ∀ (l l' : List (SingleTerm K)), List.Forall₂ (fun s s' : SingleTerm K => s'.1 = s.1 ∧
      (s'.2.Perm s.2 ∨ s'.2.Perm (s.2.map (p.kap t)))) l l' →
      (∀ s ∈ l, (∀ q ∈ s.2, q < (p.attrs t).length) ∧ (s.2.map (p.mOf t)).sum = 0 ∧
        Even (s.2.map (p.lOf t)).sum) →
      List.Forall₂ (fun s s' : SingleTerm K => s'.1 = s.1 ∧
      ((s'.2.map a).prod).re = ((s.2.map a).prod).re ∧
      ((s'.2.map a').prod).re = ((s'.2.map a).prod).re ∧ (s.2.map a').prod = (s.2.map a).prod) l l' := by
    intro l l' h
    induction h with
    | nil => intro _; exact .nil
    | @cons s s' l l' h1 _ ih =>
      intro hl
      refine .cons ?_ (ih fun s hs => hl s (by simp [hs]))
      obtain ⟨hlt, hsum, hev⟩ := hl s (by simp)
      have hsg : ∀ ids : List ℕ, (∀ q ∈ ids, q < (p.attrs t).length) → Even (ids.map (p.lOf t)).sum →
          (ids.map a').prod = (ids.map a).prod := by
        intro ids hlt hev
        rw [List.map_congr_left (g := fun k => algebraMap K (Cx K) (sgK p t k) * a k)
          (fun k hk => ha' k (hlt k hk)), List.prod_map_mul]
        have : (ids.map fun k => algebraMap K (Cx K) (sgK p t k)).prod =
            algebraMap K (Cx K) ((-1) ^ (ids.map (p.lOf t)).sum) := by
          clear hlt hev
          induction ids with
          | nil => simp
          | cons x l ih =>
            rw [List.map_cons, List.prod_cons, ih, List.map_cons, List.sum_cons, pow_add, map_mul, sgK]
        rw [this, hev.neg_one_pow, map_one, one_mul]
      have hconj : ((s.2.map (p.kap t)).map a).prod = Cx.conj ((s.2.map a).prod) := by
        have h3 : ((s.2.map (p.kap t)).map a) =
            s.2.map fun k => algebraMap K (Cx K) (ccOf (p.mOf t k)) * Cx.conj (a k) := by
          rw [List.map_map]
          exact List.map_congr_left fun k hk => ha k (hlt k hk)
        rw [h3, List.prod_map_mul, ccOf_prod, hsum, ccOf_zero, map_one, one_mul,
          ← conjHom_apply, map_list_prod, List.map_map]
        rfl
      have hlt2 : ∀ q ∈ s.2.map (p.kap t), q < (p.attrs t).length := by
        intro q hq
        rw [List.mem_map] at hq
        obtain ⟨k, hk, rfl⟩ := hq
        exact hc.lt k (hlt k hk)
      have hev2 : Even ((s.2.map (p.kap t)).map (p.lOf t)).sum := by
        rw [List.map_map]
        rw [List.map_congr_left (f := p.lOf t ∘ p.kap t) (g := p.lOf t)
          (fun k hk => lOf_kap p t (hlt k hk))]
        exact hev
      refine ⟨h1.1, ?_, ?_, hsg _ hlt hev⟩
      · rcases h1.2 with h2 | h2
        · rw [(h2.map a).prod_eq]
        · rw [(h2.map a).prod_eq, hconj, Cx.conj_re]
      · rcases h1.2 with h2 | h2
        · rw [(h2.map a').prod_eq, (h2.map a).prod_eq, hsg _ hlt hev]
        · rw [(h2.map a').prod_eq, (h2.map a).prod_eq, hsg _ hlt2 hev2]
  exact key _ _ h fun s hs => ⟨hS.lt s hs, hS.sum s hs, hE s hs⟩

/-- No product is cut off: there are at most `threshold` products, or every product is zero or larger
than `skip`. -/
def NoSkip (t : ℕ) (a : ℕ → Cx K) : Prop :=
  (prodMap (p.featuresRep t)).length ≤ p.threshold ∨
    ∀ f ∈ p.featuresRep t, ∀ s ∈ f, ((s.2.map a).prod).re = 0 ∨ p.skip < |((s.2.map a).prod).re|

include hcond htab in
theorem rep_lt (t : ℕ) : ∀ f ∈ p.featuresRep t, ∀ s ∈ f, ∀ q ∈ s.2, q < (p.attrs t).length := by
  intro f hf s hs
  obtain ⟨j, hj⟩ := List.mem_iff_getElem?.1 hf
  have hr := gt_reps p hcond htab t j
  have hF := gt_featSym p hcond htab t j
  have hc := gt_chanSym p t
  have e1 : (p.featuresRep t).getD j [] = f := by rw [List.getD_eq_getElem?_getD, hj]; rfl
  rw [e1] at hr
  have hl := hF.lt
  generalize (p.features t).getD j [] = l at hr hl
  clear hf hj e1 hF
  induction hr with
  | nil => simp at hs
  | @cons s0 s1 l l' h _ ih =>
    rcases List.mem_cons.1 hs with rfl | hs
    · intro q hq
      rcases h.2 with h2 | h2
      · exact hl s0 (by simp) q (h2.mem_iff.1 hq)
      · have := h2.mem_iff.1 hq
        rw [List.mem_map] at this
        obtain ⟨k, hk, rfl⟩ := this
        exact hc.lt k (hl s0 (by simp) k hk)
    · exact ih hs fun s hs => hl s (by simp [hs])

include hcond htab in
theorem noSkip_congr (t : ℕ) {a a' : ℕ → Cx K} (h : ∀ k < (p.attrs t).length, a k = a' k) :
    NoSkip p t a ↔ NoSkip p t a' := by
  unfold NoSkip
  refine or_congr Iff.rfl ?_
  refine forall₄_congr fun f hf s hs => ?_
  rw [List.map_congr_left (f := a) (g := a') fun k hk => h k (rep_lt p hcond htab t f hf s hs k hk)]

include hcond htab in
theorem rep_exact (t : ℕ) (a : ℕ → Cx K) (ha : ConjSym (p.attrs t).length (p.kap t) (p.mOf t) a)
    (hno : NoSkip p t a) (f : ℕ) :
    computeFeaturesGtinv p.threshold p.skip (p.featuresRep t) a f = featV (p.features t) a f := by
  have h1 : computeFeaturesGtinv p.threshold p.skip (p.featuresRep t) a f =
      (((p.featuresRep t).getD f []).map fun s => s.1 * ((s.2.map a).prod).re).sum := by
    by_cases hle : (prodMap (p.featuresRep t)).length ≤ p.threshold
    · exact C29_layout2 _ _ _ _ hle f
    · rw [C29_layout1 _ _ _ _ (not_le.1 hle)]
      refine sum_map_congr _ _ _ ?_
      intro s hs
      rcases hno with h | h
      · exact absurd h hle
      · have hf : (p.featuresRep t).getD f [] ∈ p.featuresRep t := by
          rw [List.getD_eq_getElem?_getD] at hs ⊢
          cases hq : (p.featuresRep t)[f]? with
          | none => rw [hq] at hs; simp at hs
          | some x => exact List.mem_of_getElem? hq
        unfold truncated
        rcases h _ hf s hs with h2 | h2
        · rw [h2]; simp
        · rw [if_pos h2]
  have hr := rep_prod p hcond htab t f a (fun k => algebraMap K (Cx K) (sgK p t k) * a k) ha
    (fun _ _ => rfl)
  rw [h1]
  unfold featV
  generalize (p.features t).getD f [] = l at hr
  generalize (p.featuresRep t).getD f [] = l' at hr
  induction hr with
  | nil => rfl
  | cons h _ ih => rw [List.map_cons, List.map_cons, List.sum_cons, List.sum_cons, ih, h.1, h.2.1]

include hcond htab in
theorem rep_parity (t : ℕ) (a a' : ℕ → Cx K)
    (ha : ConjSym (p.attrs t).length (p.kap t) (p.mOf t) a)
    (ha' : ∀ k < (p.attrs t).length, a' k = algebraMap K (Cx K) (sgK p t k) * a k) :
    computeFeaturesGtinv p.threshold p.skip (p.featuresRep t) a' =
      computeFeaturesGtinv p.threshold p.skip (p.featuresRep t) a := by
  refine computeFeatures_congr _ _ _ _ _ ?_
  intro f hf s hs
  obtain ⟨j, hj⟩ := List.mem_iff_getElem?.1 hf
  have hr := rep_prod p hcond htab t j a a' ha ha'
  have : (p.featuresRep t).getD j [] = f := by rw [List.getD_eq_getElem?_getD, hj]; rfl
  rw [this] at hr
  generalize (p.features t).getD j [] = l at hr
  clear hf hj this
  induction hr with
  | nil => simp at hs
  | cons h _ ih =>
    rcases List.mem_cons.1 hs with rfl | hs
    · exact h.2.2.1
    · exact ih hs

include hcond htab in
theorem featD_parity (t : ℕ) (a a' w w' : ℕ → Cx K)
    (ha' : ∀ k < (p.attrs t).length, a' k = algebraMap K (Cx K) (sgK p t k) * a k)
    (hw' : ∀ k < (p.attrs t).length, w' k = algebraMap K (Cx K) (sgK p t k) * w k) (f : ℕ) :
    featD (p.features t) a' w' f = featD (p.features t) a w f := by
  have hS := fun f => gt_featSym p hcond htab t f
  have hE := gt_even p hcond htab t f
  rw [featD_congr _ _ (fun f => (hS f).lt) ha' hw']
  unfold featD
  refine sum_map_congr _ _ _ ?_
  intro s hs
  rw [leib_scale (fun k => algebraMap K (Cx K) (sgK p t k))]
  have : ∀ ids : List ℕ, (ids.map fun k => algebraMap K (Cx K) (sgK p t k)).prod =
      algebraMap K (Cx K) ((-1) ^ (ids.map (p.lOf t)).sum) := by
    intro ids
    induction ids with
    | nil => simp
    | cons x l ih =>
      rw [List.map_cons, List.prod_cons, ih, List.map_cons, List.sum_cons, pow_add, map_mul, sgK]
  rw [this, (hE s hs).neg_one_pow, map_one, one_mul]

/-! ## Atoms -/

/-- The values of the features of an atom. -/
def FM (i : ℕ) (row : List (ℕ × Vec K)) : ℕ → K :=
  computeFeaturesGtinv p.threshold p.skip (p.featuresRep (types i)) (arrM p sqrt types i row)

/-- The derivatives of the features of an atom by one entry. -/
def DM (i : ℕ) (row : List (ℕ × Vec K)) (x : Fin 3) (e : ℕ × Vec K) (f : ℕ) : K :=
  featD (p.features (types i)) (arrM p sqrt types i row)
    (extK p (types i) (atK p (types i) (gV p sqrt types x i e))) f

include hcond htab in
theorem local_dn (i : ℕ) (row : List (ℕ × Vec K)) (h : ∀ e ∈ row, YOK p sqrt e.2) :
    (localGtinvD p sqrt types i row).dn = FM p sqrt types i row := by
  have hS := arrM_sym p sqrt types i row h
  unfold localGtinvD FM
  simp only
  refine computeFeatures_congr _ _ _ _ _ ?_
  intro f hf s hs
  have hlt := rep_lt p hcond htab (types i) f hf s hs
  rw [List.map_congr_left (f := (anlmD p sqrt types i row).a) (g := arrM p sqrt types i row)
    (fun k hk => anlmD_a p sqrt types i row k (hlt k hk))]

include hcond htab in
theorem local_df (i : ℕ) (row : List (ℕ × Vec K)) (f q : ℕ) (x : Fin 3) :
    (localGtinvD p sqrt types i row).df f q x =
      (row.map fun e => sgnAt q i e.1 * DM p sqrt types i row x e f).sum := by
  unfold localGtinvD
  simp only
  rw [featuresDeriv_eq, featD_congr _ _ (fun f => (gt_featSym p hcond htab (types i) f).lt)
    (anlmD_a p sqrt types i row) (anlmD_df p sqrt types i row q x), featD_sum]
  refine sum_map_congr _ _ _ ?_
  intro e _
  rw [featD_mul]
  rfl

/-- The first and the second index of a stress component of the linear model. -/
def sixL : Fin 6 → Fin 3 × Fin 3 := ![(0, 0), (1, 1), (2, 2), (0, 1), (1, 2), (2, 0)]

theorem sixC_eq (u : Fin 3 → Cx K) (v : Vec K) (c : Fin 6) :
    sixC u v c = Cx.smul (v (sixL c).2) (u (sixL c).1) := by
  fin_cases c <;> rfl

theorem six_eq (u v : Fin 3 → K) (c : Fin 6) : six u v c = u (sixL c).1 * v (sixL c).2 := by
  fin_cases c <;> rfl

include hcond htab in
theorem local_ds (i : ℕ) (row : List (ℕ × Vec K)) (f : ℕ) (c : Fin 6) :
    (localGtinvD p sqrt types i row).ds f c =
      (row.map fun e => -e.2 (sixL c).2 * DM p sqrt types i row (sixL c).1 e f).sum := by
  unfold localGtinvD
  simp only
  rw [featuresDeriv_eq, featD_congr _ _ (fun f => (gt_featSym p hcond htab (types i) f).lt)
    (anlmD_a p sqrt types i row) (anlmD_ds p sqrt types i row c), featD_sum]
  refine sum_map_congr _ _ _ ?_
  intro e _
  unfold DM
  rw [← featD_mul]
  refine featD_congr _ _ (fun f => (gt_featSym p hcond htab (types i) f).lt) (fun _ _ => rfl) ?_ f
  intro k hk
  rw [← extK_scale p (types i) (fun _ => -e.2 (sixL c).2) (fun _ _ => rfl) _ k hk]
  refine extK_congr p (types i) ?_ k hk
  intro k hk _
  have ha := List.getElem?_eq_getElem hk
  rw [atK_of_get p ha, atK_of_get p ha, sixC_eq, smul_eq_mul, map_neg, neg_mul]

/-! ## Sums of the evaluator -/

section Sums
variable [CharZero K]

/-- The sums of products of an atom of the evaluator. -/
def gtS (c : ℕ → K) (i : ℕ) (row : List (ℕ × Vec K)) : (ℕ → Cx K) × (ℕ → Cx K) :=
  (p.pot c (types i)).sumGtinv (products (prodFeaturesMap (p.pot c (types i)).poly)
      (computeFeaturesGtinv p.threshold p.skip (p.featuresRep (types i)) (arrE p sqrt types i row)))
      (arrE p sqrt types i row)

theorem sgB_iloc {t : ℕ} (g : NlmAttr → Cx K) {b : NlmAttr} (hb : b ∈ p.noconj t) :
    extK p t (atK p t g) b.iloc = g b := by
  obtain ⟨h1, h2⟩ := (mem_noconj p).1 hb
  unfold extK
  rw [mOf_of_get p h1, if_pos h2, atK_of_get p h1]

include hcond htab in
theorem gtS_FM (i : ℕ) (row : List (ℕ × Vec K)) (h : ∀ e ∈ row, YOK p sqrt e.2) :
    computeFeaturesGtinv p.threshold p.skip (p.featuresRep (types i)) (arrE p sqrt types i row) =
      FM p sqrt types i row :=
  rep_parity p hcond htab (types i) _ _ (arrM_sym p sqrt types i row h) (arrE_eq p sqrt types i row h)

include hcond htab in
theorem side_force (i : ℕ) (row : List (ℕ × Vec K)) (h : ∀ e ∈ row, YOK p sqrt e.2) (c : ℕ → K)
    (x : Fin 3) (e : ℕ × Vec K) (he : YOK p sqrt e.2) :
    sideR p (types i) (gtS p sqrt types c i row).2 (sgB (gV p sqrt types x i e)) =
    ((p.poly (types i)).map fun t => c t.1 *
      termDeriv (FM p sqrt types i row) (DM p sqrt types i row x e) t.2).sum := by
  have hsym : ConjSym (p.attrs (types i)).length (p.kap (types i)) (p.mOf (types i))
      (extK p (types i) (atK p (types i) (sgB (gV p sqrt types x i e)))) := by
    refine extK_sym p _ ?_
    intro b hb hm
    have := gV_real p sqrt types x (i := i) he hb hm
    unfold sgB
    rw [← smul_eq_mul, Cx.smul_im, this, mul_zero]
  have := gt_contract_force (gt_chanSym p (types i)) (p.features (types i)) (p.poly (types i))
    (gt_featSym p hcond htab (types i)) (arrE p sqrt types i row) _ (arrE_sym p sqrt types i row h) hsym
    (FM p sqrt types i row) c (p.noconj (types i)) (gt_noconj_m p) (gt_count p (types i))
    (p.isConj (types i)) (p.target (types i)) (p.noconj (types i)).length (gt_target p (types i))
  rw [← gt_pot] at this
  unfold sideR gtS
  rw [gtS_FM p sqrt types hcond htab i row h]
  refine Eq.trans ?_ (this.trans ?_)
  · refine sum_map_congr _ _ _ ?_
    intro b hb
    rw [sgB_iloc p _ hb]
    rfl
  · refine sum_map_congr _ _ _ ?_
    intro t _
    congr 2
    funext f
    exact featD_parity p hcond htab (types i) _ _ _ _ (arrE_eq p sqrt types i row h)
      (extK_sgB p (types i) (gV p sqrt types x i e)) f

theorem sideR_sum {β : Type} (t : ℕ) (P : ℕ → Cx K) (l : List β) (g : β → NlmAttr → Cx K) :
    sideR p t P (fun b => (l.map fun e => g e b).sum) = (l.map fun e => sideR p t P (g e)).sum := by
  unfold sideR
  rw [sum_map_comm]
  refine sum_map_congr _ _ _ ?_
  intro b _
  beta_reduce
  induction l with
  | nil => simp [prodReal]
  | cons e l ih =>
    rw [List.map_cons, List.map_cons, List.sum_cons, List.sum_cons, ← ih]
    simp only [prodReal, Cx.add_re, Cx.add_im]
    ring

include hcond htab in
theorem side_energy (i : ℕ) (row : List (ℕ × Vec K)) (h : ∀ e ∈ row, YOK p sqrt e.2) (c : ℕ → K)
    (hne : ∀ t ∈ p.poly (types i), t.2 ≠ []) (hno : NoSkip p (types i) (arrM p sqrt types i row)) :
    (row.map fun e => sideR p (types i) (gtS p sqrt types c i row).1 (sgB (gW p sqrt types i e))).sum =
    ((p.poly (types i)).map fun t => c t.1 * (t.2.map (FM p sqrt types i row)).prod).sum := by
  have hF : ∀ f, FM p sqrt types i row f = featV (p.features (types i)) (arrE p sqrt types i row) f := by
    intro f
    unfold FM
    rw [rep_exact p hcond htab (types i) _ (arrM_sym p sqrt types i row h) hno]
    unfold featV
    have hr := rep_prod p hcond htab (types i) f _ _ (arrM_sym p sqrt types i row h)
      (arrE_eq p sqrt types i row h)
    generalize (p.features (types i)).getD f [] = l at hr ⊢
    generalize (p.featuresRep (types i)).getD f [] = l' at hr
    induction hr with
    | nil => rfl
    | cons h _ ih => rw [List.map_cons, List.map_cons, List.sum_cons, List.sum_cons, ih, h.2.2.2]
  have := gt_contract_energy (gt_chanSym p (types i)) (p.features (types i)) (p.poly (types i))
    (gt_featSym p hcond htab (types i)) (arrE p sqrt types i row) (arrE_sym p sqrt types i row h)
    (FM p sqrt types i row) c (p.noconj (types i)) (gt_noconj_m p) (gt_count p (types i))
    (p.isConj (types i)) (p.target (types i)) (p.noconj (types i)).length (gt_target p (types i))
    hF hne (gt_size p hcond htab (types i))
  rw [← gt_pot] at this
  rw [← sideR_sum, ← this]
  unfold sideR gtS
  rw [gtS_FM p sqrt types hcond htab i row h]
  refine sum_map_congr _ _ _ ?_
  intro b hb
  have hk : b.iloc < (p.attrs (types i)).length := (List.getElem?_eq_some_iff.1 ((mem_noconj p).1 hb).1).1
  rw [arrE_eq p sqrt types i row h _ hk]
  congr 1
  unfold arrM
  rw [← List.sum_map_mul_left]
  refine sum_map_congr _ _ _ ?_
  intro e _
  rw [← extK_sgB p (types i) _ _ hk, sgB_iloc p _ hb]

end Sums

end Verif.Mlp
