import Verif.Lemmas.MlpGtRows
import Mathlib.Tactic.IntervalCases

/-!
# C59: evaluator and linear model with polynomial invariants
-/

namespace Verif.Mlp
open Verif
open Verif.Neighbor (Vec Csr r2 mkCsr neighborHalf neighborFull)

variable {K : Type} [Field K] [LinearOrder K]

/-! ## Terms of the polynomial -/

section Terms
variable (p : GtParams K) (t : ℕ)

theorem type1_inc : ∀ l ∈ p.linear.map (·.type1), l.Pairwise (· < ·) := by
  intro l hl
  rw [List.mem_map] at hl
  obtain ⟨lin, hlin, rfl⟩ := hl
  obtain ⟨ls, tps, h⟩ := linear_mem p lin hlin
  rw [h.types]
  exact List.pairwise_lt_range.filter _

theorem gtpoly_terms : Spec.TermsOf (GtinvExists (p.linear.map (·.type1)))
    (p.linear.map (·.type1)).length (columns p.params) t (p.params.comb1 t) (p.poly t) :=
  (C27_gtinv (p.linear.map (·.type1)) (p.linear.map (·.order)) p.modelType p.maxp (type1_inc p)
    (by simp)).2 t

theorem gtpoly_len (e : ℕ × List ℕ) (he : e ∈ p.poly t) :
    e.2.length = 1 ∨ e.2.length = 2 ∨ e.2.length = 3 :=
  terms_len (C27_gtinv (p.linear.map (·.type1)) (p.linear.map (·.order)) p.modelType p.maxp (type1_inc p)
    (by simp)).1 (gtpoly_terms p t) e he

theorem gtpoly_ne (e : ℕ × List ℕ) (he : e ∈ p.poly t) : e.2 ≠ [] := by
  intro h
  have := gtpoly_len p t e he
  rw [h] at this
  simp at this

theorem gtpoly_column (e : ℕ × List ℕ) (he : e ∈ p.poly t) : e.1 < nVariables p.params := by
  obtain ⟨c, hc, _⟩ := (gtpoly_terms p t).factors e he
  rw [← columns_length]
  exact (List.getElem?_eq_some_iff.1 hc).1

/-- Linear combination of the columns over the terms of all atoms. -/
theorem gtcolumns_sum (types : ℕ → ℕ) (n : ℕ) (c : ℕ → K) (f : ℕ → List ℕ → K) :
    ((List.range n).map fun i => ((p.poly (types i)).map fun t => c t.1 * f i t.2).sum).sum =
      ((List.range (nVariables p.params)).map fun k => c k *
        ((List.range n).map fun i =>
          ((p.poly (types i)).map fun t => if k = t.1 then f i t.2 else 0).sum).sum).sum := by
  have h1 : ∀ k, c k * ((List.range n).map fun i =>
      ((p.poly (types i)).map fun t => if k = t.1 then f i t.2 else 0).sum).sum =
      ((List.range n).map fun i => ((p.poly (types i)).map fun t =>
        if k = t.1 then c t.1 * f i t.2 else 0).sum).sum := by
    intro k
    rw [← sum_map_mul_left']
    refine sum_map_congr _ _ _ ?_
    intro i _
    rw [← sum_map_mul_left']
    refine sum_map_congr _ _ _ ?_
    intro t _
    split_ifs with h
    · rw [h]
    · rw [mul_zero]
  simp only [h1]
  rw [sum_map_comm]
  refine sum_map_congr _ _ _ ?_
  intro i _
  rw [sum_map_comm]
  refine sum_map_congr _ _ _ ?_
  intro t ht
  exact (sum_range_delta _ _ _ (gtpoly_column p (types i) t ht)).symm

end Terms

/-! ## Design matrix -/

section Run
variable (p : GtParams K) (sqrt : K → K) (types : ℕ → ℕ)
  (hcond : ∀ i j, (p.cond i j).Nodup) (htab : Spec.TableOK p.maxl p.lComb p.lmArray p.lmCoeffs)

/-- The derivative of the position of atom `q` in direction `x` of the features of an atom. -/
def DF (i : ℕ) (row : List (ℕ × Vec K)) (q : ℕ) (x : Fin 3) (f : ℕ) : K :=
  (row.map fun e => sgnAt q i e.1 * DM p sqrt types i row x e f).sum

/-- The virial of the features of an atom: second index `a`, first index `b`. -/
def DS (i : ℕ) (row : List (ℕ × Vec K)) (a b : Fin 3) (f : ℕ) : K :=
  (row.map fun e => -e.2 b * DM p sqrt types i row a e f).sum

theorem gtModelRun_proj {M : Type} [AddCommMonoid M] (n : ℕ) (neigh : Csr (ℕ × Vec K)) (f : XSum K → M)
    (g : ℕ → M) (h0 : f ⟨fun _ => 0, fun _ _ => 0, fun _ => 0⟩ = 0)
    (h : ∀ s, ∀ i < n, f (modelPolynomial (p.poly (types i)) s
        (localGtinvD p sqrt types i (neigh.row i))) = f s + g i) :
    f (gtModelRun p sqrt types n neigh) = ((List.range n).map g).sum := by
  unfold gtModelRun
  rw [foldl_proj (f := f) (g := g) _ _ (fun s i hi => h s i (List.mem_range.1 hi)), h0, zero_add]

include hcond htab in
/-- Rows of the design matrix, term by term. -/
theorem gtModelRun_terms (n : ℕ) (neigh : Csr (ℕ × Vec K))
    (hY : ∀ i < n, ∀ e ∈ neigh.row i, YOK p sqrt e.2) (k : ℕ) :
    (gtModelRun p sqrt types n neigh).xe k = ((List.range n).map fun i =>
      ((p.poly (types i)).map fun t =>
      if k = t.1 then (t.2.map (FM p sqrt types i (neigh.row i))).prod else 0).sum).sum ∧
    (∀ q x, (gtModelRun p sqrt types n neigh).xf k q x = ((List.range n).map fun i =>
      ((p.poly (types i)).map fun t =>
      if k = t.1 then termDeriv (FM p sqrt types i (neigh.row i))
        (DF p sqrt types i (neigh.row i) q x) t.2 else 0).sum).sum) ∧
    (∀ c6, (gtModelRun p sqrt types n neigh).xs k c6 = ((List.range n).map fun i =>
      ((p.poly (types i)).map fun t =>
      if k = t.1 then termDeriv (FM p sqrt types i (neigh.row i))
        (DS p sqrt types i (neigh.row i) (sixL c6).1 (sixL c6).2) t.2 else 0).sum).sum) := by
  have hdn := fun i (hi : i < n) => local_dn p sqrt types hcond htab i (neigh.row i) (hY i hi)
  have hdf : ∀ i q x, (fun l => (localGtinvD p sqrt types i (neigh.row i)).df l q x) =
      DF p sqrt types i (neigh.row i) q x := by
    intro i q x; funext l; exact local_df p sqrt types hcond htab i _ l q x
  have hds : ∀ i c, (fun l => (localGtinvD p sqrt types i (neigh.row i)).ds l c) =
      DS p sqrt types i (neigh.row i) (sixL c).1 (sixL c).2 := by
    intro i c; funext l; exact local_ds p sqrt types hcond htab i _ l c
  refine ⟨?_, ?_, ?_⟩
  · refine gtModelRun_proj p sqrt types n neigh (fun s => s.xe k) _ rfl ?_
    intro s i hi
    have h := (modelPolynomial_eq _ (fun t ht => gtpoly_len p (types i) t ht) s
      (localGtinvD p sqrt types i (neigh.row i)) k).1
    rw [hdn i hi] at h
    exact h
  · intro q x
    refine gtModelRun_proj p sqrt types n neigh (fun s => s.xf k q x) _ rfl ?_
    intro s i hi
    have h := (modelPolynomial_eq _ (fun t ht => gtpoly_len p (types i) t ht) s
      (localGtinvD p sqrt types i (neigh.row i)) k).2.1 q x
    rw [hdn i hi, hdf] at h
    exact h
  · intro c6
    refine gtModelRun_proj p sqrt types n neigh (fun s => s.xs k c6) _ rfl ?_
    intro s i hi
    have h := (modelPolynomial_eq _ (fun t ht => gtpoly_len p (types i) t ht) s
      (localGtinvD p sqrt types i (neigh.row i)) k).2.2 c6
    rw [hdn i hi, hds] at h
    exact h

theorem gt_termDeriv_sum {β : Type} (a : ℕ → K) (l : List β) (w : β → ℕ → K) (ids : List ℕ) :
    termDeriv a (fun k => (l.map fun b => w b k).sum) ids =
      (l.map fun b => termDeriv a (w b) ids).sum := by
  simp only [termDeriv_leib]
  exact leib_sum _ _ _ _

theorem gt_termDeriv_mul (a w : ℕ → K) (c : K) (ids : List ℕ) :
    termDeriv a (fun k => c * w k) ids = c * termDeriv a w ids := by
  simp only [termDeriv_leib]
  exact leib_mul _ _ _ _

theorem arrM_perm (i : ℕ) {row row' : List (ℕ × Vec K)} (h : row.Perm row') :
    arrM p sqrt types i row = arrM p sqrt types i row' := by
  funext k
  exact (h.map _).sum_eq

theorem FM_perm (i : ℕ) {row row' : List (ℕ × Vec K)} (h : row.Perm row') :
    FM p sqrt types i row = FM p sqrt types i row' := by
  unfold FM
  rw [arrM_perm p sqrt types i h]

theorem DM_perm (i : ℕ) {row row' : List (ℕ × Vec K)} (h : row.Perm row') :
    DM p sqrt types i row = DM p sqrt types i row' := by
  unfold DM
  rw [arrM_perm p sqrt types i h]

theorem DF_perm (i : ℕ) {row row' : List (ℕ × Vec K)} (h : row.Perm row') :
    DF p sqrt types i row = DF p sqrt types i row' := by
  funext q x f
  unfold DF
  rw [DM_perm p sqrt types i h]
  exact (h.map _).sum_eq

theorem DS_perm (i : ℕ) {row row' : List (ℕ × Vec K)} (h : row.Perm row') :
    DS p sqrt types i row = DS p sqrt types i row' := by
  funext a b f
  unfold DS
  rw [DM_perm p sqrt types i h]
  exact (h.map _).sum_eq

end Run

/-! ## Evaluator -/

section Eval
variable [CharZero K] (p : GtParams K) (sqrt : K → K) (types : ℕ → ℕ) (rows : List (List (ℕ × Vec K)))
  (hcond : ∀ i j, (p.cond i j).Nodup) (htab : Spec.TableOK p.maxl p.lComb p.lmArray p.lmCoeffs)

/-- One quantity of the evaluator on a half list, in terms of the full list. -/
theorem evalGt_proj (hrows : ∀ r ∈ rows, ∀ e ∈ r, e.1 < rows.length) (c : ℕ → K) (f : Props K → K)
    (g : ℕ → (ℕ × Vec K) × (K × Vec K) → K) (h0 : f ⟨0, fun _ => 0, 0⟩ = 0)
    (hg : ∀ s i e, f (collectStep p.cutoff sqrt i s e) = f s + g i e) (G : ℕ → ℕ → Vec K → K)
    (hG : ∀ i < rows.length, ∀ e ∈ rows[i]?.getD [],
      let N := fun i => (Neighbor.getFullList rows.length (mkCsr rows)).row i
      g i (e, gtEvalEntry p sqrt (fun i => (gtS p sqrt types c i (N i)).1)
        (fun i => (gtS p sqrt types c i (N i)).2) types i e) = G i e.1 e.2 + G e.1 i (-e.2)) :
    f (evalGtinv p sqrt (p.pot c) types rows.length (mkCsr rows)) =
      ((List.range rows.length).map fun i =>
        (((Neighbor.getFullList rows.length (mkCsr rows)).row i).map fun e => G i e.1 e.2).sum).sum := by
  have hrow : ∀ i < rows.length, (mkCsr rows).row i = rows[i]?.getD [] := by
    intro i hi
    rw [Neighbor.mkCsr_row rows i hi, List.getElem?_eq_getElem hi]
    rfl
  have hperm := fun i hi => ((Neighbor.C21_full_list rows hrows).2.2.1 i hi).2
  rw [sum_map_congr (List.range rows.length) _
    (fun i => ((Spec.completeRow rows i).map fun e => G i e.1 e.2).sum)
    (fun i hi => ((hperm i (List.mem_range.1 hi)).map _).sum_eq), half_sum rows hrows G]
  unfold evalGtinv
  simp only
  rw [collect_proj p.cutoff sqrt rows.length (mkCsr rows) _ f g h0 hg]
  refine sum_map_congr _ _ _ ?_
  intro i hi
  rw [zip_map_self, List.map_map, hrow i (List.mem_range.1 hi)]
  refine sum_map_congr _ _ _ ?_
  intro e he
  exact hG i (List.mem_range.1 hi) e he

theorem entry_cut {i : ℕ} {e : ℕ × Vec K} (pe pf : ℕ → ℕ → Cx K) (h : p.cutoff ≤ disOf sqrt e.2) :
    gtEvalEntry p sqrt pe pf types i e = (0, 0) := by
  unfold gtEvalEntry
  simp only [ge_iff_le]
  rw [if_pos (by rw [r2_neg]; exact h)]

theorem sgnAt_swap (q i j : ℕ) : (sgnAt q j i : K) = -sgnAt q i j := by
  unfold sgnAt
  ring

include hcond htab in
/-- Values of the evaluator on a half list, in terms of the full list. -/
theorem evalGt_rows (hrows : ∀ r ∈ rows, ∀ e ∈ r, e.1 < rows.length)
    (htypes : ∀ i < rows.length, types i < p.nType) (c : ℕ → K) :
    let N := fun i => (Neighbor.getFullList rows.length (mkCsr rows)).row i
    (∀ r ∈ rows, ∀ e ∈ r, YOK p sqrt e.2) → (∀ i < rows.length, ∀ e ∈ N i, YOK p sqrt e.2) →
    ((∀ i < rows.length, NoSkip p (types i) (arrM p sqrt types i (N i))) →
    (evalGtinv p sqrt (p.pot c) types rows.length (mkCsr rows)).energy =
      ((List.range rows.length).map fun i => ((p.poly (types i)).map fun t => c t.1 *
        (t.2.map (FM p sqrt types i (N i))).prod).sum).sum) ∧
    (∀ q x, (evalGtinv p sqrt (p.pot c) types rows.length (mkCsr rows)).forces q x =
      ((List.range rows.length).map fun i => ((p.poly (types i)).map fun t => c t.1 *
        termDeriv (FM p sqrt types i (N i)) (DF p sqrt types i (N i) q x) t.2).sum).sum) ∧
    (∀ c6, (evalGtinv p sqrt (p.pot c) types rows.length (mkCsr rows)).stress c6 =
      ((List.range rows.length).map fun i => ((p.poly (types i)).map fun t => c t.1 *
        termDeriv (FM p sqrt types i (N i))
          (DS p sqrt types i (N i) (sixL c6).2 (sixL c6).1) t.2).sum).sum) := by
  intro N hYr hYN
  have hmem : ∀ i : ℕ, ∀ e ∈ rows[i]?.getD [], e.1 < rows.length ∧ YOK p sqrt e.2 := by
    intro i e he
    cases hr : rows[i]? with
    | none => rw [hr] at he; simp at he
    | some r =>
      rw [hr] at he
      exact ⟨hrows r (List.mem_of_getElem? hr) e he, hYr r (List.mem_of_getElem? hr) e he⟩
  have hside : ∀ i < rows.length, ∀ x, ∀ e, YOK p sqrt e.2 →
      sideR p (types i) (gtS p sqrt types c i (N i)).2 (sgB (gV p sqrt types x i e)) = _ :=
    fun i hi x e he => side_force p sqrt types hcond htab i (N i) (hYN i hi) c x e he
  refine ⟨fun hno => ?_, fun q x => ?_, fun c6 => ?_⟩
  · rw [evalGt_proj p sqrt types rows hrows c (fun s => s.energy) _ rfl
      (fun s i e => collectStep_energy p.cutoff sqrt s i e)
      (fun i j d => sideR p (types i) (gtS p sqrt types c i (N i)).1 (sgB (gW p sqrt types i (j, d))))]
    · refine sum_map_congr _ _ _ ?_
      intro i hi
      have hi := List.mem_range.1 hi
      exact side_energy p sqrt types hcond htab i (N i) (hYN i hi) c (gtpoly_ne p (types i)) (hno i hi)
    · intro i hi e he
      obtain ⟨h1, h2⟩ := hmem i e he
      rw [← entry_energy p sqrt types (htypes i hi) (htypes _ h1) h2
        (fun i => (gtS p sqrt types c i (N i)).1) (fun i => (gtS p sqrt types c i (N i)).2)]
      by_cases hc : p.cutoff ≤ disOf sqrt e.2
      · simp only [if_pos hc]
        rw [entry_cut p sqrt types _ _ hc]
      · simp only [if_neg hc]
        rfl
  · rw [evalGt_proj p sqrt types rows hrows c (fun s => s.forces q x) _ rfl
      (fun s i e => collectStep_forces p.cutoff sqrt q x s i e)
      (fun i j d => sgnAt q i j *
        sideR p (types i) (gtS p sqrt types c i (N i)).2 (sgB (gV p sqrt types x i (j, d))))]
    · refine sum_map_congr _ _ _ ?_
      intro i hi
      have hi := List.mem_range.1 hi
      unfold DF
      simp only [gt_termDeriv_sum, gt_termDeriv_mul, ← List.sum_map_mul_left]
      rw [sum_map_comm]
      refine sum_map_congr _ _ _ ?_
      intro e he
      rw [hside i hi x e (hYN i hi e he), ← sum_map_mul_left']
      refine sum_map_congr _ _ _ ?_
      intro t _
      ring
    · intro i hi e he
      obtain ⟨h1, h2⟩ := hmem i e he
      have := entry_force p sqrt types (htypes i hi) (htypes _ h1) h2
        (fun i => (gtS p sqrt types c i (N i)).1) (fun i => (gtS p sqrt types c i (N i)).2) x
      rw [sgnAt_swap q i e.1, neg_mul, ← sub_eq_add_neg, ← mul_sub, ← this]
      by_cases hc : p.cutoff ≤ disOf sqrt e.2
      · simp only [if_pos hc]
        rw [entry_cut p sqrt types _ _ hc]
        simp
      · simp only [if_neg hc]
        unfold sgnAt
        simp only [N]
        generalize (gtEvalEntry p sqrt _ _ types i e).2 x = y
        by_cases hq : q = i
        · by_cases hq2 : q = e.1
          · simp only [if_pos hq, if_pos hq2]; ring
          · simp only [if_pos hq, if_neg hq2]; ring
        · by_cases hq2 : q = e.1
          · simp only [if_neg hq, if_pos hq2]; ring
          · simp only [if_neg hq, if_neg hq2]; ring
  · rw [evalGt_proj p sqrt types rows hrows c (fun s => s.stress c6) _ rfl
      (fun s i e => collectStep_stress p.cutoff sqrt c6 s i e)
      (fun i j d => -d (sixL c6).1 * sideR p (types i) (gtS p sqrt types c i (N i)).2
        (sgB (gV p sqrt types (sixL c6).2 i (j, d))))]
    · refine sum_map_congr _ _ _ ?_
      intro i hi
      have hi := List.mem_range.1 hi
      unfold DS
      simp only [gt_termDeriv_sum, gt_termDeriv_mul, ← List.sum_map_mul_left]
      rw [sum_map_comm]
      refine sum_map_congr _ _ _ ?_
      intro e he
      rw [hside i hi _ e (hYN i hi e he), ← sum_map_mul_left']
      refine sum_map_congr _ _ _ ?_
      intro t _
      ring
    · intro i hi e he
      obtain ⟨h1, h2⟩ := hmem i e he
      have := entry_force p sqrt types (htypes i hi) (htypes _ h1) h2
        (fun i => (gtS p sqrt types c i (N i)).1) (fun i => (gtS p sqrt types c i (N i)).2) (sixL c6).2
      have hn : -(-e.2) (sixL c6).1 = e.2 (sixL c6).1 := by simp
      simp only [hn]
      rw [neg_mul, neg_add_eq_sub, ← neg_sub, ← mul_sub, ← this]
      by_cases hc : p.cutoff ≤ disOf sqrt e.2
      · simp only [if_pos hc]
        rw [entry_cut p sqrt types _ _ hc]
        simp
      · simp only [if_neg hc]
        rw [six_eq, Pi.neg_apply, neg_mul]

/-- Every feature of every atom has a symmetric virial: the components `ab` and `ba` of the sum over the
neighbours of position times derivative agree. -/
def SymVirial (n : ℕ) (full : Csr (ℕ × Vec K)) : Prop :=
  ∀ i < n, ∀ a b f, DS p sqrt types i (full.row i) a b f = DS p sqrt types i (full.row i) b a f

include hcond htab in
/-- **C59 (any half list).**  For every table of invariants and all spherical harmonics that follow the
rules, the evaluator on a half list and the linear model on any list whose rows are the completed rows
agree: on the energy as long as no product is cut off, on the forces and on the normal components of the
stress always, and on the shear components if the virial of the features is symmetric. -/
theorem C59_rows (hrows : ∀ r ∈ rows, ∀ e ∈ r, e.1 < rows.length)
    (htypes : ∀ i < rows.length, types i < p.nType) (hY : ∀ r ∈ rows, ∀ e ∈ r, YOK p sqrt e.2)
    (full : Csr (ℕ × Vec K))
    (hfull : ∀ i < rows.length, (full.row i).Perm (Spec.completeRow rows i)) (c : ℕ → K) :
    let R := evalGtinv p sqrt (p.pot c) types rows.length (mkCsr rows)
    let X := gtModelRun p sqrt types rows.length full
    let cols := List.range (nVariables p.params)
    ((∀ i < rows.length, NoSkip p (types i) (anlmD p sqrt types i (full.row i)).a) →
      R.energy = (cols.map fun k => c k * X.xe k).sum) ∧
    (∀ q x, R.forces q x = (cols.map fun k => c k * X.xf k q x).sum) ∧
    (∀ c6 : Fin 6, c6 < 3 ∨ SymVirial p sqrt types rows.length full →
      R.stress c6 = (cols.map fun k => c k * X.xs k c6).sum) := by
  intro R X cols
  have hperm : ∀ i < rows.length,
      ((Neighbor.getFullList rows.length (mkCsr rows)).row i).Perm (full.row i) := fun i hi =>
    ((Neighbor.C21_full_list rows hrows).2.2.1 i hi).2.trans (hfull i hi).symm
  have hYc : ∀ i < rows.length, ∀ e ∈ Spec.completeRow rows i, YOK p sqrt e.2 := by
    intro i hi e he
    unfold Spec.completeRow at he
    rw [List.mem_append, List.mem_flatMap] at he
    have hget : ∀ (m : ℕ) (e : ℕ × Vec K), e ∈ rows[m]?.getD [] → YOK p sqrt e.2 := by
      intro m e he
      cases hr : rows[m]? with
      | none => rw [hr] at he; simp at he
      | some r => rw [hr] at he; exact hY r (List.mem_of_getElem? hr) e he
    rcases he with he | ⟨m, _, he⟩
    · exact hget i e he
    · rw [List.mem_filterMap] at he
      obtain ⟨e', he', h⟩ := he
      split_ifs at h
      rw [← Option.some.inj h]
      exact YOK_neg p sqrt (hget m e' he')
  have hYf : ∀ i < rows.length, ∀ e ∈ full.row i, YOK p sqrt e.2 := fun i hi e he =>
    hYc i hi e ((hfull i hi).mem_iff.1 he)
  have hYN : ∀ i < rows.length, ∀ e ∈ (Neighbor.getFullList rows.length (mkCsr rows)).row i,
      YOK p sqrt e.2 := fun i hi e he => hYf i hi e ((hperm i hi).mem_iff.1 he)
  obtain ⟨h1, h2, h3⟩ := evalGt_rows p sqrt types rows hcond htab hrows htypes c hY hYN
  have hX := fun k => gtModelRun_terms p sqrt types hcond htab rows.length full hYf k
  refine ⟨fun hno => ?_, fun q x => ?_, fun c6 hs => ?_⟩
  · have hno' : ∀ i < rows.length, NoSkip p (types i)
        (arrM p sqrt types i ((Neighbor.getFullList rows.length (mkCsr rows)).row i)) := by
      intro i hi
      rw [arrM_perm p sqrt types i (hperm i hi)]
      refine (noSkip_congr p hcond htab (types i) ?_).1 (hno i hi)
      exact anlmD_a p sqrt types i (full.row i)
    simp only [R, h1 hno', X, cols, (hX _).1]
    rw [← gtcolumns_sum p types rows.length c fun i ids =>
      (ids.map (FM p sqrt types i (full.row i))).prod]
    refine sum_map_congr _ _ _ ?_
    intro i hi
    rw [FM_perm p sqrt types i (hperm i (List.mem_range.1 hi))]
  · simp only [R, h2 q x, X, cols, (hX _).2.1 q x]
    rw [← gtcolumns_sum p types rows.length c fun i ids =>
      termDeriv (FM p sqrt types i (full.row i)) (DF p sqrt types i (full.row i) q x) ids]
    refine sum_map_congr _ _ _ ?_
    intro i hi
    rw [FM_perm p sqrt types i (hperm i (List.mem_range.1 hi)),
      DF_perm p sqrt types i (hperm i (List.mem_range.1 hi))]
  · simp only [R, h3 c6, X, cols, (hX _).2.2 c6]
    rw [← gtcolumns_sum p types rows.length c fun i ids =>
      termDeriv (FM p sqrt types i (full.row i))
        (DS p sqrt types i (full.row i) (sixL c6).1 (sixL c6).2) ids]
    refine sum_map_congr _ _ _ ?_
    intro i hi
    have hi := List.mem_range.1 hi
    rw [FM_perm p sqrt types i (hperm i hi), DS_perm p sqrt types i (hperm i hi)]
    have : DS p sqrt types i (full.row i) (sixL c6).2 (sixL c6).1 =
        DS p sqrt types i (full.row i) (sixL c6).1 (sixL c6).2 := by
      rcases hs with hs | hs
      · have : (sixL c6).2 = (sixL c6).1 := by
          fin_cases c6
          · rfl
          · rfl
          · rfl
          all_goals exact absurd hs (by decide)
        rw [this]
      · funext f
        exact hs i hi _ _ f
    rw [this]

include hcond htab in
/-- **C59.**  The same for every structure: the evaluator works on the half neighbour list, the linear
model on the full one. -/
theorem C59_fast_equals_linear [IsStrictOrderedRing K] (n : ℕ) (htypes : ∀ i < n, types i < p.nType)
    (hY : ∀ d : Vec K, 0 < r2 d → Spec.YlmRules p.maxl p.ylm p.ylmV p.ylmG (sqrt (r2 d)) d)
    (c : ℕ → K) (cutoff tol : K) (ht : 0 < tol) (trans : List (Vec K)) (pos : ℕ → Vec K)
    (hneg : (trans.map (fun t => -t)).Perm trans)
    (htol : ∀ t ∈ trans, tol * tol < r2 t → tol ≤ |t 0| ∨ tol ≤ |t 1| ∨ tol ≤ |t 2|) :
    let full := neighborFull cutoff tol trans pos n
    let R := evalGtinv p sqrt (p.pot c) types n (neighborHalf cutoff tol trans pos n)
    let X := gtModelRun p sqrt types n full
    let cols := List.range (nVariables p.params)
    ((∀ i < n, NoSkip p (types i) (anlmD p sqrt types i (full.row i)).a) →
      R.energy = (cols.map fun k => c k * X.xe k).sum) ∧
    (∀ q x, R.forces q x = (cols.map fun k => c k * X.xf k q x).sum) ∧
    (∀ c6 : Fin 6, c6 < 3 ∨ SymVirial p sqrt types n full →
      R.stress c6 = (cols.map fun k => c k * X.xs k c6).sum) := by
  have hlen : ((List.range n).map (Neighbor.halfRow cutoff tol trans pos)).length = n := by simp
  have hb : ∀ r ∈ (List.range n).map (Neighbor.halfRow cutoff tol trans pos), ∀ e ∈ r,
      e.1 < n ∧ 0 < r2 e.2 := by
    have hpos : ∀ d : Vec K, Neighbor.inRange cutoff tol d → 0 < r2 d := by
      intro d hd
      unfold Neighbor.inRange at hd
      simp only [Bool.and_eq_true, decide_eq_true_eq] at hd
      exact lt_trans (mul_pos ht ht) hd.2
    intro r hr e he
    simp only [List.mem_map, List.mem_range] at hr
    obtain ⟨m, hm, rfl⟩ := hr
    unfold Neighbor.halfRow at he
    rw [List.mem_append, List.mem_flatMap, List.mem_filterMap] at he
    rcases he with ⟨j, hj, he⟩ | ⟨t, _, he⟩
    · rw [List.mem_range] at hj
      unfold Neighbor.pairEntries at he
      rw [List.mem_filterMap] at he
      obtain ⟨t, _, he⟩ := he
      simp only at he
      split_ifs at he with hd
      rw [← Option.some.inj he]
      exact ⟨by show j < n; omega, hpos _ hd⟩
    · split_ifs at he with hd
      rw [← Option.some.inj he]
      exact ⟨hm, hpos _ hd⟩
  have hb1 : ∀ r ∈ (List.range n).map (Neighbor.halfRow cutoff tol trans pos), ∀ e ∈ r,
      e.1 < ((List.range n).map (Neighbor.halfRow cutoff tol trans pos)).length := by
    rw [hlen]
    exact fun r hr e he => (hb r hr e he).1
  have hperm : ∀ i < n, ((neighborFull cutoff tol trans pos n).row i).Perm
      (Spec.completeRow ((List.range n).map (Neighbor.halfRow cutoff tol trans pos)) i) := by
    intro i hi
    refine (Neighbor.C22_half_equals_full cutoff tol ht trans pos n hneg htol i hi).symm.trans ?_
    have := ((Neighbor.C21_full_list _ hb1).2.2.1 i (by rw [hlen]; exact hi)).2
    rw [hlen] at this
    exact this
  have main := C59_rows p sqrt types ((List.range n).map (Neighbor.halfRow cutoff tol trans pos)) hcond
    htab hb1 (by rw [hlen]; exact htypes)
    (fun r hr e he => ⟨hY e.2 (hb r hr e he).2, by
      have := hY (-e.2) (by rw [r2_neg]; exact (hb r hr e he).2)
      rw [r2_neg] at this
      exact this⟩) (neighborFull cutoff tol trans pos n)
    (by rw [hlen]; exact hperm) c
  rw [hlen] at main
  exact main

end Eval

/-! ## A concrete case

Two types, two radial functions, second order, two invariants (`l = 0` and `l = 1, 1`), harmonics
`1`, `x - iy`, `z`: four entries in the half list of the second atom. -/

/-- Harmonics of the example. -/
def exY (d : Vec ℚ) (k : ℕ) : Cx ℚ :=
  if k = 0 then 1 else if k = 1 then ⟨d 0, -d 1⟩ else ⟨d 2, 0⟩

/-- Gradients of the example. -/
def exG (k : ℕ) (x : Fin 3) : Cx ℚ :=
  if k = 0 then 0 else if k = 1 then ⟨if x = 0 then 1 else 0, if x = 1 then -1 else 0⟩
  else ⟨if x = 2 then 1 else 0, 0⟩

/-- Parameters of the example. -/
def exGt : GtParams ℚ where
  nType := 2
  nFn := 2
  maxl := 1
  cond := fun i j => if i = j then [0] else [0, 1]
  rad := fun n r => n + 1 + r
  radD := fun n r => n + 2 - r
  ylm := exY
  ylmV := fun _ => exY
  ylmG := fun _ _ => exG
  cutoff := 5
  tol := 1 / 100
  threshold := 100
  skip := 1 / 1000
  lComb := [[0], [1, 1]]
  lmArray := [[[0]], [[1, 3], [2, 2], [3, 1]]]
  lmCoeffs := [[1], [-1, 1, -1]]
  modelType := 2
  maxp := 2

theorem exGt_rules (r : ℚ) (d : Vec ℚ) : Spec.YlmRules 1 exY (fun _ => exY) (fun _ _ => exG) r d where
  value l hl k hk := rfl
  parity l hl k hk := by
    interval_cases l <;> interval_cases k <;> simp [Spec.halfIdx, exY, Cx.ext_iff]
  parityG l hl k hk x := by
    interval_cases l <;> interval_cases k <;> fin_cases x <;> simp [Spec.halfIdx, exG, Cx.ext_iff]
  real l hl := by
    interval_cases l <;> simp [Spec.halfIdx, exY]
  realG l hl x := by
    interval_cases l <;> fin_cases x <;> simp [Spec.halfIdx, exG]

theorem exGt_table : Spec.TableOK exGt.maxl exGt.lComb exGt.lmArray exGt.lmCoeffs := by
  intro i ls h
  rcases i with _ | _ | i
  · obtain rfl : [0] = ls := Option.some.inj h
    refine ⟨[([0], 1)], ⟨by decide, by decide, by decide, by decide, by decide, by decide, by decide +kernel⟩,
      rfl, rfl⟩
  · obtain rfl : [1, 1] = ls := Option.some.inj h
    refine ⟨[([-1, 1], -1), ([0, 0], 1), ([1, -1], -1)], ⟨by decide, by decide, by decide, by decide,
      by decide, by decide, by decide +kernel⟩, rfl, rfl⟩
  · simp [exGt] at h

set_option maxRecDepth 100000 in
example : (∀ i < 2, (fun i : ℕ => i) i < exGt.nType) ∧ (∀ i < 2, ∀ j < 2, (exGt.cond i j).Nodup) ∧
    (prodMap (exGt.featuresRep 0)).length ≤ exGt.threshold ∧
    (prodMap (exGt.featuresRep 1)).length ≤ exGt.threshold ∧
    exGt.linear.length = 10 ∧ nVariables exGt.params = 56 := by
  refine ⟨?_, ?_, ?_, ?_, ?_, ?_⟩ <;> decide +kernel

end Verif.Mlp
