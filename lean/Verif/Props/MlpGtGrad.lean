import Verif.Props.MlpGtRot
import Verif.Props.MlpGrad
import Verif.Spec.Rotate
import Mathlib.Analysis.Calculus.Deriv.Star
import Mathlib.Analysis.Complex.RealDeriv

/-!
# C62: forces and stress of models with invariants are derivatives of the energy;
C63: the energy does not change under rotations
-/

namespace Verif.Mlp
open Verif Real
open Verif.Neighbor (Vec Csr r2 mkCsr neighborHalf neighborFull fullRow pairEntries inRange)

/-! ## Derivatives of complex lists -/

theorem toC_zero : toC 0 = 0 := rfl

theorem toC_one : toC 1 = 1 := rfl

theorem toC_sum {α : Type} (l : List α) (f : α → Cx ℝ) :
    toC (l.map f).sum = (l.map fun a => toC (f a)).sum := by
  induction l with
  | nil => rfl
  | cons a l ih => rw [List.map_cons, List.sum_cons, toC_add, ih, List.map_cons, List.sum_cons]

theorem hasDerivAt_cxSum {α : Type} (l : List α) (f : α → ℝ → Cx ℝ) (f' : α → Cx ℝ) (x : ℝ)
    (h : ∀ a ∈ l, HasDerivAt (fun s => toC (f a s)) (toC (f' a)) x) :
    HasDerivAt (fun s => toC (l.map fun a => f a s).sum) (toC (l.map f').sum) x := by
  induction l with
  | nil => simpa [toC_zero] using hasDerivAt_const x (toC 0)
  | cons a l ih =>
    simp only [List.map_cons, List.sum_cons, toC_add]
    exact (h a (List.mem_cons_self ..)).add (ih fun b hb => h b (List.mem_cons_of_mem _ hb))

theorem hasDerivAt_cxProd (ids : List ℕ) (A : ℝ → ℕ → Cx ℝ) (W : ℕ → Cx ℝ) (x : ℝ)
    (h : ∀ k ∈ ids, HasDerivAt (fun s => toC (A s k)) (toC (W k)) x) :
    HasDerivAt (fun s => toC ((ids.map (A s)).prod)) (toC (leib (A x) W ids)) x := by
  induction ids with
  | nil => simpa [leib, toC_zero] using hasDerivAt_const x (toC 1)
  | cons a l ih =>
    simp only [List.map_cons, List.prod_cons, leib, toC_add, toC_mul]
    exact (h a (List.mem_cons_self ..)).mul (ih fun b hb => h b (List.mem_cons_of_mem _ hb))

theorem hasDerivAt_cxRe {f : ℝ → Cx ℝ} {f' : Cx ℝ} {x : ℝ} (h : HasDerivAt (fun s => toC (f s)) (toC f') x) :
    HasDerivAt (fun s => (f s).re) f'.re x :=
  Complex.reCLM.hasFDerivAt.comp_hasDerivAt x h

theorem featV_hasDeriv (features : List (List (SingleTerm ℝ))) (A : ℝ → ℕ → Cx ℝ) (W : ℕ → Cx ℝ) (x : ℝ)
    (f : ℕ) (h : ∀ s ∈ features.getD f [], ∀ k ∈ s.2, HasDerivAt (fun s => toC (A s k)) (toC (W k)) x) :
    HasDerivAt (fun s => featV features (A s) f) (featD features (A x) W f) x := by
  unfold featV featD
  refine hasDerivAt_listSum _ _ _ _ ?_
  intro s hs
  exact (hasDerivAt_cxRe (hasDerivAt_cxProd s.2 A W x (h s hs))).const_mul s.1

section
variable (p : GtParams ℝ) (types : ℕ → ℕ)

theorem ext_hasDeriv (t : ℕ) (g : ℝ → NlmAttr → Cx ℝ) (w : NlmAttr → Cx ℝ) (x : ℝ)
    (h : ∀ b ∈ p.noconj t, HasDerivAt (fun s => toC (g s b)) (toC (w b)) x) :
    ∀ k < (p.attrs t).length, HasDerivAt (fun s => toC (extK p t (atK p t (g s)) k))
      (toC (extK p t (atK p t w) k)) x := by
  have key : ∀ k < (p.attrs t).length, p.mOf t k ≤ 0 →
      HasDerivAt (fun s => toC (atK p t (g s) k)) (toC (atK p t w k)) x := by
    intro k hk hm
    have ha := List.getElem?_eq_getElem hk
    rw [mOf_of_get p ha] at hm
    simp only [atK_of_get p ha]
    refine h _ ((mem_noconj p).2 ⟨?_, hm⟩)
    rw [gt_iloc p t k _ ha]; exact ha
  intro k hk
  have hc := gt_chanSym p t
  unfold extK
  by_cases hm : p.mOf t k ≤ 0
  · simp only [if_pos hm]
    exact key k hk hm
  · simp only [if_neg hm, toC_mul, toC_conj]
    refine HasDerivAt.const_mul _ ?_
    have := key (p.kap t k) (hc.lt k hk) (by rw [hc.neg k hk]; omega)
    exact this.star

/-- A sum over a row of the full list. -/
theorem sum_fullRow {M : Type} [AddCommMonoid M] (cutoff tol : ℝ) (trans : List (Vec ℝ)) (pos : ℕ → Vec ℝ)
    (n i : ℕ) (g : ℕ × Vec ℝ → M) :
    ((fullRow cutoff tol trans pos n i).map g).sum =
      ((List.range n).map fun j => (trans.map fun t =>
        if inRange cutoff tol (pos j - pos i + t) then g (j, pos j - pos i + t) else 0).sum).sum := by
  unfold fullRow
  rw [sum_flatMap]
  refine sum_map_congr _ _ _ ?_
  intro j _
  unfold pairEntries
  rw [sum_filterMap]
  refine sum_map_congr _ _ _ ?_
  intro t _
  simp only
  split_ifs <;> rfl

theorem extK_zero (t k : ℕ) : extK p t (atK p t fun _ => 0) k = 0 := by
  have h : ∀ k, atK p t (fun _ => (0 : Cx ℝ)) k = 0 := by
    intro k
    unfold atK
    cases (p.attrs t)[k]? <;> rfl
  unfold extK
  rw [h, h]
  split_ifs
  · rfl
  · ext <;> simp

/-- The contribution of an entry, zero beyond the range of the list. -/
noncomputable def gIn (cutoff tol : ℝ) (i j : ℕ) (d : Vec ℝ) (b : NlmAttr) : Cx ℝ :=
  if inRange cutoff tol d then gW p Real.sqrt types i (j, d) b else 0

/-- The rate of change of the contribution of an entry that moves with velocity `v`. -/
noncomputable def gVel (v : Vec ℝ) (i : ℕ) (e : ℕ × Vec ℝ) (b : NlmAttr) : Cx ℝ :=
  Cx.smul (v 0) (gV p Real.sqrt types 0 i e b) + Cx.smul (v 1) (gV p Real.sqrt types 1 i e b) +
    Cx.smul (v 2) (gV p Real.sqrt types 2 i e b)

/-- The same, zero beyond the range of the list. -/
noncomputable def gInV (cutoff tol : ℝ) (v : Vec ℝ) (i j : ℕ) (d : Vec ℝ) (b : NlmAttr) : Cx ℝ :=
  if inRange cutoff tol d then gVel p types v i (j, d) b else 0

/-- The rate of change of a feature of an atom. -/
noncomputable def DV (i : ℕ) (row : List (ℕ × Vec ℝ)) (v : ℕ → Vec ℝ → Vec ℝ) (f : ℕ) : ℝ :=
  (row.map fun e => v e.1 e.2 0 * DM p Real.sqrt types i row 0 e f +
    v e.1 e.2 1 * DM p Real.sqrt types i row 1 e f + v e.1 e.2 2 * DM p Real.sqrt types i row 2 e f).sum

theorem extK_vel (v : Vec ℝ) (i : ℕ) (e : ℕ × Vec ℝ) (t k : ℕ) :
    extK p t (atK p t (gVel p types v i e)) k =
      algebraMap ℝ (Cx ℝ) (v 0) * extK p t (atK p t (gV p Real.sqrt types 0 i e)) k +
      algebraMap ℝ (Cx ℝ) (v 1) * extK p t (atK p t (gV p Real.sqrt types 1 i e)) k +
      algebraMap ℝ (Cx ℝ) (v 2) * extK p t (atK p t (gV p Real.sqrt types 2 i e)) k := by
  have hat : ∀ k, atK p t (gVel p types v i e) k =
      algebraMap ℝ (Cx ℝ) (v 0) * atK p t (gV p Real.sqrt types 0 i e) k +
      algebraMap ℝ (Cx ℝ) (v 1) * atK p t (gV p Real.sqrt types 1 i e) k +
      algebraMap ℝ (Cx ℝ) (v 2) * atK p t (gV p Real.sqrt types 2 i e) k := by
    intro k
    unfold atK gVel
    cases (p.attrs t)[k]? with
    | none => simp
    | some c =>
      simp only [Option.map_some, Option.getD_some]
      rw [smul_eq_mul, smul_eq_mul, smul_eq_mul]
  unfold extK
  split_ifs with hm
  · exact hat k
  · rw [hat]
    ext <;> simp only [Cx.mul_re, Cx.mul_im, Cx.add_re, Cx.add_im, Cx.conj_re, Cx.conj_im,
      algebraMap_cx] <;> ring

variable (hcond : ∀ i j, (p.cond i j).Nodup) (htab : Spec.TableOK p.maxl p.lComb p.lmArray p.lmCoeffs)
include hcond htab

/-- Derivative of a feature along a change of positions and translations. -/
theorem feat_deriv (cutoff tol : ℝ) (trans : List (Vec ℝ)) (T : ℝ → Vec ℝ → Vec ℝ) (P : ℝ → ℕ → Vec ℝ)
    (v : ℕ → Vec ℝ → Vec ℝ) (n i : ℕ) (τ : ℝ)
    (hentry : ∀ j < n, ∀ t ∈ trans, ∀ b ∈ p.noconj (types i),
      HasDerivAt (fun s => toC (gIn p types cutoff tol i j (P s j - P s i + T s t) b))
        (toC (gInV p types cutoff tol (v j (P τ j - P τ i + T τ t)) i j (P τ j - P τ i + T τ t) b)) τ)
    (f : ℕ) :
    HasDerivAt (fun s => featV (p.features (types i))
        (arrM p Real.sqrt types i (fullRow cutoff tol (trans.map (T s)) (P s) n i)) f)
      (DV p types i (fullRow cutoff tol (trans.map (T τ)) (P τ) n i) v f) τ := by
  have hlt := (gt_featSym p hcond htab (types i) f).lt
  have hD : DV p types i (fullRow cutoff tol (trans.map (T τ)) (P τ) n i) v f =
      featD (p.features (types i)) (arrM p Real.sqrt types i (fullRow cutoff tol (trans.map (T τ)) (P τ) n i))
        (fun k => ((fullRow cutoff tol (trans.map (T τ)) (P τ) n i).map fun e =>
          extK p (types i) (atK p (types i) (gVel p types (v e.1 e.2) i e)) k).sum) f := by
    rw [featD_sum]
    unfold DV
    refine sum_map_congr _ _ _ ?_
    intro e _
    have hfun : extK p (types i) (atK p (types i) (gVel p types (v e.1 e.2) i e)) = _ :=
      funext fun k => extK_vel p types (v e.1 e.2) i e (types i) k
    rw [hfun, featD_re, featC_add, featC_add, Cx.add_re, Cx.add_re, ← featD_re, ← featD_re, ← featD_re,
      featD_mul, featD_mul, featD_mul]
    rfl
  rw [hD]
  refine featV_hasDeriv _ _ _ τ f ?_
  intro s hs k hk
  have hk := hlt s hs k hk
  have e1 : ∀ s, arrM p Real.sqrt types i (fullRow cutoff tol (trans.map (T s)) (P s) n i) k =
      ((List.range n).map fun j => (trans.map fun t => extK p (types i) (atK p (types i)
        (gIn p types cutoff tol i j (P s j - P s i + T s t))) k).sum).sum := by
    intro s
    unfold arrM
    rw [sum_fullRow]
    refine sum_map_congr _ _ _ ?_
    intro j _
    rw [List.map_map]
    refine sum_map_congr _ _ _ ?_
    intro t _
    simp only [Function.comp]
    by_cases h : inRange cutoff tol (P s j - P s i + T s t) = true
    · rw [if_pos h]
      congr 2
      funext b
      unfold gIn
      rw [if_pos h]
    · rw [if_neg h]
      rw [show gIn p types cutoff tol i j (P s j - P s i + T s t) = fun _ => 0 from funext fun b => by
        unfold gIn; rw [if_neg h], extK_zero]
  have e2 : ((fullRow cutoff tol (trans.map (T τ)) (P τ) n i).map fun e =>
          extK p (types i) (atK p (types i) (gVel p types (v e.1 e.2) i e)) k).sum =
      ((List.range n).map fun j => (trans.map fun t => extK p (types i) (atK p (types i)
        (gInV p types cutoff tol (v j (P τ j - P τ i + T τ t)) i j (P τ j - P τ i + T τ t))) k).sum).sum := by
    rw [sum_fullRow]
    refine sum_map_congr _ _ _ ?_
    intro j _
    rw [List.map_map]
    refine sum_map_congr _ _ _ ?_
    intro t _
    simp only [Function.comp]
    by_cases h : inRange cutoff tol (P τ j - P τ i + T τ t) = true
    · rw [if_pos h]
      congr 2
      funext b
      unfold gInV
      rw [if_pos h]
    · rw [if_neg h]
      rw [show gInV p types cutoff tol (v j (P τ j - P τ i + T τ t)) i j (P τ j - P τ i + T τ t) = fun _ => 0
        from funext fun b => by unfold gInV; rw [if_neg h], extK_zero]
  simp only [e1, e2]
  refine hasDerivAt_cxSum _ _ _ _ ?_
  intro j hj
  refine hasDerivAt_cxSum trans _ _ _ ?_
  intro t ht
  exact ext_hasDeriv p (types i) _ _ τ (hentry j (List.mem_range.1 hj) t ht) k hk

end

/-! ## Entries -/

section Entry
variable (p : GtParams ℝ) (hp : UsesProgramYlm p) (types : ℕ → ℕ)

/-- The radial function of an attribute. -/
theorem noconj_n {t : ℕ} {b : NlmAttr} (hb : b ∈ p.noconj t) : b.n < p.nFn ∧
    ∀ (rad : ℕ → ℝ → ℝ) (r : ℝ), fnAt rad (p.maps.tp.tpN.getD b.tp []) r b.nId = rad b.n r := by
  obtain ⟨h, -⟩ := (mem_noconj p).1 hb
  have hid := nId_of_get p h
  have h' : ((nlmConjIds (nlmLocal (setTypePairs p.nType p.cond)
      (nlmGlobal (setTypePairs p.nType p.cond) p.nFn p.maxl).attrs)).attrs t)[b.iloc]? = some b := h
  unfold nlmConjIds at h'
  simp only at h'
  rw [List.getElem?_map, Option.map_eq_some_iff] at h'
  obtain ⟨a', ha', rfl⟩ := h'
  obtain ⟨c, hc, hbare, -⟩ := mem_nlm_gid (nlmInv _ _) (List.mem_of_getElem? ha')
  obtain ⟨g, hg⟩ := List.mem_iff_getElem?.1 hc
  obtain ⟨-, hinv, -⟩ := nlmFold_inv (setTypePairs p.nType p.cond)
    (nlmIter (setTypePairs p.nType p.cond) p.nFn p.maxl)
  obtain ⟨q, hq, hA⟩ := hinv g c hg
  have e2 := congrArg NlmAttr.n hbare
  have e3 := congrArg NlmAttr.tp hbare
  simp only [nbare] at e2 e3
  have hmem := List.mem_of_getElem? hq
  unfold nlmIter at hmem
  rw [List.mem_flatMap] at hmem
  obtain ⟨n, hn, hmem⟩ := hmem
  rw [List.mem_flatMap] at hmem
  obtain ⟨e, -, hmem⟩ := hmem
  rw [List.mem_map] at hmem
  obtain ⟨tp, htp, rfl⟩ := hmem
  have en : a'.n = n := by rw [← e2, hA.n]
  have et : a'.tp = tp := by rw [← e3, hA.tp]
  rw [mem_nToTp] at htp
  obtain ⟨ns, h1, h2⟩ := htp
  refine ⟨?_, ?_⟩
  · show a'.n < p.nFn
    rw [en]; exact List.mem_range.1 hn
  · intro rad r
    rw [hid]
    show fnAt rad (p.maps.tp.tpN.getD a'.tp []) r (nIdTable (p.maps.tp.tpN.getD a'.tp []) a'.n) = rad a'.n r
    refine fnAt_nId rad _ _ ?_ r
    rw [et, en]
    show n ∈ (setTypePairs p.nType p.cond).tpN.getD tp []
    rw [List.getD_eq_getElem?_getD, h1]
    exact h2

include hp

theorem ylm_curve (D : ℝ → Vec ℝ) (v : Vec ℝ) (τ : ℝ) (hd : ∀ x, HasDerivAt (fun s => D s x) (v x) τ)
    (h : 0 < r2 (D τ)) {t : ℕ} {b : NlmAttr} (hb : b ∈ p.noconj t) :
    HasDerivAt (fun s => toC (p.ylmV (√(r2 (D s))) (D s) b.lm.ylmKey.toNat))
      (toC (p.ylmG (√(r2 (D τ))) (D τ) b.lm.ylmKey.toNat 0) * v 0 +
        toC (p.ylmG (√(r2 (D τ))) (D τ) b.lm.ylmKey.toNat 1) * v 1 +
        toC (p.ylmG (√(r2 (D τ))) (D τ) b.lm.ylmKey.toNat 2) * v 2) τ := by
  obtain ⟨h1, h2, -, h4, -⟩ := noconj_lm p hb
  rw [h4]
  have hcont : ContinuousAt (fun s => r2 (D s)) τ := by
    have : ∀ x, ContinuousAt (fun s => D s x) τ := fun x => (hd x).continuousAt
    unfold r2
    exact (((this 0).mul (this 0)).add ((this 1).mul (this 1))).add ((this 2).mul (this 2))
  have hev : (fun s => toC (p.ylmV (√(r2 (D s))) (D s) (Spec.halfIdx b.lm.l b.lm.m.natAbs))) =ᶠ[nhds τ]
      fun s => toC (getYlm p.maxl (D s 0) (D s 1) (D s 2) (lm2iNeg b.lm.l b.lm.m.natAbs)) := by
    filter_upwards [hcont.eventually (lt_mem_nhds h)] with s hs
    rw [(real_rules p hp (D s) hs).1.value _ h1 _ h2, hp.ylm, halfIdx_eq h2]
    rfl
  have := C60_derivative p.maxl (fun s => D s 0) (fun s => D s 1) (fun s => D s 2) τ (v 0) (v 1) (v 2)
    (hd 0) (hd 1) (hd 2) h b.lm.l b.lm.m.natAbs h2 h1
  refine (this.congr_of_eventuallyEq hev).congr_deriv ?_
  rw [hp.ylmG, halfIdx_eq h2]
  rfl

omit hp in
theorem toC_gVel (v : Vec ℝ) (i : ℕ) (e : ℕ × Vec ℝ) (b : NlmAttr) (h : ActE p Real.sqrt types i e b) :
    toC (gVel p types v i e b) =
      ((fnDE p Real.sqrt types i e b * ((e.2 0 * v 0 + e.2 1 * v 1 + e.2 2 * v 2) / √(r2 e.2)) : ℝ) : ℂ) *
        toC (p.ylmV (√(r2 e.2)) e.2 b.lm.ylmKey.toNat) +
      ((fnE p Real.sqrt types i e b : ℝ) : ℂ) *
        (toC (p.ylmG (√(r2 e.2)) e.2 b.lm.ylmKey.toNat 0) * v 0 +
        toC (p.ylmG (√(r2 e.2)) e.2 b.lm.ylmKey.toNat 1) * v 1 +
        toC (p.ylmG (√(r2 e.2)) e.2 b.lm.ylmKey.toNat 2) * v 2) := by
  unfold gVel gV
  simp only [if_pos h, toC_add, toC_smul]
  push_cast
  ring

omit hp in
theorem gVel_not (v : Vec ℝ) (i : ℕ) (e : ℕ × Vec ℝ) (b : NlmAttr) (h : ¬ActE p Real.sqrt types i e b) :
    gVel p types v i e b = 0 := by
  unfold gVel gV
  simp only [if_neg h]
  ext <;> simp

/-- The contribution of a moving entry. -/
theorem entry_deriv (hrad : ∀ n r, HasDerivAt (p.rad n) (p.radD n r) r)
    (hbeyond : ∀ n r, p.cutoff ≤ r → p.rad n r = 0) (hcut : 0 < p.cutoff) (hptol : 0 < p.tol)
    (tol : ℝ) (i j : ℕ) (D : ℝ → Vec ℝ) (v : Vec ℝ) (τ : ℝ)
    (hd : ∀ x, HasDerivAt (fun s => D s x) (v x) τ)
    (hcase : (∀ s, D s = 0) ∨ tol * tol < r2 (D τ))
    (hgen : ∀ m < p.nFn, p.rad m (√(r2 (D τ))) ≠ p.tol) {t : ℕ} {b : NlmAttr} (hb : b ∈ p.noconj t) :
    HasDerivAt (fun s => toC (gIn p types p.cutoff tol i j (D s) b))
      (toC (gInV p types p.cutoff tol v i j (D τ) b)) τ := by
  have hnn : 0 ≤ tol * tol := mul_self_nonneg tol
  rcases hcase with h | h
  · have hr : ∀ s, inRange p.cutoff tol (D s) = false := by
      intro s
      rw [h s]
      unfold inRange r2
      simp only [Pi.zero_apply, mul_zero, add_zero, gt_iff_lt, Bool.and_eq_false_iff,
        decide_eq_false_iff_not, not_lt]
      exact Or.inr hnn
    unfold gIn gInV
    simp only [hr, Bool.false_eq_true, if_false]
    exact hasDerivAt_const _ _
  · have hpos : 0 < r2 (D τ) := lt_of_le_of_lt hnn h
    have hdis : HasDerivAt (fun s => √(r2 (D s)))
        ((D τ 0 * v 0 + D τ 1 * v 1 + D τ 2 * v 2) / √(r2 (D τ))) τ := by
      have h1 : HasDerivAt (fun s => r2 (D s)) (2 * (D τ 0 * v 0 + D τ 1 * v 1 + D τ 2 * v 2)) τ := by
        unfold r2
        refine ((((hd 0).mul (hd 0)).add ((hd 1).mul (hd 1))).add ((hd 2).mul (hd 2))).congr_deriv ?_
        ring
      refine (h1.sqrt hpos.ne').congr_deriv ?_
      field_simp
    have hcont : ContinuousAt (fun s => r2 (D s)) τ := by
      have : ∀ x, ContinuousAt (fun s => D s x) τ := fun x => (hd x).continuousAt
      unfold r2
      exact (((this 0).mul (this 0)).add ((this 1).mul (this 1))).add ((this 2).mul (this 2))
    by_cases htp : p.maps.tp.typePairs (types i) (types j) = b.tp
    swap
    · have hna : ∀ d, ¬ActE p Real.sqrt types i (j, d) b := fun d ha => htp ha.2.1
      have h0 : ∀ d, gIn p types p.cutoff tol i j d b = 0 := by
        intro d
        unfold gIn gW
        rw [if_neg (hna d)]
        split_ifs <;> rfl
      have h1 : gInV p types p.cutoff tol v i j (D τ) b = 0 := by
        unfold gInV
        rw [gVel_not p types v i _ b (hna _)]
        split_ifs <;> rfl
      simp only [h0, h1]
      exact hasDerivAt_const _ _
    obtain ⟨hbn, hfn⟩ := noconj_n p hb
    have hF : ∀ d, fnE p Real.sqrt types i (j, d) b = p.rad b.n (√(r2 d)) := by
      intro d
      unfold fnE tpE
      rw [htp]
      exact hfn p.rad _
    have hFD : ∀ d, fnDE p Real.sqrt types i (j, d) b = p.radD b.n (√(r2 d)) := by
      intro d
      unfold fnDE tpE
      rw [htp]
      exact hfn p.radD _
    have hcomp := (hrad b.n (√(r2 (D τ)))).comp τ hdis
    rcases lt_or_gt_of_ne (hgen b.n hbn) with hlt | hgt
    · have hna : ∀ d, p.rad b.n (√(r2 d)) < p.tol → ¬ActE p Real.sqrt types i (j, d) b := by
        intro d hd ha
        have := ha.2.2
        rw [hF] at this
        exact this hd
      have h1 : gInV p types p.cutoff tol v i j (D τ) b = 0 := by
        unfold gInV
        rw [gVel_not p types v i _ b (hna _ hlt)]
        split_ifs <;> rfl
      rw [h1]
      refine (hasDerivAt_const τ (toC 0)).congr_of_eventuallyEq ?_
      filter_upwards [hcomp.continuousAt.eventually (gt_mem_nhds hlt)] with s hs
      unfold gIn gW
      rw [if_neg (hna _ hs)]
      split_ifs <;> rfl
    · have hact : ∀ d, tol * tol < r2 d → p.tol < p.rad b.n (√(r2 d)) →
          inRange p.cutoff tol d = true ∧ ActE p Real.sqrt types i (j, d) b := by
        intro d h1 h2
        have hlt : √(r2 d) < p.cutoff := by
          by_contra hcon
          rw [hbeyond b.n _ (not_lt.1 hcon)] at h2
          exact absurd h2 (not_lt.2 hptol.le)
        refine ⟨?_, not_le.2 hlt, htp, ?_⟩
        · unfold inRange
          have h3 : r2 d < p.cutoff * p.cutoff := by
            rw [← sq]
            exact (Real.sqrt_lt' hcut).1 hlt
          simp [h3, h1]
        · rw [hF]; exact not_lt.2 h2.le
      obtain ⟨ha1, ha2⟩ := hact _ h hgt
      have hval : (fun s => toC (gIn p types p.cutoff tol i j (D s) b)) =ᶠ[nhds τ]
          fun s => ((p.rad b.n (√(r2 (D s))) : ℝ) : ℂ) *
            toC (p.ylmV (√(r2 (D s))) (D s) b.lm.ylmKey.toNat) := by
        filter_upwards [hcomp.continuousAt.eventually (lt_mem_nhds hgt),
          hcont.eventually (lt_mem_nhds h)] with s h1 h2
        obtain ⟨g1, g2⟩ := hact _ h2 h1
        unfold gIn gW
        rw [if_pos g1, if_pos g2, toC_smul, hF]
      have hprod := hcomp.ofReal_comp.mul (ylm_curve p hp D v τ hd hpos hb)
      refine (hprod.congr_of_eventuallyEq hval).congr_deriv ?_
      unfold gInV
      rw [if_pos ha1, toC_gVel p types v i _ b ha2, hF, hFD]
      simp only [Function.comp]

end Entry

/-! ## Columns of the design matrix -/

theorem gt_termDeriv_add (a w w' : ℕ → ℝ) (ids : List ℕ) :
    termDeriv a (fun k => w k + w' k) ids = termDeriv a w ids + termDeriv a w' ids := by
  have := gt_termDeriv_sum a [w, w'] (fun b k => b k) ids
  simpa using this

/-- The radial functions of the program. -/
structure UsesProgramRad (p : GtParams ℝ) (params : ℕ → ℝ × ℝ) : Prop where
  rad : p.rad = getFn params p.cutoff
  radD : p.radD = fun n r => (getFnD params p.cutoff n r).2

section Columns
variable (p : GtParams ℝ) (hp : UsesProgramYlm p) (types : ℕ → ℕ)
  (hcond : ∀ i j, (p.cond i j).Nodup) (htab : Spec.TableOK p.maxl p.lComb p.lmArray p.lmCoeffs)
include hp hcond htab

omit hcond htab in
theorem yok_full (cutoff tol : ℝ) (ht : 0 < tol) (trans : List (Vec ℝ)) (pos : ℕ → Vec ℝ) (n : ℕ) :
    ∀ i < n, ∀ e ∈ (neighborFull cutoff tol trans pos n).row i, YOK p Real.sqrt e.2 := by
  intro i hi e he
  have h := (full_pos cutoff tol ht trans pos n i hi e he).2.1
  refine ⟨(real_rules p hp e.2 h).1, ?_⟩
  have := (real_rules p hp (-e.2) (by rw [r2_neg]; exact h)).1
  rw [r2_neg] at this
  exact this

omit hp hcond htab in
theorem full_row (cutoff tol : ℝ) (trans : List (Vec ℝ)) (pos : ℕ → Vec ℝ) (n i : ℕ) (hi : i < n) :
    (neighborFull cutoff tol trans pos n).row i = fullRow cutoff tol trans pos n i := by
  rw [neighborFull, Neighbor.mkCsr_row _ _ (by simpa using hi)]
  simp

/-- The features are exact if no product is dropped. -/
theorem FM_exact (cutoff tol : ℝ) (ht : 0 < tol) (trans : List (Vec ℝ)) (pos : ℕ → Vec ℝ) (n i : ℕ)
    (hi : i < n) (hno : NoSkip p (types i)
      (anlmD p Real.sqrt types i ((neighborFull cutoff tol trans pos n).row i)).a) :
    FM p Real.sqrt types i ((neighborFull cutoff tol trans pos n).row i) =
      featV (p.features (types i)) (arrM p Real.sqrt types i (fullRow cutoff tol trans pos n i)) := by
  funext f
  have hY := yok_full p hp cutoff tol ht trans pos n i hi
  rw [noSkip_congr p hcond htab (types i) (anlmD_a p Real.sqrt types i _)] at hno
  unfold FM
  rw [rep_exact p hcond htab (types i) _ (arrM_sym p Real.sqrt types i _ hY) hno,
    full_row cutoff tol trans pos n i hi]

/-- Derivative of a column of energies. -/
theorem column_deriv (cutoff tol : ℝ) (ht : 0 < tol) (trans : List (Vec ℝ)) (T : ℝ → Vec ℝ → Vec ℝ)
    (P : ℝ → ℕ → Vec ℝ) (v : ℕ → ℕ → Vec ℝ → Vec ℝ) (n : ℕ) (τ : ℝ)
    (hentry : ∀ i < n, ∀ j < n, ∀ t ∈ trans, ∀ b ∈ p.noconj (types i),
      HasDerivAt (fun s => toC (gIn p types cutoff tol i j (P s j - P s i + T s t) b))
        (toC (gInV p types cutoff tol (v i j (P τ j - P τ i + T τ t)) i j (P τ j - P τ i + T τ t) b)) τ)
    (hno : ∀ᶠ s in nhds τ, ∀ i < n, NoSkip p (types i) (anlmD p Real.sqrt types i
      ((neighborFull cutoff tol (trans.map (T s)) (P s) n).row i)).a) (k : ℕ) :
    HasDerivAt (fun s => (gtModelRun p Real.sqrt types n
        (neighborFull cutoff tol (trans.map (T s)) (P s) n)).xe k)
      ((List.range n).map fun i => ((p.poly (types i)).map fun t =>
        if k = t.1 then termDeriv (FM p Real.sqrt types i
            ((neighborFull cutoff tol (trans.map (T τ)) (P τ) n).row i))
          (DV p types i ((neighborFull cutoff tol (trans.map (T τ)) (P τ) n).row i) (v i)) t.2
        else 0).sum).sum τ := by
  have hE : (fun s => (gtModelRun p Real.sqrt types n
        (neighborFull cutoff tol (trans.map (T s)) (P s) n)).xe k) =ᶠ[nhds τ] fun s =>
      ((List.range n).map fun i => ((p.poly (types i)).map fun t =>
        if k = t.1 then (t.2.map (featV (p.features (types i)) (arrM p Real.sqrt types i
          (fullRow cutoff tol (trans.map (T s)) (P s) n i)))).prod else 0).sum).sum := by
    filter_upwards [hno] with s hs
    rw [(gtModelRun_terms p Real.sqrt types hcond htab n _
      (yok_full p hp cutoff tol ht _ (P s) n) k).1]
    refine sum_map_congr _ _ _ ?_
    intro i hi
    rw [List.mem_range] at hi
    rw [FM_exact p hp types hcond htab cutoff tol ht _ (P s) n i hi (hs i hi)]
  refine HasDerivAt.congr_of_eventuallyEq ?_ hE
  refine hasDerivAt_listSum _ _ _ _ ?_
  intro i hi
  rw [List.mem_range] at hi
  refine hasDerivAt_listSum _ _ _ _ ?_
  intro t _
  rw [FM_exact p hp types hcond htab cutoff tol ht _ (P τ) n i hi (hno.self_of_nhds i hi),
    full_row cutoff tol _ (P τ) n i hi]
  split_ifs with hk
  · exact hasDerivAt_listProd t.2 (fun s => featV (p.features (types i)) (arrM p Real.sqrt types i
      (fullRow cutoff tol (trans.map (T s)) (P s) n i))) _ τ
      (feat_deriv p types hcond htab cutoff tol trans T P (v i) n i τ (hentry i hi))
  · exact hasDerivAt_const _ _

end Columns

/-! ## C62 -/

section Derivatives
variable (p : GtParams ℝ) (hp : UsesProgramYlm p) (params : ℕ → ℝ × ℝ) (hrad : UsesProgramRad p params)
  (hcut : 0 < p.cutoff) (hptol : 0 < p.tol) (types : ℕ → ℕ)
  (hcond : ∀ i j, (p.cond i j).Nodup) (htab : Spec.RotTable ladderF p.maxl p.lComb p.lmArray p.lmCoeffs)
include hp hrad hcut hptol hcond htab

omit hp hptol hcond htab in
theorem rad_rules : (∀ n r, HasDerivAt (p.rad n) (p.radD n r) r) ∧
    ∀ n r, p.cutoff ≤ r → p.rad n r = 0 := by
  rw [hrad.rad, hrad.radD]
  exact ⟨fun n r => C57_radial params p.cutoff hcut n r,
    fun n r h => (getFn_beyond params p.cutoff n r h).1⟩

/-- No radial function is exactly at the threshold below which contributions are dropped. -/
def OffThreshold (p : GtParams ℝ) (trans : List (Vec ℝ)) (pos : ℕ → Vec ℝ) (n : ℕ) : Prop :=
  ∀ i < n, ∀ j < n, ∀ t ∈ trans, ∀ m < p.nFn, p.rad m (√(r2 (pos j - pos i + t))) ≠ p.tol

/-- No product of expansion coefficients is dropped. -/
def NoDrop (p : GtParams ℝ) (types : ℕ → ℕ) (tol : ℝ) (trans : List (Vec ℝ)) (pos : ℕ → Vec ℝ) (n : ℕ) :
    Prop :=
  ∀ i < n, NoSkip p (types i) (anlmD p Real.sqrt types i ((neighborFull p.cutoff tol trans pos n).row i)).a

/-- **C62 (columns, forces).** -/
theorem C62_force_columns (n : ℕ) (tol : ℝ) (ht : 0 < tol) (trans : List (Vec ℝ)) (pos : ℕ → Vec ℝ)
    (hsep : Separated tol trans pos n) (hoff : OffThreshold p trans pos n) (u : ℕ → Vec ℝ)
    (hno : ∀ᶠ s : ℝ in nhds 0, NoDrop p types tol trans (fun i x => pos i x + s * u i x) n) (k : ℕ) :
    let X := fun pos => gtModelRun p Real.sqrt types n (neighborFull p.cutoff tol trans pos n)
    HasDerivAt (fun s : ℝ => (X fun i x => pos i x + s * u i x).xe k)
      (-((List.range n).map fun q => (X pos).xf k q 0 * u q 0 + (X pos).xf k q 1 * u q 1 +
        (X pos).xf k q 2 * u q 2).sum) 0 := by
  intro X
  obtain ⟨hr1, hr2⟩ := rad_rules p params hrad hcut
  have hP0 : (fun (i : ℕ) (x : Fin 3) => pos i x + (0 : ℝ) * u i x) = pos := by
    funext i x; simp
  have hPk : ∀ k, (fun x => pos k x + (0 : ℝ) * u k x) = pos k := fun k => by funext x; simp
  have h := column_deriv p hp types hcond htab.table p.cutoff tol ht trans (fun _ t => t)
    (fun s i x => pos i x + s * u i x) (fun i j _ x => u j x - u i x) n 0
    (by
      intro i hi j hj t htr b hb
      refine entry_deriv p hp types hr1 hr2 hcut hptol tol i j
        (fun s => (fun x => pos j x + s * u j x) - (fun x => pos i x + s * u i x) + t)
        (fun x => u j x - u i x) 0 ?_ ?_ ?_ hb
      · intro x
        have h1 : ∀ k : ℕ, HasDerivAt (fun s : ℝ => pos k x + s * u k x) (u k x) 0 := by
          intro k
          have := ((hasDerivAt_id (0 : ℝ)).mul_const (u k x)).const_add (pos k x)
          simpa using this
        exact ((h1 j).sub (h1 i)).add_const (t x)
      · simp only [hPk]
        rcases hsep.2 i hi j hj t htr with ⟨rfl, rfl⟩ | h
        · left; intro s; funext x; simp
        · exact Or.inr h
      · simp only [hPk]
        exact hoff i hi j hj t htr)
    (by simpa only [List.map_id', NoDrop] using hno) k
  simp only [List.map_id'] at h
  rw [hP0] at h
  refine h.congr_deriv ?_
  have hw := fun x => xf_weight p Real.sqrt types hcond htab (fun d h => (real_rules p hp d h).1) n p.cutoff tol
    ht trans pos (fun q => u q x) k x
  simp only at hw
  have hsum : ((List.range n).map fun q => (X pos).xf k q 0 * u q 0 + (X pos).xf k q 1 * u q 1 +
        (X pos).xf k q 2 * u q 2).sum =
      ((List.range n).map fun q => u q 0 * (X pos).xf k q 0).sum +
      ((List.range n).map fun q => u q 1 * (X pos).xf k q 1).sum +
      ((List.range n).map fun q => u q 2 * (X pos).xf k q 2).sum := by
    rw [← List.sum_map_add, ← List.sum_map_add]
    exact sum_map_congr _ _ _ fun q _ => by ring
  rw [hsum, hw 0, hw 1, hw 2, ← List.sum_map_add, ← List.sum_map_add, ← neg_one_mul, ← List.sum_map_mul_left]
  refine sum_map_congr _ _ _ ?_
  intro i _
  rw [← List.sum_map_add, ← List.sum_map_add, ← List.sum_map_mul_left]
  refine sum_map_congr _ _ _ ?_
  intro t _
  split_ifs with hk
  · rw [← gt_termDeriv_add, ← gt_termDeriv_add, ← gt_termDeriv_mul]
    congr 1
    funext f
    unfold DV
    rw [← List.sum_map_add, ← List.sum_map_add, ← List.sum_map_mul_left]
    exact sum_map_congr _ _ _ fun e _ => by ring
  · simp

/-- **C62 (columns, stress).** -/
theorem C62_stress_columns (n : ℕ) (tol : ℝ) (ht : 0 < tol) (trans : List (Vec ℝ)) (pos : ℕ → Vec ℝ)
    (hsep : Separated tol trans pos n) (hoff : OffThreshold p trans pos n) (ε : Fin 3 → Fin 3 → ℝ)
    (hno : ∀ᶠ s : ℝ in nhds 0, NoDrop p types tol (trans.map fun t x => t x + s * strain ε t x)
      (fun i x => pos i x + s * strain ε (pos i) x) n) (k : ℕ) :
    let X := fun trans pos => gtModelRun p Real.sqrt types n (neighborFull p.cutoff tol trans pos n)
    let S := (X trans pos).xs k
    HasDerivAt (fun s : ℝ => (X (trans.map fun t x => t x + s * strain ε t x)
        (fun i x => pos i x + s * strain ε (pos i) x)).xe k)
      (-(ε 0 0 * S 0 + ε 1 1 * S 1 + ε 2 2 * S 2 + (ε 0 1 + ε 1 0) * S 3 + (ε 1 2 + ε 2 1) * S 4 +
        (ε 2 0 + ε 0 2) * S 5)) 0 := by
  intro X S
  obtain ⟨hr1, hr2⟩ := rad_rules p params hrad hcut
  have hP0 : (fun (i : ℕ) (x : Fin 3) => pos i x + (0 : ℝ) * strain ε (pos i) x) = pos := by
    funext i x; simp
  have hPk : ∀ d : Vec ℝ, (fun x => d x + (0 : ℝ) * strain ε d x) = d :=
    fun d => by funext x; simp
  have h1 : ∀ (a b : ℝ), HasDerivAt (fun s : ℝ => a + s * b) b 0 := by
    intro a b
    have := ((hasDerivAt_id (0 : ℝ)).mul_const b).const_add a
    simpa using this
  have h := column_deriv p hp types hcond htab.table p.cutoff tol ht trans
    (fun s t x => t x + s * strain ε t x)
    (fun s i x => pos i x + s * strain ε (pos i) x) (fun _ _ d => strain ε d) n 0
    (by
      intro i hi j hj t htr b hb
      refine entry_deriv p hp types hr1 hr2 hcut hptol tol i j
        (fun s => (fun x => pos j x + s * strain ε (pos j) x) - (fun x => pos i x + s * strain ε (pos i) x) +
          fun x => t x + s * strain ε t x)
        _ 0 ?_ ?_ ?_ hb
      · intro x
        simp only [hPk]
        have h2 := ((h1 (pos j x) (strain ε (pos j) x)).sub (h1 (pos i x) (strain ε (pos i) x))).add
          (h1 (t x) (strain ε t x))
        refine h2.congr_deriv ?_
        unfold strain
        simp only [Pi.add_apply, Pi.sub_apply]
        ring
      · simp only [hPk]
        rcases hsep.2 i hi j hj t htr with ⟨rfl, rfl⟩ | h
        · left; intro s; funext x; simp [strain]
        · exact Or.inr h
      · simp only [hPk]
        exact hoff i hi j hj t htr)
    hno k
  refine h.congr_deriv ?_
  have hT0 : (trans.map fun (t : Vec ℝ) (x : Fin 3) => t x + (0 : ℝ) * strain ε t x) = trans := by
    conv_rhs => rw [← List.map_id trans]
    exact List.map_congr_left fun t _ => hPk t
  rw [hP0, hT0]
  have hS := (gtModelRun_terms p Real.sqrt types hcond htab.table n _
    (yok_full p hp p.cutoff tol ht trans pos n) k).2.2
  have hsym := symVirial_of_rotation p Real.sqrt types hcond ladderF_ok htab
    (fun d h => (real_rules p hp d h).1) (fun d h => (real_rules p hp d h).2) n p.cutoff tol ht trans pos
  simp only [S, X, hS]
  rw [← List.sum_map_mul_left, ← List.sum_map_mul_left, ← List.sum_map_mul_left, ← List.sum_map_mul_left,
    ← List.sum_map_mul_left, ← List.sum_map_mul_left, ← List.sum_map_add, ← List.sum_map_add,
    ← List.sum_map_add, ← List.sum_map_add, ← List.sum_map_add, ← neg_one_mul, ← List.sum_map_mul_left]
  refine sum_map_congr _ _ _ ?_
  intro i hi
  rw [List.mem_range] at hi
  rw [← List.sum_map_mul_left, ← List.sum_map_mul_left, ← List.sum_map_mul_left, ← List.sum_map_mul_left,
    ← List.sum_map_mul_left, ← List.sum_map_mul_left, ← List.sum_map_add, ← List.sum_map_add,
    ← List.sum_map_add, ← List.sum_map_add, ← List.sum_map_add, ← List.sum_map_mul_left]
  refine sum_map_congr _ _ _ ?_
  intro t _
  split_ifs with hk
  · simp only [← gt_termDeriv_mul, ← gt_termDeriv_add]
    congr 1
    funext f
    have e2 : DV p types i ((neighborFull p.cutoff tol trans pos n).row i) (fun _ d => strain ε d) f =
        -(ε 0 0 * DS p Real.sqrt types i ((neighborFull p.cutoff tol trans pos n).row i) 0 0 f +
          ε 0 1 * DS p Real.sqrt types i ((neighborFull p.cutoff tol trans pos n).row i) 0 1 f +
          ε 0 2 * DS p Real.sqrt types i ((neighborFull p.cutoff tol trans pos n).row i) 0 2 f +
          ε 1 0 * DS p Real.sqrt types i ((neighborFull p.cutoff tol trans pos n).row i) 1 0 f +
          ε 1 1 * DS p Real.sqrt types i ((neighborFull p.cutoff tol trans pos n).row i) 1 1 f +
          ε 1 2 * DS p Real.sqrt types i ((neighborFull p.cutoff tol trans pos n).row i) 1 2 f +
          ε 2 0 * DS p Real.sqrt types i ((neighborFull p.cutoff tol trans pos n).row i) 2 0 f +
          ε 2 1 * DS p Real.sqrt types i ((neighborFull p.cutoff tol trans pos n).row i) 2 1 f +
          ε 2 2 * DS p Real.sqrt types i ((neighborFull p.cutoff tol trans pos n).row i) 2 2 f) := by
      unfold DV DS
      rw [← neg_one_mul]
      simp only [← List.sum_map_mul_left, ← List.sum_map_add]
      refine sum_map_congr _ _ _ ?_
      intro e _
      unfold strain
      ring
    rw [e2]
    have s1 := hsym i hi 1 0 f
    have s2 := hsym i hi 2 1 f
    have s3 := hsym i hi 0 2 f
    simp only [sixL, Matrix.cons_val]
    linear_combination (-ε 1 0) * s1 - ε 2 1 * s2 - ε 0 2 * s3
  · simp

/-- **C62 (forces).**  The forces of the evaluator are minus the gradient of its energy: for every structure
without coinciding atoms and every displacement `u` of the atoms, the energy of the displaced structure (with
its own neighbour list) is differentiable, with derivative `-Σ F·u`. -/
theorem C62_forces (n : ℕ) (htypes : ∀ i < n, types i < p.nType) (c : ℕ → ℝ) (tol : ℝ) (ht : 0 < tol)
    (trans : List (Vec ℝ)) (pos : ℕ → Vec ℝ) (hneg : (trans.map (fun t => -t)).Perm trans)
    (hsep : Separated tol trans pos n) (hoff : OffThreshold p trans pos n) (u : ℕ → Vec ℝ)
    (hno : ∀ᶠ s : ℝ in nhds 0, NoDrop p types tol trans (fun i x => pos i x + s * u i x) n) :
    let R := fun pos => evalGtinv p Real.sqrt (p.pot c) types n (neighborHalf p.cutoff tol trans pos n)
    HasDerivAt (fun s : ℝ => (R fun i x => pos i x + s * u i x).energy)
      (-((List.range n).map fun q => (R pos).forces q 0 * u q 0 + (R pos).forces q 1 * u q 1 +
        (R pos).forces q 2 * u q 2).sum) 0 := by
  intro R
  have htol := fun t h => tol_of_long tol ht t (hsep.1 t h)
  have hC := fun pos => C59_program p hp types hcond htab n htypes c p.cutoff tol ht trans pos hneg htol
  simp only at hC
  have hk := fun k => C62_force_columns p hp params hrad hcut hptol types hcond htab n tol ht trans pos hsep hoff
    u hno k
  simp only at hk
  have hev : (fun s : ℝ => (R fun i x => pos i x + s * u i x).energy) =ᶠ[nhds 0] fun s : ℝ =>
      ((List.range (nVariables p.params)).map fun k => c k * (gtModelRun p Real.sqrt types n
        (neighborFull p.cutoff tol trans (fun i x => pos i x + s * u i x) n)).xe k).sum := by
    filter_upwards [hno] with s hs
    exact (hC fun i x => pos i x + s * u i x).1 hs
  have hd := hasDerivAt_listSum (List.range (nVariables p.params)) _ _ 0
    fun k _ => (hk k).const_mul (c k)
  refine (hd.congr_of_eventuallyEq hev).congr_deriv ?_
  simp only [R, (hC pos).2.1]
  rw [← neg_one_mul, ← List.sum_map_mul_left]
  simp only [← List.sum_map_mul_right, ← List.sum_map_add]
  simp only [← List.sum_map_mul_left]
  rw [sum_map_comm]
  refine sum_map_congr _ _ _ ?_
  intro k _
  rw [← neg_one_mul, ← List.sum_map_mul_left, ← List.sum_map_mul_left]
  exact sum_map_congr _ _ _ fun q _ => by ring

/-- **C62 (stress).**  The six numbers (xx, yy, zz, xy, yz, zx) are minus the derivatives of the energy with
respect to a homogeneous strain of the cell and the positions. -/
theorem C62_stress (n : ℕ) (htypes : ∀ i < n, types i < p.nType) (c : ℕ → ℝ) (tol : ℝ) (ht : 0 < tol)
    (trans : List (Vec ℝ)) (pos : ℕ → Vec ℝ) (hneg : (trans.map (fun t => -t)).Perm trans)
    (hsep : Separated tol trans pos n) (hoff : OffThreshold p trans pos n) (ε : Fin 3 → Fin 3 → ℝ)
    (hno : ∀ᶠ s : ℝ in nhds 0, NoDrop p types tol (trans.map fun t x => t x + s * strain ε t x)
      (fun i x => pos i x + s * strain ε (pos i) x) n) :
    let R := fun trans pos => evalGtinv p Real.sqrt (p.pot c) types n (neighborHalf p.cutoff tol trans pos n)
    let S := (R trans pos).stress
    HasDerivAt (fun s : ℝ => (R (trans.map fun t x => t x + s * strain ε t x)
        (fun i x => pos i x + s * strain ε (pos i) x)).energy)
      (-(ε 0 0 * S 0 + ε 1 1 * S 1 + ε 2 2 * S 2 + (ε 0 1 + ε 1 0) * S 3 + (ε 1 2 + ε 2 1) * S 4 +
        (ε 2 0 + ε 0 2) * S 5)) 0 := by
  intro R S
  have htol := fun t h => tol_of_long tol ht t (hsep.1 t h)
  have hC := fun trans pos hneg htol =>
    C59_program p hp types hcond htab n htypes c p.cutoff tol ht trans pos hneg htol
  simp only at hC
  have hk := fun k => C62_stress_columns p hp params hrad hcut hptol types hcond htab n tol ht trans pos hsep
    hoff ε hno k
  simp only at hk
  have hev : ∀ᶠ s : ℝ in nhds 0, ∀ t ∈ trans, (fun x => t x + s * strain ε t x) = (0 : Vec ℝ) ∨
      3 * (tol * tol) < r2 fun x => t x + s * strain ε t x := by
    have hfin : {t | t ∈ trans}.Finite := List.finite_toSet trans
    have := (Filter.eventually_all_finite (l := nhds (0 : ℝ)) hfin
      (p := fun t s => (fun x => t x + s * strain ε t x) = (0 : Vec ℝ) ∨
      3 * (tol * tol) < r2 fun x => t x + s * strain ε t x)).2
    refine this ?_
    intro t htr
    rcases hsep.1 t htr with rfl | hl
    · refine Filter.Eventually.of_forall fun s => Or.inl ?_
      funext x; simp [strain]
    · have hc : ContinuousAt (fun s : ℝ => r2 fun x => t x + s * strain ε t x) 0 := by
        unfold r2
        fun_prop
      have h0 : 3 * (tol * tol) < (fun s : ℝ => r2 fun x => t x + s * strain ε t x) 0 := by
        simpa using hl
      exact (hc.eventually (lt_mem_nhds h0)).mono fun s hs => Or.inr hs
  have hnegs : ∀ s : ℝ, ((trans.map fun t x => t x + s * strain ε t x).map fun t => -t).Perm
      (trans.map fun t x => t x + s * strain ε t x) := by
    intro s
    have := hneg.map fun t x => t x + s * strain ε t x
    rw [List.map_map] at this ⊢
    refine (List.Perm.of_eq ?_).trans this
    refine List.map_congr_left fun t _ => ?_
    funext x
    simp only [Function.comp, Pi.neg_apply, strain]
    ring
  have hev2 : (fun s : ℝ => (R (trans.map fun t x => t x + s * strain ε t x)
        (fun i x => pos i x + s * strain ε (pos i) x)).energy) =ᶠ[nhds 0] fun s : ℝ =>
      ((List.range (nVariables p.params)).map fun k => c k * (gtModelRun p Real.sqrt types n
        (neighborFull p.cutoff tol (trans.map fun t x => t x + s * strain ε t x)
          (fun i x => pos i x + s * strain ε (pos i) x) n)).xe k).sum := by
    filter_upwards [hno, hev] with s hs he
    refine (hC (trans.map fun t x => t x + s * strain ε t x)
      (fun i x => pos i x + s * strain ε (pos i) x) (hnegs s) ?_).1 hs
    intro t htr
    rw [List.mem_map] at htr
    obtain ⟨t0, ht0, rfl⟩ := htr
    exact tol_of_long tol ht _ (he t0 ht0)
  have hd := hasDerivAt_listSum (List.range (nVariables p.params)) _ _ 0
    fun k _ => (hk k).const_mul (c k)
  refine (hd.congr_of_eventuallyEq hev2).congr_deriv ?_
  simp only [S, R, (hC trans pos hneg htol).2.2]
  rw [← neg_one_mul]
  simp only [← List.sum_map_mul_left, ← List.sum_map_add]
  exact sum_map_congr _ _ _ fun k _ => by ring

end Derivatives

/-! ## C63 -/

theorem rotate_r2 (u : Vec ℝ) (hu : r2 u = 1) (θ : ℝ) (d : Vec ℝ) : r2 (Spec.rotate u θ d) = r2 d := by
  have hcs := Real.cos_sq_add_sin_sq θ
  unfold r2 at hu
  unfold Spec.rotate Spec.cross3 Spec.dot3 r2
  simp only [Matrix.cons_val]
  generalize Real.cos θ = c at *
  generalize Real.sin θ = s at *
  linear_combination ((d 0 * d 0 + d 1 * d 1 + d 2 * d 2) - (u 0 * d 0 + u 1 * d 1 + u 2 * d 2) ^ 2) * hcs +
    (s ^ 2 * (d 0 * d 0 + d 1 * d 1 + d 2 * d 2) + (1 - c) ^ 2 * (u 0 * d 0 + u 1 * d 1 + u 2 * d 2) ^ 2) * hu

theorem rotate_deriv (u : Vec ℝ) (hu : r2 u = 1) (θ : ℝ) (d : Vec ℝ) (x : Fin 3) :
    HasDerivAt (fun θ => Spec.rotate u θ d x) (Spec.cross3 u (Spec.rotate u θ d) x) θ := by
  have h1 := ((Real.hasDerivAt_cos θ).mul_const (d x)).add ((Real.hasDerivAt_sin θ).mul_const (Spec.cross3 u d x))
  have h2 := (((Real.hasDerivAt_cos θ).const_sub 1).mul_const (Spec.dot3 u d)).mul_const (u x)
  have h3 := h1.add h2
  refine h3.congr_deriv ?_
  unfold r2 at hu
  unfold Spec.rotate Spec.cross3 Spec.dot3
  fin_cases x
  · simp
    linear_combination (Real.sin θ * d 0) * hu
  · simp
    linear_combination (Real.sin θ * d 1) * hu
  · simp
    linear_combination (Real.sin θ * d 2) * hu

theorem rotate_lin (u : Vec ℝ) (θ : ℝ) (a b t : Vec ℝ) :
    Spec.rotate u θ a - Spec.rotate u θ b + Spec.rotate u θ t = Spec.rotate u θ (a - b + t) := by
  funext x
  unfold Spec.rotate Spec.cross3 Spec.dot3
  fin_cases x <;> simp <;> ring

theorem rotate_neg (u : Vec ℝ) (θ : ℝ) (d : Vec ℝ) : Spec.rotate u θ (-d) = -Spec.rotate u θ d := by
  funext x
  unfold Spec.rotate Spec.cross3 Spec.dot3
  fin_cases x <;> simp <;> ring

theorem rotate_id (u : Vec ℝ) (d : Vec ℝ) : Spec.rotate u 0 d = d := by
  funext x
  unfold Spec.rotate
  simp

section Turning
variable (p : GtParams ℝ) (hp : UsesProgramYlm p) (types : ℕ → ℕ)
  (hcond : ∀ i j, (p.cond i j).Nodup) (htab : Spec.RotTable ladderF p.maxl p.lComb p.lmArray p.lmCoeffs)
include hp

omit hp in
theorem inRange_r2 (cutoff tol : ℝ) {d d' : Vec ℝ} (h : r2 d = r2 d') :
    inRange cutoff tol d = inRange cutoff tol d' := by
  unfold inRange
  rw [h]

omit hp in
theorem phiE_r2 (i j : ℕ) {d d' : Vec ℝ} (h : r2 d = r2 d') (tp nId : ℕ) :
    phiE p Real.sqrt types i (j, d) tp nId = phiE p Real.sqrt types i (j, d') tp nId := by
  unfold phiE tpE
  simp only [h]

/-- The contribution of an entry that is turned. -/
theorem entry_turn (cutoff tol : ℝ) (i j : ℕ) (u : Vec ℝ) (hu : r2 u = 1) (d : Vec ℝ) (τ : ℝ)
    {t : ℕ} {b : NlmAttr} (hb : b ∈ p.noconj t) :
    HasDerivAt (fun θ => toC (gIn p types cutoff tol i j (Spec.rotate u θ d) b))
      (toC (gInV p types cutoff tol (Spec.cross3 u (Spec.rotate u τ d)) i j (Spec.rotate u τ d) b)) τ := by
  have hr := fun θ => rotate_r2 u hu θ d
  unfold gIn gInV
  simp only [inRange_r2 cutoff tol (hr _)]
  by_cases hin : inRange cutoff tol d = true
  swap
  · simp only [if_neg hin]
    exact hasDerivAt_const _ _
  simp only [if_pos hin]
  have hpos : 0 < r2 (Spec.rotate u τ d) := by
    rw [hr]
    unfold inRange at hin
    simp only [Bool.and_eq_true, decide_eq_true_eq] at hin
    exact lt_of_le_of_lt (mul_self_nonneg tol) hin.2
  have hval : ∀ θ, toC (gW p Real.sqrt types i (j, Spec.rotate u θ d) b) =
      ((phiE p Real.sqrt types i (j, d) b.tp b.nId : ℝ) : ℂ) *
        toC (p.ylmV (√(r2 (Spec.rotate u θ d))) (Spec.rotate u θ d) b.lm.ylmKey.toNat) := by
    intro θ
    rw [gW_phi, toC_smul, phiE_r2 p types i j (hr θ)]
  simp only [hval]
  have hy := (ylm_curve p hp (fun θ => Spec.rotate u θ d) _ τ (fun x => rotate_deriv u hu τ d x) hpos hb).const_mul
    ((phiE p Real.sqrt types i (j, d) b.tp b.nId : ℝ) : ℂ)
  refine hy.congr_deriv ?_
  have hphi := phi_act p Real.sqrt types i (j, Spec.rotate u τ d) b
  rw [← phiE_r2 p types i j (hr τ), hphi]
  by_cases ha : ActE p Real.sqrt types i (j, Spec.rotate u τ d) b
  · rw [if_pos ha, toC_gVel p types _ i _ b ha]
    have h0 : Spec.rotate u τ d 0 * Spec.cross3 u (Spec.rotate u τ d) 0 +
        Spec.rotate u τ d 1 * Spec.cross3 u (Spec.rotate u τ d) 1 +
        Spec.rotate u τ d 2 * Spec.cross3 u (Spec.rotate u τ d) 2 = 0 := by
      unfold Spec.cross3
      simp only [Matrix.cons_val]
      ring
    simp only [h0, zero_div, mul_zero]
    push_cast
    ring
  · rw [if_neg ha, gVel_not p types _ i _ b ha, toC_zero]
    simp

include hcond htab

/-- The features do not change when the structure is turned. -/
theorem feat_turn (cutoff tol : ℝ) (ht : 0 < tol) (trans : List (Vec ℝ)) (pos : ℕ → Vec ℝ) (n i : ℕ)
    (hi : i < n) (u : Vec ℝ) (hu : r2 u = 1) (θ : ℝ) (f : ℕ) :
    featV (p.features (types i)) (arrM p Real.sqrt types i (fullRow cutoff tol
        (trans.map (Spec.rotate u θ)) (fun i => Spec.rotate u θ (pos i)) n i)) f =
      featV (p.features (types i)) (arrM p Real.sqrt types i (fullRow cutoff tol trans pos n i)) f := by
  have hd : ∀ τ, HasDerivAt (fun θ => featV (p.features (types i)) (arrM p Real.sqrt types i
      (fullRow cutoff tol (trans.map (Spec.rotate u θ)) (fun i => Spec.rotate u θ (pos i)) n i)) f) 0 τ := by
    intro τ
    have h := feat_deriv p types hcond htab.table cutoff tol trans (fun θ => Spec.rotate u θ)
      (fun θ i => Spec.rotate u θ (pos i)) (fun _ d => Spec.cross3 u d) n i τ (by
        intro j _ t _ b hb
        simp only [rotate_lin]
        exact entry_turn p hp types cutoff tol i j u hu (pos j - pos i + t) τ hb) f
    refine h.congr_deriv ?_
    have hsym := symVirial_of_rotation p Real.sqrt types hcond ladderF_ok htab
      (fun d h => (real_rules p hp d h).1) (fun d h => (real_rules p hp d h).2) n cutoff tol ht
      (trans.map (Spec.rotate u τ)) (fun i => Spec.rotate u τ (pos i)) i hi
    rw [full_row cutoff tol _ _ n i hi] at hsym
    generalize fullRow cutoff tol (trans.map (Spec.rotate u τ)) (fun i => Spec.rotate u τ (pos i)) n i = row
      at hsym ⊢
    have e : DV p types i row (fun _ d => Spec.cross3 u d) f =
        u 0 * DS p Real.sqrt types i row 1 2 f + -u 0 * DS p Real.sqrt types i row 2 1 f +
        u 1 * DS p Real.sqrt types i row 2 0 f + -u 1 * DS p Real.sqrt types i row 0 2 f +
        u 2 * DS p Real.sqrt types i row 0 1 f + -u 2 * DS p Real.sqrt types i row 1 0 f := by
      unfold DV DS
      simp only [← List.sum_map_mul_left, ← List.sum_map_add]
      refine sum_map_congr _ _ _ ?_
      intro e _
      unfold Spec.cross3
      simp only [Matrix.cons_val]
      ring
    rw [e, hsym 2 1 f, hsym 0 2 f, hsym 1 0 f]
    ring
  have := is_const_of_deriv_eq_zero (fun τ => (hd τ).differentiableAt) (fun τ => (hd τ).deriv) θ 0
  rw [this, show Spec.rotate u 0 = id from funext (rotate_id u), List.map_id]
  rfl

/-- **C63 (columns).**  The energy columns of the design matrix are the same for a structure that is turned by
any angle about any axis. -/
theorem C63_columns (n : ℕ) (cutoff tol : ℝ) (ht : 0 < tol) (trans : List (Vec ℝ)) (pos : ℕ → Vec ℝ)
    (u : Vec ℝ) (hu : r2 u = 1) (θ : ℝ)
    (hno : ∀ i < n, NoSkip p (types i) (anlmD p Real.sqrt types i ((neighborFull cutoff tol trans pos n).row i)).a)
    (hno' : ∀ i < n, NoSkip p (types i) (anlmD p Real.sqrt types i ((neighborFull cutoff tol
      (trans.map (Spec.rotate u θ)) (fun i => Spec.rotate u θ (pos i)) n).row i)).a) (k : ℕ) :
    (gtModelRun p Real.sqrt types n (neighborFull cutoff tol (trans.map (Spec.rotate u θ))
      (fun i => Spec.rotate u θ (pos i)) n)).xe k =
    (gtModelRun p Real.sqrt types n (neighborFull cutoff tol trans pos n)).xe k := by
  rw [(gtModelRun_terms p Real.sqrt types hcond htab.table n _ (yok_full p hp cutoff tol ht _ _ n) k).1,
    (gtModelRun_terms p Real.sqrt types hcond htab.table n _ (yok_full p hp cutoff tol ht _ _ n) k).1]
  refine sum_map_congr _ _ _ ?_
  intro i hi
  rw [List.mem_range] at hi
  rw [FM_exact p hp types hcond htab.table cutoff tol ht _ _ n i hi (hno i hi),
    FM_exact p hp types hcond htab.table cutoff tol ht _ _ n i hi (hno' i hi),
    show featV (p.features (types i)) (arrM p Real.sqrt types i (fullRow cutoff tol
        (trans.map (Spec.rotate u θ)) (fun i => Spec.rotate u θ (pos i)) n i)) = _ from
      funext fun f => feat_turn p hp types hcond htab cutoff tol ht trans pos n i hi u hu θ f]

/-- **C63.**  The energy of the evaluator is the same for a structure that is turned by any angle about any
axis, whatever the coefficients. -/
theorem C63_energy (n : ℕ) (htypes : ∀ i < n, types i < p.nType) (c : ℕ → ℝ) (cutoff tol : ℝ) (ht : 0 < tol)
    (trans : List (Vec ℝ)) (pos : ℕ → Vec ℝ) (hneg : (trans.map (fun t => -t)).Perm trans)
    (hlong : ∀ t ∈ trans, t = 0 ∨ 3 * (tol * tol) < r2 t) (u : Vec ℝ) (hu : r2 u = 1) (θ : ℝ)
    (hno : ∀ i < n, NoSkip p (types i) (anlmD p Real.sqrt types i ((neighborFull cutoff tol trans pos n).row i)).a)
    (hno' : ∀ i < n, NoSkip p (types i) (anlmD p Real.sqrt types i ((neighborFull cutoff tol
      (trans.map (Spec.rotate u θ)) (fun i => Spec.rotate u θ (pos i)) n).row i)).a) :
    (evalGtinv p Real.sqrt (p.pot c) types n (neighborHalf cutoff tol (trans.map (Spec.rotate u θ))
      (fun i => Spec.rotate u θ (pos i)) n)).energy =
    (evalGtinv p Real.sqrt (p.pot c) types n (neighborHalf cutoff tol trans pos n)).energy := by
  have h1 := (C59_program p hp types hcond htab n htypes c cutoff tol ht trans pos hneg
    (fun t h => tol_of_long tol ht t (hlong t h))).1 hno
  have h2 := (C59_program p hp types hcond htab n htypes c cutoff tol ht (trans.map (Spec.rotate u θ))
    (fun i => Spec.rotate u θ (pos i))
    (by
      have := hneg.map (Spec.rotate u θ)
      rw [List.map_map] at this ⊢
      refine (List.Perm.of_eq ?_).trans this
      exact List.map_congr_left fun t _ => (rotate_neg u θ t).symm)
    (fun t h => tol_of_long tol ht t (by
      rw [List.mem_map] at h
      obtain ⟨t0, ht0, rfl⟩ := h
      rw [rotate_r2 u hu]
      rcases hlong t0 ht0 with rfl | h
      · left
        funext x
        unfold Spec.rotate Spec.cross3 Spec.dot3
        fin_cases x <;> simp
      · exact Or.inr h))).1 hno'
  rw [h1, h2]
  refine sum_map_congr _ _ _ ?_
  intro k _
  rw [C63_columns p hp types hcond htab n cutoff tol ht trans pos u hu θ hno hno' k]

end Turning

/-! ## A concrete case -/

/-- `exRot` with the program's radial functions (one Gaussian centred at zero and one at one) and cutoff 3. -/
noncomputable def exGrad : GtParams ℝ :=
  { exRot with
    cutoff := 3
    tol := 1 / 1000
    rad := getFn (fun n => (1, n)) 3
    radD := fun n r => (getFnD (fun n => (1, n)) 3 n r).2 }

theorem exGrad_map : (prodMap (exGrad.featuresRep 0)).length ≤ exGrad.threshold := by
  decide +kernel

theorem exGrad_rad (m : ℕ) (hm : m < 2) (r : ℝ) (h : 3 ≤ r ∨ (0 ≤ r ∧ r ≤ 3 / 2)) :
    exGrad.rad m r ≠ exGrad.tol := by
  show getFn (fun n : ℕ => ((1 : ℝ), (n : ℝ))) 3 m r ≠ 1 / 1000
  rcases h with h | ⟨h0, h1⟩
  · rw [(getFn_beyond _ 3 m r h).1]
    norm_num
  · apply ne_of_gt
    have hg : (7 / 16 : ℝ) ^ 4 ≤ gauss r 1 m := by
      have e : gauss r 1 m = Real.exp (-(r - m) * (r - m) / 4) ^ 4 := by
        unfold gauss
        rw [← Real.exp_nat_mul]
        congr 1
        push_cast
        ring_nf
      rw [e]
      have hb : (r - m) * (r - m) ≤ 9 / 4 := by
        interval_cases m <;> push_cast <;> nlinarith
      have := Real.add_one_le_exp (-(r - m) * (r - m) / 4)
      exact pow_le_pow_left₀ (by norm_num) (by linarith) 4
    have hc : (1 / 2 : ℝ) ≤ cosCut r 3 := by
      unfold cosCut
      rw [if_pos (by linarith)]
      have : 0 ≤ Real.cos (Real.pi * r / 3) := by
        apply Real.cos_nonneg_of_mem_Icc
        have := Real.pi_pos
        constructor <;> nlinarith
      linarith
    unfold getFn
    have : (7 / 16 : ℝ) ^ 4 * (1 / 2) ≤ gauss r 1 m * cosCut r 3 := by
      apply mul_le_mul hg hc (by norm_num)
      exact le_trans (by norm_num) hg
    calc (1 / 1000 : ℝ) < (7 / 16 : ℝ) ^ 4 * (1 / 2) := by norm_num
      _ ≤ _ := this

/-- Two atoms at distance `√2` in a cell with translations of length 4 meet the hypotheses of C62 and C63. -/
example : UsesProgramYlm exGrad ∧ UsesProgramRad exGrad (fun n => (1, n)) ∧ 0 < exGrad.cutoff ∧ 0 < exGrad.tol ∧
    (∀ i j, (exGrad.cond i j).Nodup) ∧
    Spec.RotTable ladderF exGrad.maxl exGrad.lComb exGrad.lmArray exGrad.lmCoeffs ∧
    OffThreshold exGrad [0, ![4, 0, 0], ![-4, 0, 0]] (fun i => if i = 0 then 0 else ![1, 1, 0]) 2 ∧
    (∀ pos : ℕ → Vec ℝ, ∀ trans, NoDrop exGrad (fun _ => 0) (1 / 10) trans pos 2) ∧
    r2 (![0, 3 / 5, 4 / 5] : Vec ℝ) = 1 := by
  refine ⟨⟨rfl, rfl, rfl⟩, ⟨rfl, rfl⟩, ?_, ?_, ?_, exRot_table, ?_, fun _ _ _ _ => Or.inl exGrad_map, ?_⟩
  · show (0 : ℝ) < 3; norm_num
  · show (0 : ℝ) < 1 / 1000; norm_num
  · intro i j
    show (if i = j then [0] else [0, 1]).Nodup
    split_ifs <;> decide
  · intro i hi j hj t ht m hm
    apply exGrad_rad m hm
    simp only [List.mem_cons, List.not_mem_nil, or_false] at ht
    interval_cases i <;> interval_cases j <;> rcases ht with rfl | rfl | rfl <;>
      first
      | (right; refine ⟨Real.sqrt_nonneg _, Real.sqrt_le_iff.2 ⟨by norm_num, ?_⟩⟩; simp [r2]; norm_num; done)
      | (left; apply Real.le_sqrt_of_sq_le; simp [r2]; norm_num; done)
      | (right; refine ⟨Real.sqrt_nonneg _, Real.sqrt_le_iff.2 ⟨by norm_num, ?_⟩⟩; simp [r2]; done)
  · simp [r2]; norm_num

end Verif.Mlp
