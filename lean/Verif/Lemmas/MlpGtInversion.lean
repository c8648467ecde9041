import Verif.Lemmas.MlpGtRows

/-!
# Features of an inverted environment

The invariants are products whose degrees have an even sum; they do not change when all displacements are
reversed.
-/

namespace Verif.Mlp
open Verif
open Verif.Neighbor (Vec r2)

variable {K : Type} [Field K] [LinearOrder K] (p : GtParams K) (sqrt : K → K) (types : ℕ → ℕ)

theorem gW_neg {i : ℕ} {e : ℕ × Vec K} (h : YOK p sqrt e.2) {b : NlmAttr} {t : ℕ} (hb : b ∈ p.noconj t) :
    gW p sqrt types i (e.1, -e.2) b = sgB (gW p sqrt types i e) b := by
  obtain ⟨h1, h2, h3, h4, -⟩ := noconj_lm p hb
  have hact : ActE p sqrt types i (e.1, -e.2) b ↔ ActE p sqrt types i e b := by
    unfold ActE fnE tpE
    rw [r2_neg]
  have hfn : fnE p sqrt types i (e.1, -e.2) b = fnE p sqrt types i e b := by
    unfold fnE tpE
    rw [r2_neg]
  unfold sgB gW
  by_cases ha : ActE p sqrt types i e b
  · rw [if_pos ha, if_pos (hact.2 ha), hfn, h4]
    simp only [r2_neg]
    rw [h.1.parity _ h1 _ h2]
    simp only [smul_eq_mul]
    ring
  · rw [if_neg ha, if_neg (fun h => ha (hact.1 h)), mul_zero]

theorem arrM_neg (i : ℕ) (row : List (ℕ × Vec K)) (h : ∀ e ∈ row, YOK p sqrt e.2) :
    ∀ k < (p.attrs (types i)).length, arrM p sqrt types i (row.map fun e => (e.1, -e.2)) k =
      algebraMap K (Cx K) (sgK p (types i) k) * arrM p sqrt types i row k := by
  intro k hk
  unfold arrM
  rw [List.map_map, ← List.sum_map_mul_left]
  refine sum_map_congr _ _ _ fun e he => ?_
  rw [← extK_sgB p (types i) _ k hk]
  refine extK_congr p (types i) ?_ k hk
  intro k hk hm
  have ha := List.getElem?_eq_getElem hk
  rw [atK_of_get p ha, atK_of_get p ha]
  refine gW_neg p sqrt types (h e he) (t := types i) ((mem_noconj p).2 ⟨?_, ?_⟩)
  · rw [gt_iloc p (types i) k _ ha]; exact ha
  · rw [← mOf_of_get p ha]; exact hm

theorem featV_neg (hcond : ∀ i j, (p.cond i j).Nodup)
    (htab : Spec.TableOK p.maxl p.lComb p.lmArray p.lmCoeffs) (i : ℕ) (row : List (ℕ × Vec K))
    (h : ∀ e ∈ row, YOK p sqrt e.2) (f : ℕ) :
    featV (p.features (types i)) (arrM p sqrt types i (row.map fun e => (e.1, -e.2))) f =
      featV (p.features (types i)) (arrM p sqrt types i row) f := by
  have hr := rep_prod p hcond htab (types i) f _ _ (arrM_sym p sqrt types i row h)
    (arrM_neg p sqrt types i row h)
  unfold featV
  generalize (p.features (types i)).getD f [] = l at hr
  generalize (p.featuresRep (types i)).getD f [] = l' at hr
  induction hr with
  | nil => rfl
  | cons h _ ih => rw [List.map_cons, List.map_cons, List.sum_cons, List.sum_cons, ih, h.2.2.2]

end Verif.Mlp
