import Verif.Props.SameCrystal
import Verif.Props.MlpGrad
import Verif.Props.MlpGtGrad
import Verif.Props.NeighborCell

/-!
# C123: the results do not depend on the description of the crystal
-/

namespace Verif.SameCrystal
open Verif Verif.Mlp
open Verif.Neighbor (Vec Csr r2 mkCsr neighborHalf neighborFull Mat cellTrans cellPos cellAxis refAny)

variable {n n' : ℕ} {types types' : ℕ → ℕ} {pos pos' : ℕ → Vec ℝ} {a a' : Mat} {s : Vec ℝ} {f : ℕ → ℕ} {m : ℕ}
  {cutoff tol : ℝ}

/-- The full neighbour list of the program for a cell. -/
noncomputable def fullList (a : Mat) (cutoff tol : ℝ) (pos : ℕ → Vec ℝ) (n : ℕ) : Csr (ℕ × Vec ℝ) :=
  neighborFull cutoff tol (cellTrans a cutoff) (fun j => cellPos a (pos j)) n

/-- The half neighbour list of the program for a cell. -/
noncomputable def halfList (a : Mat) (cutoff tol : ℝ) (pos : ℕ → Vec ℝ) (n : ℕ) : Csr (ℕ × Vec ℝ) :=
  neighborHalf cutoff tol (cellTrans a cutoff) (fun j => cellPos a (pos j)) n

theorem folds_cell (hC : Spec.CrystalCopies n n' types types' pos pos' (Spec.lattice a) (Spec.lattice a') s f m)
    (hN : Spec.AllNeighbors n pos (Spec.lattice a) cutoff tol (fullList a cutoff tol pos n).row)
    (hN' : Spec.AllNeighbors n' pos' (Spec.lattice a') cutoff tol (fullList a' cutoff tol pos' n').row) :
    Folds n n' types types' (fullList a cutoff tol pos n).row (fullList a' cutoff tol pos' n').row f m :=
  folds_of (fun _ h1 _ h2 => Neighbor.add_mem_lattice a h1 h2) (fun _ h => Neighbor.neg_mem_lattice a h)
    (fun _ h => Neighbor.neg_mem_lattice a' h) hC hN hN'

theorem sum_mul_left (l : List ℕ) (c x x' : ℕ → ℝ) (m : ℕ) (h : ∀ k, x' k = m • x k) :
    (l.map fun k => c k * x' k).sum = m * (l.map fun k => c k * x k).sum := by
  rw [← sum_map_mul_left']
  refine sum_map_congr _ _ _ fun k _ => ?_
  rw [h k, nsmul_eq_mul]
  ring

theorem tol_cell (ht : 0 < tol) (hL : Spec.LongTranslations (Spec.lattice a) tol) :
    ∀ t ∈ cellTrans a cutoff, tol * tol < r2 t → tol ≤ |t 0| ∨ tol ≤ |t 1| ∨ tol ≤ |t 2| :=
  fun t h => tol_of_long tol ht t (hL t (Neighbor.C23_translations a cutoff t h))

/-! ## Pairs -/

/-- **C123.**  Design matrix of a pair model: the column of every feature is the same for two descriptions of
a crystal in which the search finds all neighbours. -/
theorem C123_pair_columns (p : PairParams ℝ) (sqrt : ℝ → ℝ)
    (hC : Spec.CrystalCopies n n' types types' pos pos' (Spec.lattice a) (Spec.lattice a') s f m)
    (hN : Spec.AllNeighbors n pos (Spec.lattice a) cutoff tol (fullList a cutoff tol pos n).row)
    (hN' : Spec.AllNeighbors n' pos' (Spec.lattice a') cutoff tol (fullList a' cutoff tol pos' n').row) (k : ℕ) :
    let X := modelRun p sqrt types n (fullList a cutoff tol pos n)
    let X' := modelRun p sqrt types' n' (fullList a' cutoff tol pos' n')
    Spec.SameProps n' f m (X.xe k) (X'.xe k) (X.xf k) (X'.xf k) (X.xs k) (X'.xs k) := by
  intro X X'
  obtain ⟨h1, h2, h3⟩ := pair_columns p sqrt (folds_cell hC hN hN') k
  exact ⟨by rw [h1, nsmul_eq_mul], fun q hq => funext (h2 q hq), fun c => by rw [h3, nsmul_eq_mul]⟩

/-- **C123.**  Energy, forces and stress of a potential with pair features. -/
theorem C123_pair_properties (p : PairParams ℝ) (sqrt : ℝ → ℝ) (c : ℕ → ℝ) (ht : 0 < tol)
    (htypes : ∀ i < n, types i < p.nType) (hL : Spec.LongTranslations (Spec.lattice a) tol)
    (hC : Spec.CrystalCopies n n' types types' pos pos' (Spec.lattice a) (Spec.lattice a') s f m)
    (hN : Spec.AllNeighbors n pos (Spec.lattice a) cutoff tol (fullList a cutoff tol pos n).row)
    (hN' : Spec.AllNeighbors n' pos' (Spec.lattice a') cutoff tol (fullList a' cutoff tol pos' n').row) :
    let R := evalPair p sqrt (p.pot c) types n (halfList a cutoff tol pos n)
    let R' := evalPair p sqrt (p.pot c) types' n' (halfList a' cutoff tol pos' n')
    Spec.SameProps n' f m R.energy R'.energy R.forces R'.forces R.stress R'.stress := by
  intro R R'
  have ht' : ∀ i < n', types' i < p.nType := fun i hi => by
    rw [(hC.atom i hi).2.1]; exact htypes _ (hC.atom i hi).1
  have hL' : Spec.LongTranslations (Spec.lattice a') tol := fun t h => hL t (hC.sub h)
  obtain ⟨e1, e2, e3⟩ := C28_fast_equals_linear p sqrt types n htypes c cutoff tol ht (cellTrans a cutoff)
    (fun j => cellPos a (pos j)) (Neighbor.C22_cell_neg a cutoff) (tol_cell ht hL)
  obtain ⟨g1, g2, g3⟩ := C28_fast_equals_linear p sqrt types' n' ht' c cutoff tol ht (cellTrans a' cutoff)
    (fun j => cellPos a' (pos' j)) (Neighbor.C22_cell_neg a' cutoff) (tol_cell ht hL')
  have h := pair_columns p sqrt (folds_cell hC hN hN')
  refine ⟨?_, fun q hq => funext fun x => ?_, fun c6 => ?_⟩
  · exact g1.trans ((sum_mul_left _ c _ _ m fun k => (h k).1).trans (congrArg _ e1.symm))
  · exact (g2 q x).trans ((sum_map_congr _ _ _ fun k _ => congrArg _ ((h k).2.1 q hq x)).trans (e2 (f q) x).symm)
  · exact (g3 c6).trans ((sum_mul_left _ c _ _ m fun k => (h k).2.2 c6).trans (congrArg _ (e3 c6).symm))

/-! ## Invariants -/

section Invariants
variable (p : GtParams ℝ) (hp : UsesProgramYlm p) (hcond : ∀ i j, (p.cond i j).Nodup)
  (htab : Spec.RotTable ladderF p.maxl p.lComb p.lmArray p.lmCoeffs)
include hp hcond htab

/-- **C123.**  Design matrix of a model with rotation invariants. -/
theorem C123_invariant_columns (ht : 0 < tol)
    (hC : Spec.CrystalCopies n n' types types' pos pos' (Spec.lattice a) (Spec.lattice a') s f m)
    (hN : Spec.AllNeighbors n pos (Spec.lattice a) cutoff tol (fullList a cutoff tol pos n).row)
    (hN' : Spec.AllNeighbors n' pos' (Spec.lattice a') cutoff tol (fullList a' cutoff tol pos' n').row) (k : ℕ) :
    let X := gtModelRun p Real.sqrt types n (fullList a cutoff tol pos n)
    let X' := gtModelRun p Real.sqrt types' n' (fullList a' cutoff tol pos' n')
    Spec.SameProps n' f m (X.xe k) (X'.xe k) (X.xf k) (X'.xf k) (X.xs k) (X'.xs k) := by
  intro X X'
  obtain ⟨h1, h2, h3⟩ := gt_columns p Real.sqrt hcond htab.table (folds_cell hC hN hN')
    (yok_full p hp cutoff tol ht _ _ n) (yok_full p hp cutoff tol ht _ _ n') k
  exact ⟨by rw [h1, nsmul_eq_mul], fun q hq => funext (h2 q hq), fun c => by rw [h3, nsmul_eq_mul]⟩

/-- **C123.**  Energy, forces and stress of a potential with rotation invariants; for the energy no product of
the first description is cut off. -/
theorem C123_invariant_properties (c : ℕ → ℝ) (ht : 0 < tol)
    (htypes : ∀ i < n, types i < p.nType) (hL : Spec.LongTranslations (Spec.lattice a) tol)
    (hC : Spec.CrystalCopies n n' types types' pos pos' (Spec.lattice a) (Spec.lattice a') s f m)
    (hN : Spec.AllNeighbors n pos (Spec.lattice a) cutoff tol (fullList a cutoff tol pos n).row)
    (hN' : Spec.AllNeighbors n' pos' (Spec.lattice a') cutoff tol (fullList a' cutoff tol pos' n').row)
    (hno : ∀ i < n, NoSkip p (types i) (anlmD p Real.sqrt types i ((fullList a cutoff tol pos n).row i)).a) :
    let R := evalGtinv p Real.sqrt (p.pot c) types n (halfList a cutoff tol pos n)
    let R' := evalGtinv p Real.sqrt (p.pot c) types' n' (halfList a' cutoff tol pos' n')
    Spec.SameProps n' f m R.energy R'.energy R.forces R'.forces R.stress R'.stress := by
  intro R R'
  have ht' : ∀ i < n', types' i < p.nType := fun i hi => by
    rw [(hC.atom i hi).2.1]; exact htypes _ (hC.atom i hi).1
  have hL' : Spec.LongTranslations (Spec.lattice a') tol := fun t h => hL t (hC.sub h)
  have hF := folds_cell hC hN hN'
  have hno' : ∀ i < n', NoSkip p (types' i) (anlmD p Real.sqrt types' i
      ((fullList a' cutoff tol pos' n').row i)).a := by
    intro i hi
    have h1 := (noSkip_congr p hcond htab.table (types (f i)) (a' := arrM p Real.sqrt types (f i)
      ((fullList a cutoff tol pos n).row (f i)))
      (anlmD_a p Real.sqrt types (f i) ((fullList a cutoff tol pos n).row (f i)))).1
      (hno (f i) (hC.atom i hi).1)
    refine (noSkip_congr p hcond htab.table (types' i) (a' := arrM p Real.sqrt types' i
      ((fullList a' cutoff tol pos' n').row i))
      (anlmD_a p Real.sqrt types' i ((fullList a' cutoff tol pos' n').row i))).2 ?_
    rw [(gt_parts hF p Real.sqrt).1 i hi, (hC.atom i hi).2.1]
    exact h1
  obtain ⟨e1, e2, e3⟩ := C59_program p hp types hcond htab n htypes c cutoff tol ht (cellTrans a cutoff)
    (fun j => cellPos a (pos j)) (Neighbor.C22_cell_neg a cutoff) (tol_cell ht hL)
  obtain ⟨g1, g2, g3⟩ := C59_program p hp types' hcond htab n' ht' c cutoff tol ht (cellTrans a' cutoff)
    (fun j => cellPos a' (pos' j)) (Neighbor.C22_cell_neg a' cutoff) (tol_cell ht hL')
  have h := gt_columns p Real.sqrt hcond htab.table hF
    (yok_full p hp cutoff tol ht _ _ n) (yok_full p hp cutoff tol ht _ _ n')
  refine ⟨?_, fun q hq => funext fun x => ?_, fun c6 => ?_⟩
  · exact (g1 hno').trans ((sum_mul_left _ c _ _ m fun k => (h k).1).trans (congrArg _ (e1 hno).symm))
  · exact (g2 q x).trans ((sum_map_congr _ _ _ fun k _ => congrArg _ ((h k).2.1 q hq x)).trans (e2 (f q) x).symm)
  · exact (g3 c6).trans ((sum_mul_left _ c _ _ m fun k => (h k).2.2 c6).trans (congrArg _ (e3 c6).symm))

end Invariants

end Verif.SameCrystal
