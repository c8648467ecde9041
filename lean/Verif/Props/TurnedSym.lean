import Verif.Props.TurnedGt
import Verif.Props.SameCrystalCases

/-!
# C124: crystals with symmetries
-/

namespace Verif.Turned
open Verif Verif.Mlp Verif.SameCrystal
open Verif.Neighbor (Vec Csr r2 neighborHalf neighborFull Mat cellTrans cellPos fullRow)
open Matrix

variable {n : ℕ} {types : ℕ → ℕ} {pos : ℕ → Vec ℝ} {a M : Mat} {s : Vec ℝ} {σ : ℕ → ℕ} {cutoff tol : ℝ}

theorem mem_turn (hM : Spec.Orthogonal3 M) (x : Vec ℝ) : x ∈ Spec.lattice (M * a) ↔ Mᵀ *ᵥ x ∈ Spec.lattice a := by
  rw [Neighbor.mem_lattice, Neighbor.mem_lattice]
  constructor
  · rintro ⟨v, rfl⟩
    exact ⟨v, by rw [mulVec_mulVec, ← Matrix.mul_assoc, orth' hM, Matrix.one_mul]⟩
  · rintro ⟨v, h⟩
    refine ⟨v, ?_⟩
    rw [← mulVec_mulVec, ← h, mulVec_mulVec, hM, one_mulVec]

theorem allNeighbors_turn (hM : Spec.Orthogonal3 M) (ha : a.det ≠ 0)
    (hN : Spec.AllNeighbors n pos (Spec.lattice a) cutoff tol (fullList a cutoff tol pos n).row) :
    Spec.AllNeighbors n (fun j => M *ᵥ pos j) (Spec.lattice (M * a)) cutoff tol
      (fullList (M * a) cutoff tol (fun j => M *ᵥ pos j) n).row := by
  intro i hi
  have hinv : ∀ d : Vec ℝ, M *ᵥ (Mᵀ *ᵥ d) = d := fun d => by rw [mulVec_mulVec, hM, one_mulVec]
  have hinv' : ∀ d : Vec ℝ, Mᵀ *ᵥ (M *ᵥ d) = d := fun d => by rw [mulVec_mulVec, orth' hM, one_mulVec]
  have hlen : ∀ d : Vec ℝ, Spec.len2 (M *ᵥ d) = Spec.len2 d := r2_mul hM
  rw [fullList_turn hM a ha cutoff tol pos n i hi]
  refine ⟨(hN i hi).1.map fun e e' h => ?_, fun j d => ?_⟩
  · obtain ⟨j, d⟩ := e
    obtain ⟨j', d'⟩ := e'
    simp only [Prod.mk.injEq] at h ⊢
    refine ⟨h.1, ?_⟩
    rw [← hinv' d, h.2, hinv']
  · have h1 : (j, d) ∈ ((fullList a cutoff tol pos n).row i).map (fun e => (e.1, M *ᵥ e.2)) ↔
        (j, Mᵀ *ᵥ d) ∈ (fullList a cutoff tol pos n).row i := by
      constructor
      · intro h
        obtain ⟨⟨j', d'⟩, he, h⟩ := List.mem_map.1 h
        simp only [Prod.mk.injEq] at h
        rw [← h.1, ← h.2, hinv']
        exact he
      · intro h
        exact List.mem_map.2 ⟨_, h, by rw [hinv]⟩
    rw [h1, (hN i hi).2 j (Mᵀ *ᵥ d)]
    have h2 : Spec.len2 (Mᵀ *ᵥ d) = Spec.len2 d := by rw [← hlen (Mᵀ *ᵥ d), hinv]
    rw [h2]
    refine and_congr_right fun _ => and_congr_left fun _ => ?_
    constructor
    · rintro ⟨t, ht, h⟩
      refine ⟨M *ᵥ t, ?_, ?_⟩
      · rw [mem_turn hM, hinv']; exact ht
      · rw [← hinv d, h, mulVec_add, mulVec_sub]
    · rintro ⟨t, ht, h⟩
      refine ⟨Mᵀ *ᵥ t, (mem_turn hM t).1 ht, ?_⟩
      rw [h, mulVec_add, mulVec_sub, hinv', hinv']

/-- The turned crystal is another description of the crystal. -/
theorem copies_of (hS : Spec.CrystalSymmetry n types pos (Spec.lattice a) M s σ) :
    Spec.CrystalCopies n n types types pos (fun j => M *ᵥ pos j) (Spec.lattice a) (Spec.lattice (M * a)) (-s) σ 1 := by
  have hlat : Spec.lattice (M * a) = Spec.lattice a := by
    ext x
    rw [mem_turn hS.orth, ← hS.lattice, mulVec_mulVec, hS.orth, one_mulVec]
  choose! τ hτ using hS.reached
  refine C123_relabel a (M * a) hlat n types types pos _ (-s) σ τ (fun i hi => ⟨(hS.atom i hi).1, ?_⟩)
    (fun j hj => (hτ j hj).1) (fun i hi => (hS.atom i hi).2.1.symm) fun i hi => ?_
  · exact ((hτ (σ i) (hS.atom i hi).1).2 i ⟨hi, rfl⟩).symm
  · refine ⟨_, (hS.atom i hi).2.2, ?_⟩
    abel

theorem symmetric_of {R R' : ℝ} {f f' : ℕ → Fin 3 → ℝ} {t t' : Fin 6 → ℝ}
    (h1 : Spec.SameProps n σ 1 R R' f f' t t') (h2 : Spec.TurnedProps n M R R' f f' t t') :
    Spec.SymmetricProps n M σ f t := by
  refine ⟨fun q hq => ?_, ?_⟩
  · rw [← h1.forces q hq, h2.forces q hq]
  · rw [← h2.stress]
    congr 1
    funext c
    rw [h1.stress c]
    simp

/-- **C124.**  A potential with pair features gives a crystal forces and a stress with all symmetries of the
crystal. -/
theorem C124_symmetry_pair (p : PairParams ℝ) (sqrt : ℝ → ℝ) (c : ℕ → ℝ) (ha : a.det ≠ 0) (ht : 0 < tol)
    (htypes : ∀ i < n, types i < p.nType) (hL : Spec.LongTranslations (Spec.lattice a) tol)
    (hN : Spec.AllNeighbors n pos (Spec.lattice a) cutoff tol (fullList a cutoff tol pos n).row)
    (hS : Spec.CrystalSymmetry n types pos (Spec.lattice a) M s σ) :
    let R := evalPair p sqrt (p.pot c) types n (halfList a cutoff tol pos n)
    Spec.SymmetricProps n M σ R.forces R.stress :=
  symmetric_of (C123_pair_properties p sqrt c ht htypes hL (copies_of hS) hN (allNeighbors_turn hS.orth ha hN))
    (C124_pair_properties hS.orth a ha p sqrt types n htypes c cutoff tol ht hL pos)

/-- No force acts on an atom at a centre of inversion. -/
theorem C124_inversion_pair (p : PairParams ℝ) (sqrt : ℝ → ℝ) (c : ℕ → ℝ) (ha : a.det ≠ 0) (ht : 0 < tol)
    (htypes : ∀ i < n, types i < p.nType) (hL : Spec.LongTranslations (Spec.lattice a) tol)
    (hN : Spec.AllNeighbors n pos (Spec.lattice a) cutoff tol (fullList a cutoff tol pos n).row)
    (hS : Spec.CrystalSymmetry n types pos (Spec.lattice a) (-1) s σ) (q : ℕ) (hq : q < n) (hfix : σ q = q) :
    (evalPair p sqrt (p.pot c) types n (halfList a cutoff tol pos n)).forces q = 0 := by
  have h := (C124_symmetry_pair p sqrt c ha ht htypes hL hN hS).forces q hq
  rw [hfix, neg_mulVec, one_mulVec] at h
  exact self_eq_neg.mp h

section Invariants
variable (p : GtParams ℝ) (hp : UsesProgramYlm p) (params : ℕ → ℝ × ℝ) (hrad : UsesProgramRad p params)
  (hcut : 0 < p.cutoff) (hptol : 0 < p.tol)
  (hcond : ∀ i j, (p.cond i j).Nodup) (htab : Spec.RotTable ladderF p.maxl p.lComb p.lmArray p.lmCoeffs)
include hp hrad hcut hptol hcond htab

/-- **C124.**  A potential with rotation invariants gives a crystal forces and a stress with all symmetries of
the crystal. -/
theorem C124_symmetry_invariant (c : ℕ → ℝ) (ha : a.det ≠ 0) (ht : 0 < tol)
    (htypes : ∀ i < n, types i < p.nType) (hL : Spec.LongTranslations (Spec.lattice a) tol)
    (hsep : Separated tol (cellTrans a p.cutoff) (fun j => cellPos a (pos j)) n)
    (hoff : OffThreshold p (cellTrans a p.cutoff) (fun j => cellPos a (pos j)) n)
    (hno : NoDrop p types tol (cellTrans a p.cutoff) (fun j => cellPos a (pos j)) n)
    (hN : Spec.AllNeighbors n pos (Spec.lattice a) p.cutoff tol (fullList a p.cutoff tol pos n).row)
    (hS : Spec.CrystalSymmetry n types pos (Spec.lattice a) M s σ) :
    let R := evalGtinv p Real.sqrt (p.pot c) types n (halfList a p.cutoff tol pos n)
    Spec.SymmetricProps n M σ R.forces R.stress := by
  have hN' := allNeighbors_turn hS.orth ha hN
  have hC := copies_of hS
  have hF := folds_cell hC hN hN'
  have hno' : NoDrop p types tol (cellTrans (M * a) p.cutoff) (fun j => cellPos (M * a) (M *ᵥ pos j)) n := by
    intro i hi
    have h1 := (noSkip_congr p hcond htab.table (types (σ i)) (a' := arrM p Real.sqrt types (σ i)
      ((fullList a p.cutoff tol pos n).row (σ i)))
      (anlmD_a p Real.sqrt types (σ i) ((fullList a p.cutoff tol pos n).row (σ i)))).1
      (hno (σ i) (hC.atom i hi).1)
    refine (noSkip_congr p hcond htab.table (types i) (a' := arrM p Real.sqrt types i
      ((fullList (M * a) p.cutoff tol (fun j => M *ᵥ pos j) n).row i))
      (anlmD_a p Real.sqrt types i ((fullList (M * a) p.cutoff tol (fun j => M *ᵥ pos j) n).row i))).2 ?_
    rw [(gt_parts hF p Real.sqrt).1 i hi, (hC.atom i hi).2.1]
    exact h1
  exact symmetric_of
    (C123_invariant_properties p hp hcond htab c ht htypes hL hC hN hN' hno)
    (C124_invariant_properties p hp params hrad hcut hptol types hcond htab hS.orth n tol ht htypes c a ha pos hL
      hsep hoff hno hno')

/-- No force acts on an atom at a centre of inversion. -/
theorem C124_inversion_invariant (c : ℕ → ℝ) (ha : a.det ≠ 0) (ht : 0 < tol)
    (htypes : ∀ i < n, types i < p.nType) (hL : Spec.LongTranslations (Spec.lattice a) tol)
    (hsep : Separated tol (cellTrans a p.cutoff) (fun j => cellPos a (pos j)) n)
    (hoff : OffThreshold p (cellTrans a p.cutoff) (fun j => cellPos a (pos j)) n)
    (hno : NoDrop p types tol (cellTrans a p.cutoff) (fun j => cellPos a (pos j)) n)
    (hN : Spec.AllNeighbors n pos (Spec.lattice a) p.cutoff tol (fullList a p.cutoff tol pos n).row)
    (hS : Spec.CrystalSymmetry n types pos (Spec.lattice a) (-1) s σ) (q : ℕ) (hq : q < n) (hfix : σ q = q) :
    (evalGtinv p Real.sqrt (p.pot c) types n (halfList a p.cutoff tol pos n)).forces q = 0 := by
  have h := (C124_symmetry_invariant p hp params hrad hcut hptol hcond htab c ha ht htypes hL hsep hoff hno hN
    hS).forces q hq
  rw [hfix, neg_mulVec, one_mulVec] at h
  exact self_eq_neg.mp h

end Invariants

end Verif.Turned
