import Verif.Props.Turned
import Verif.Lemmas.Euler
import Verif.Lemmas.MlpGtInversion

/-!
# C124: rotation invariants of structures that are turned
-/

namespace Verif.Turned
open Verif Verif.Mlp Verif.SameCrystal
open Verif.Neighbor (Vec Csr r2 neighborHalf neighborFull Mat cellTrans cellPos fullRow)
open Matrix

section Derivatives
variable (p : GtParams ℝ) (hp : UsesProgramYlm p) (params : ℕ → ℝ × ℝ) (hrad : UsesProgramRad p params)
  (hcut : 0 < p.cutoff) (hptol : 0 < p.tol) (types : ℕ → ℕ)
  (hcond : ∀ i j, (p.cond i j).Nodup) (htab : Spec.RotTable ladderF p.maxl p.lComb p.lmArray p.lmCoeffs)
  (n i : ℕ) (hi : i < n) (tol : ℝ)
include hp hrad hcut hptol hcond htab hi

/-- Derivative of a feature with respect to displacements of the atoms. -/
theorem feat_disp (trans : List (Vec ℝ)) (pos : ℕ → Vec ℝ) (hsep : Separated tol trans pos n)
    (hoff : OffThreshold p trans pos n) (u : ℕ → Vec ℝ) (f : ℕ) :
    HasDerivAt (fun s : ℝ => featV (p.features (types i)) (arrM p Real.sqrt types i
        (fullRow p.cutoff tol trans (fun i x => pos i x + s * u i x) n i)) f)
      (DV p types i (fullRow p.cutoff tol trans pos n i) (fun j _ x => u j x - u i x) f) 0 := by
  obtain ⟨hr1, hr2⟩ := rad_rules p params hrad hcut
  have hP0 : (fun (i : ℕ) (x : Fin 3) => pos i x + (0 : ℝ) * u i x) = pos := by
    funext i x; simp
  have hPk : ∀ k, (fun x => pos k x + (0 : ℝ) * u k x) = pos k := fun k => by funext x; simp
  have h := feat_deriv p types hcond htab.table p.cutoff tol trans (fun _ t => t)
    (fun s i x => pos i x + s * u i x) (fun j _ x => u j x - u i x) n i 0
    (by
      intro j hj t htr b hb
      refine entry_deriv p hp types hr1 hr2 hcut hptol tol i j
        (fun s => (fun x => pos j x + s * u j x) - (fun x => pos i x + s * u i x) + t)
        (fun x => u j x - u i x) 0 ?_ ?_ ?_ hb
      · intro x
        have h1 : ∀ k : ℕ, HasDerivAt (fun s : ℝ => pos k x + s * u k x) (u k x) 0 := by
          intro k
          have := ((hasDerivAt_id (0 : ℝ)).mul_const (u k x)).const_add (pos k x)
          simpa using this
        exact ((h1 j).sub (h1 i)).add_const (t x)
      · simp only [hPk]
        rcases hsep.2 i hi j hj t htr with ⟨rfl, rfl⟩ | h
        · left; intro s; funext x; simp
        · exact Or.inr h
      · simp only [hPk]
        exact hoff i hi j hj t htr) f
  simp only [List.map_id'] at h
  rw [hP0] at h
  exact h

/-- Derivative of a feature with respect to a strain. -/
theorem feat_strain (trans : List (Vec ℝ)) (pos : ℕ → Vec ℝ) (hsep : Separated tol trans pos n)
    (hoff : OffThreshold p trans pos n) (ε : Fin 3 → Fin 3 → ℝ) (f : ℕ) :
    HasDerivAt (fun s : ℝ => featV (p.features (types i)) (arrM p Real.sqrt types i
        (fullRow p.cutoff tol (trans.map fun t x => t x + s * strain ε t x)
          (fun i x => pos i x + s * strain ε (pos i) x) n i)) f)
      (DV p types i (fullRow p.cutoff tol trans pos n i) (fun _ d => strain ε d) f) 0 := by
  obtain ⟨hr1, hr2⟩ := rad_rules p params hrad hcut
  have hP0 : (fun (i : ℕ) (x : Fin 3) => pos i x + (0 : ℝ) * strain ε (pos i) x) = pos := by
    funext i x; simp
  have hPk : ∀ d : Vec ℝ, (fun x => d x + (0 : ℝ) * strain ε d x) = d :=
    fun d => by funext x; simp
  have hT0 : (trans.map fun (t : Vec ℝ) (x : Fin 3) => t x + (0 : ℝ) * strain ε t x) = trans := by
    conv_rhs => rw [← List.map_id trans]
    exact List.map_congr_left fun t _ => hPk t
  have h1 : ∀ (a b : ℝ), HasDerivAt (fun s : ℝ => a + s * b) b 0 := by
    intro a b
    have := ((hasDerivAt_id (0 : ℝ)).mul_const b).const_add a
    simpa using this
  have h := feat_deriv p types hcond htab.table p.cutoff tol trans (fun s t x => t x + s * strain ε t x)
    (fun s i x => pos i x + s * strain ε (pos i) x) (fun _ d => strain ε d) n i 0
    (by
      intro j hj t htr b hb
      refine entry_deriv p hp types hr1 hr2 hcut hptol tol i j
        (fun s => (fun x => pos j x + s * strain ε (pos j) x) - (fun x => pos i x + s * strain ε (pos i) x) +
          fun x => t x + s * strain ε t x)
        _ 0 ?_ ?_ ?_ hb
      · intro x
        simp only [hPk]
        have h2 := ((h1 (pos j x) (strain ε (pos j) x)).sub (h1 (pos i x) (strain ε (pos i) x))).add
          (h1 (t x) (strain ε t x))
        refine h2.congr_deriv ?_
        unfold strain
        simp only [Pi.add_apply, Pi.sub_apply]
        ring
      · simp only [hPk]
        rcases hsep.2 i hi j hj t htr with ⟨rfl, rfl⟩ | h
        · left; intro s; funext x; simp [strain]
        · exact Or.inr h
      · simp only [hPk]
        exact hoff i hi j hj t htr) f
  rw [hP0, hT0] at h
  exact h

end Derivatives

theorem strain_mul (ε : Mat) (d : Vec ℝ) : strain ε d = ε *ᵥ d := by
  funext x
  simp [strain, Matrix.mulVec, dotProduct, Fin.sum_univ_three]

section Turn
variable (p : GtParams ℝ) (hp : UsesProgramYlm p) (params : ℕ → ℝ × ℝ) (hrad : UsesProgramRad p params)
  (hcut : 0 < p.cutoff) (hptol : 0 < p.tol) (types : ℕ → ℕ)
  (hcond : ∀ i j, (p.cond i j).Nodup) (htab : Spec.RotTable ladderF p.maxl p.lComb p.lmArray p.lmCoeffs)
  {M : Mat} (hM : Spec.Orthogonal3 M) (n : ℕ) (tol : ℝ) (ht : 0 < tol)

include hM in
theorem separated_turn {trans : List (Vec ℝ)} {pos : ℕ → Vec ℝ} (h : Separated tol trans pos n) :
    Separated tol (trans.map fun t => M *ᵥ t) (fun j => M *ᵥ pos j) n := by
  refine ⟨?_, ?_⟩
  · intro t htr
    obtain ⟨t0, h0, rfl⟩ := List.mem_map.1 htr
    rw [r2_mul hM]
    rcases h.1 t0 h0 with rfl | h
    · left; rw [mulVec_zero]
    · exact Or.inr h
  · intro i hi j hj t htr
    obtain ⟨t0, h0, rfl⟩ := List.mem_map.1 htr
    rw [← mulVec_sub, ← mulVec_add, r2_mul hM]
    rcases h.2 i hi j hj t0 h0 with ⟨rfl, rfl⟩ | h
    · left; exact ⟨rfl, mulVec_zero M⟩
    · exact Or.inr h

include hM in
theorem off_turn {trans : List (Vec ℝ)} {pos : ℕ → Vec ℝ} (h : OffThreshold p trans pos n) :
    OffThreshold p (trans.map fun t => M *ᵥ t) (fun j => M *ᵥ pos j) n := by
  intro i hi j hj t htr
  obtain ⟨t0, h0, rfl⟩ := List.mem_map.1 htr
  rw [← mulVec_sub, ← mulVec_add, r2_mul hM]
  exact h i hi j hj t0 h0

include hp hcond htab hM ht

/-- The features do not change when the structure is turned by a proper rotation. -/
theorem feat_proper (hdet : M.det = 1) (cutoff : ℝ) (trans : List (Vec ℝ)) (pos : ℕ → Vec ℝ) (i : ℕ) (hi : i < n)
    (f : ℕ) :
    featV (p.features (types i)) (arrM p Real.sqrt types i (fullRow cutoff tol
        (trans.map fun t => M *ᵥ t) (fun j => M *ᵥ pos j) n i)) f =
      featV (p.features (types i)) (arrM p Real.sqrt types i (fullRow cutoff tol trans pos n i)) f := by
  obtain ⟨u, θ, hu, hR⟩ := rotation_of hM hdet
  simp only [hR]
  exact feat_turn p hp types hcond htab cutoff tol ht trans pos n i hi u hu θ f

omit hM in
/-- The features do not change when the structure is inverted. -/
theorem feat_inverted (cutoff : ℝ) (trans : List (Vec ℝ)) (pos : ℕ → Vec ℝ) (i : ℕ) (hi : i < n) (f : ℕ) :
    featV (p.features (types i)) (arrM p Real.sqrt types i (fullRow cutoff tol
        (trans.map fun t => -t) (fun j => -pos j) n i)) f =
      featV (p.features (types i)) (arrM p Real.sqrt types i (fullRow cutoff tol trans pos n i)) f := by
  have hI : Spec.Orthogonal3 (-1 : Mat) := by
    unfold Spec.Orthogonal3
    simp
  have h := full_turn hI cutoff tol trans pos n i hi
  simp only [neg_mulVec, one_mulVec] at h
  rw [← full_row _ _ _ _ n i hi, ← full_row _ _ _ _ n i hi, h]
  exact featV_neg p Real.sqrt types hcond htab.table i _ (yok_full p hp cutoff tol ht trans pos n i hi) f

theorem feat_mul (cutoff : ℝ) (trans : List (Vec ℝ)) (pos : ℕ → Vec ℝ) (i : ℕ) (hi : i < n) (f : ℕ) :
    featV (p.features (types i)) (arrM p Real.sqrt types i (fullRow cutoff tol
        (trans.map fun t => M *ᵥ t) (fun j => M *ᵥ pos j) n i)) f =
      featV (p.features (types i)) (arrM p Real.sqrt types i (fullRow cutoff tol trans pos n i)) f := by
  have hd : M.det = 1 ∨ M.det = -1 := by
    have h : M.det * M.det = 1 := by
      have := congrArg Matrix.det hM
      rwa [Matrix.det_mul, Matrix.det_transpose, Matrix.det_one] at this
    exact mul_self_eq_one_iff.1 h
  rcases hd with hd | hd
  · exact feat_proper p hp types hcond htab hM n tol ht hd cutoff trans pos i hi f
  · have hM' : Spec.Orthogonal3 (-M) := by
      unfold Spec.Orthogonal3 at hM ⊢
      rw [Matrix.transpose_neg, Matrix.neg_mul, Matrix.mul_neg, neg_neg, hM]
    have hd' : (-M).det = 1 := by
      rw [Matrix.det_neg, hd]
      norm_num [Fintype.card_fin]
    rw [← feat_proper p hp types hcond htab hM' n tol ht hd' cutoff trans pos i hi f,
      ← feat_inverted p hp types hcond htab n tol ht cutoff (trans.map fun t => (-M) *ᵥ t) _ i hi f]
    simp only [List.map_map, neg_mulVec, neg_neg, Function.comp_def]

include hrad hcut hptol

theorem DF_turn (trans : List (Vec ℝ)) (pos : ℕ → Vec ℝ) (hsep : Separated tol trans pos n)
    (hoff : OffThreshold p trans pos n) (i : ℕ) (hi : i < n) (q : ℕ) (x : Fin 3) (f : ℕ) :
    DF p Real.sqrt types i (fullRow p.cutoff tol (trans.map fun t => M *ᵥ t) (fun j => M *ᵥ pos j) n i) q x f =
      ([0, 1, 2].map fun y => M x y * DF p Real.sqrt types i (fullRow p.cutoff tol trans pos n i) q y f).sum := by
  -- derivatives along all displacements of one atom
  have h1 : ∀ w : Vec ℝ,
      DV p types i (fullRow p.cutoff tol (trans.map fun t => M *ᵥ t) (fun j => M *ᵥ pos j) n i)
        (fun j _ x => (if j = q then (M *ᵥ w) x else 0) - (if i = q then (M *ᵥ w) x else 0)) f =
      DV p types i (fullRow p.cutoff tol trans pos n i)
        (fun j _ x => (if j = q then w x else 0) - (if i = q then w x else 0)) f := by
    intro w
    have a := feat_disp p hp params hrad hcut hptol types hcond htab n i hi tol trans pos hsep hoff
      (fun j x => if j = q then w x else 0) f
    have b := feat_disp p hp params hrad hcut hptol types hcond htab n i hi tol (trans.map fun t => M *ᵥ t)
      (fun j => M *ᵥ pos j) (separated_turn hM n tol hsep) (off_turn p hM n hoff)
      (fun j x => if j = q then (M *ᵥ w) x else 0) f
    have hfun : (fun s : ℝ => featV (p.features (types i)) (arrM p Real.sqrt types i
        (fullRow p.cutoff tol (trans.map fun t => M *ᵥ t)
          (fun j x => (M *ᵥ pos j) x + s * (if j = q then (M *ᵥ w) x else 0)) n i)) f) =
        fun s : ℝ => featV (p.features (types i)) (arrM p Real.sqrt types i
        (fullRow p.cutoff tol trans (fun j x => pos j x + s * (if j = q then w x else 0)) n i)) f := by
      funext s
      rw [← feat_mul p hp types hcond htab hM n tol ht p.cutoff trans _ i hi f]
      congr 3
      have : (fun (j : ℕ) (x : Fin 3) => (M *ᵥ pos j) x + s * (if j = q then (M *ᵥ w) x else 0)) =
          fun j => M *ᵥ fun x => pos j x + s * (if j = q then w x else 0) := by
        funext j x
        by_cases hj : j = q
        · simp only [if_pos hj, Matrix.mulVec, dotProduct, Fin.sum_univ_three]
          ring
        · simp only [if_neg hj, mul_zero, add_zero]
      rw [this]
    rw [hfun] at b
    exact b.unique a
  have h2 : ∀ (row : List (ℕ × Vec ℝ)) (w : Vec ℝ), DV p types i row
      (fun j _ x => (if j = q then w x else 0) - (if i = q then w x else 0)) f =
      -(w 0 * DF p Real.sqrt types i row q 0 f + w 1 * DF p Real.sqrt types i row q 1 f +
        w 2 * DF p Real.sqrt types i row q 2 f) := by
    intro row w
    unfold DV DF
    rw [← neg_one_mul]
    simp only [← List.sum_map_mul_left, ← List.sum_map_add]
    refine sum_map_congr _ _ _ fun e _ => ?_
    unfold sgnAt
    simp only [eq_comm (a := e.1), eq_comm (a := i)]
    split_ifs <;> ring
  simp only [h2] at h1
  -- the three unit vectors
  generalize DF p Real.sqrt types i (fullRow p.cutoff tol (trans.map fun t => M *ᵥ t) (fun j => M *ᵥ pos j) n i) q
    = V at h1 ⊢
  generalize DF p Real.sqrt types i (fullRow p.cutoff tol trans pos n i) q = U at h1 ⊢
  have h3 : ∀ y, U y f = (Mᵀ *ᵥ fun z => V z f) y := by
    intro y
    have := h1 (Pi.single y 1)
    rw [mulVec_single_one] at this
    simp only [Matrix.col_apply] at this
    simp only [Matrix.mulVec, dotProduct, Fin.sum_univ_three, Matrix.transpose_apply]
    fin_cases y <;> simp at this ⊢ <;> linarith
  have h4 : (fun z => V z f) = M *ᵥ fun y => U y f := by
    rw [show (fun y => U y f) = Mᵀ *ᵥ fun z => V z f from funext h3, mulVec_mulVec, hM, one_mulVec]
  have h5 : V x f = (M *ᵥ fun y => U y f) x := congrFun h4 x
  rw [h5]
  simp [Matrix.mulVec, dotProduct, Fin.sum_univ_three]
  ring

theorem DS_turn (trans : List (Vec ℝ)) (pos : ℕ → Vec ℝ) (hsep : Separated tol trans pos n)
    (hoff : OffThreshold p trans pos n) (i : ℕ) (hi : i < n) (x y : Fin 3) (f : ℕ) :
    DS p Real.sqrt types i (fullRow p.cutoff tol (trans.map fun t => M *ᵥ t) (fun j => M *ᵥ pos j) n i) x y f =
      (nine.map fun b => M x b.1 * M y b.2 *
        DS p Real.sqrt types i (fullRow p.cutoff tol trans pos n i) b.1 b.2 f).sum := by
  have h1 : ∀ ε : Mat,
      DV p types i (fullRow p.cutoff tol (trans.map fun t => M *ᵥ t) (fun j => M *ᵥ pos j) n i)
        (fun _ d => strain (M * ε * Mᵀ) d) f =
      DV p types i (fullRow p.cutoff tol trans pos n i) (fun _ d => strain ε d) f := by
    intro ε
    have a := feat_strain p hp params hrad hcut hptol types hcond htab n i hi tol trans pos hsep hoff ε f
    have b := feat_strain p hp params hrad hcut hptol types hcond htab n i hi tol (trans.map fun t => M *ᵥ t)
      (fun j => M *ᵥ pos j) (separated_turn hM n tol hsep) (off_turn p hM n hoff) (M * ε * Mᵀ) f
    have hst : ∀ (s : ℝ) (d : Vec ℝ), (fun x => (M *ᵥ d) x + s * strain (M * ε * Mᵀ) (M *ᵥ d) x) =
        M *ᵥ fun x => d x + s * strain ε d x := by
      intro s d
      have e1 : strain (M * ε * Mᵀ) (M *ᵥ d) = M *ᵥ strain ε d := by
        rw [strain_mul, strain_mul, mulVec_mulVec, mulVec_mulVec, Matrix.mul_assoc, orth' hM, Matrix.mul_one]
      rw [e1]
      have e2 : (fun x => d x + s * strain ε d x) = d + s • strain ε d := rfl
      rw [e2, mulVec_add, mulVec_smul]
      rfl
    have hfun : (fun s : ℝ => featV (p.features (types i)) (arrM p Real.sqrt types i
        (fullRow p.cutoff tol ((trans.map fun t => M *ᵥ t).map fun t x => t x + s * strain (M * ε * Mᵀ) t x)
          (fun j x => (M *ᵥ pos j) x + s * strain (M * ε * Mᵀ) (M *ᵥ pos j) x) n i)) f) =
        fun s : ℝ => featV (p.features (types i)) (arrM p Real.sqrt types i
        (fullRow p.cutoff tol (trans.map fun t x => t x + s * strain ε t x)
          (fun j x => pos j x + s * strain ε (pos j) x) n i)) f := by
      funext s
      rw [← feat_mul p hp types hcond htab hM n tol ht p.cutoff (trans.map fun t x => t x + s * strain ε t x)
        _ i hi f]
      simp only [List.map_map]
      rw [show ((fun (t : Vec ℝ) x => t x + s * strain (M * ε * Mᵀ) t x) ∘ fun t => M *ᵥ t) =
          (fun t => M *ᵥ t) ∘ fun t x => t x + s * strain ε t x from funext fun t => hst s t,
        show (fun (j : ℕ) x => (M *ᵥ pos j) x + s * strain (M * ε * Mᵀ) (M *ᵥ pos j) x) =
          fun j => M *ᵥ fun x => pos j x + s * strain ε (pos j) x from funext fun j => hst s (pos j)]
    rw [hfun] at b
    exact b.unique a
  have h2 : ∀ (row : List (ℕ × Vec ℝ)) (ε : Mat), DV p types i row (fun _ d => strain ε d) f =
      -(nine.map fun b => ε b.1 b.2 * DS p Real.sqrt types i row b.1 b.2 f).sum := by
    intro row ε
    unfold DV DS
    rw [← neg_one_mul]
    simp only [nine, List.map_cons, List.map_nil, List.sum_cons, List.sum_nil, add_zero,
      ← List.sum_map_mul_left, ← List.sum_map_add]
    refine sum_map_congr _ _ _ fun e _ => ?_
    unfold strain
    ring
  simp only [h2] at h1
  generalize DS p Real.sqrt types i (fullRow p.cutoff tol (trans.map fun t => M *ᵥ t) (fun j => M *ᵥ pos j) n i)
    = V at h1 ⊢
  generalize DS p Real.sqrt types i (fullRow p.cutoff tol trans pos n i) = U at h1 ⊢
  -- the strain whose image is one component
  have h3 := h1 (Mᵀ * Matrix.single x y 1 * M)
  have h4 : M * (Mᵀ * Matrix.single x y 1 * M) * Mᵀ = Matrix.single x y 1 := by
    rw [Matrix.mul_assoc Mᵀ, ← Matrix.mul_assoc, hM, Matrix.one_mul, Matrix.mul_assoc, hM, Matrix.mul_one]
  rw [h4] at h3
  have h5 : ∀ a b, (Mᵀ * Matrix.single x y (1 : ℝ) * M) a b = M x a * M y b := by
    intro a b
    simp [Matrix.mul_apply, Matrix.single_apply, Finset.sum_ite_eq, ite_and]
  simp only [h5] at h3
  have h6 : (nine.map fun b => Matrix.single x y (1 : ℝ) b.1 b.2 * V b.1 b.2 f).sum = V x y f := by
    fin_cases x <;> fin_cases y <;> simp [nine, Matrix.single_apply]
  rw [h6] at h3
  exact neg_inj.mp h3

/-- The columns of the design matrix of a structure that is turned. -/
theorem gt_turn (trans : List (Vec ℝ)) (pos : ℕ → Vec ℝ) (hsep : Separated tol trans pos n)
    (hoff : OffThreshold p trans pos n) (hno : NoDrop p types tol trans pos n)
    (hno' : NoDrop p types tol (trans.map fun t => M *ᵥ t) (fun j => M *ᵥ pos j) n) (k : ℕ) :
    let X := gtModelRun p Real.sqrt types n (neighborFull p.cutoff tol trans pos n)
    let X' := gtModelRun p Real.sqrt types n (neighborFull p.cutoff tol (trans.map fun t => M *ᵥ t)
      (fun j => M *ᵥ pos j) n)
    Spec.TurnedProps n M (X.xe k) (X'.xe k) (X.xf k) (X'.xf k) (X.xs k) (X'.xs k) := by
  intro X X'
  obtain ⟨a1, a2, a3⟩ := gtModelRun_terms p Real.sqrt types hcond htab.table n _
    (yok_full p hp p.cutoff tol ht trans pos n) k
  obtain ⟨b1, b2, b3⟩ := gtModelRun_terms p Real.sqrt types hcond htab.table n _
    (yok_full p hp p.cutoff tol ht (trans.map fun t => M *ᵥ t) (fun j => M *ᵥ pos j) n) k
  have hsym := fun trans pos => symVirial_of_rotation p Real.sqrt types hcond ladderF_ok htab
    (fun d h => (real_rules p hp d h).1) (fun d h => (real_rules p hp d h).2) n p.cutoff tol ht trans pos
  have hFM : ∀ i < n, FM p Real.sqrt types i ((neighborFull p.cutoff tol (trans.map fun t => M *ᵥ t)
      (fun j => M *ᵥ pos j) n).row i) = FM p Real.sqrt types i ((neighborFull p.cutoff tol trans pos n).row i) := by
    intro i hi
    rw [FM_exact p hp types hcond htab.table p.cutoff tol ht _ _ n i hi (hno i hi),
      FM_exact p hp types hcond htab.table p.cutoff tol ht _ _ n i hi (hno' i hi)]
    exact funext fun f => feat_mul p hp types hcond htab hM n tol ht p.cutoff trans pos i hi f
  refine columns_turn M p.poly types n k
    (fun i => FM p Real.sqrt types i ((neighborFull p.cutoff tol trans pos n).row i))
    (fun i => FM p Real.sqrt types i ((neighborFull p.cutoff tol (trans.map fun t => M *ᵥ t)
      (fun j => M *ᵥ pos j) n).row i))
    (fun q x i => DF p Real.sqrt types i ((neighborFull p.cutoff tol trans pos n).row i) q x)
    (fun q x i => DF p Real.sqrt types i ((neighborFull p.cutoff tol (trans.map fun t => M *ᵥ t)
      (fun j => M *ᵥ pos j) n).row i) q x)
    (fun x y i => DS p Real.sqrt types i ((neighborFull p.cutoff tol trans pos n).row i) x y)
    (fun x y i => DS p Real.sqrt types i ((neighborFull p.cutoff tol (trans.map fun t => M *ᵥ t)
      (fun j => M *ᵥ pos j) n).row i) x y) hFM ?_ ?_ ?_ ?_ _ _ _ _ _ _ ?_ (fun q x => a2 q x) (fun q x => b2 q x)
    (fun c => a3 c) (fun c => b3 c)
  · intro q _ x i hi g
    simp only [full_row _ _ _ _ n i hi]
    exact DF_turn p hp params hrad hcut hptol types hcond htab hM n tol ht trans pos hsep hoff i hi q x g
  · intro x y i hi g
    simp only [full_row _ _ _ _ n i hi]
    exact DS_turn p hp params hrad hcut hptol types hcond htab hM n tol ht trans pos hsep hoff i hi x y g
  · intro x y i hi g
    exact hsym _ _ i hi x y g
  · intro x y i hi g
    exact hsym _ _ i hi x y g
  · show X'.xe k = X.xe k
    simp only [X, X', a1, b1]
    refine sum_map_congr _ _ _ fun i hi => ?_
    rw [List.mem_range] at hi
    rw [hFM i hi]

/-- **C124.**  Design matrix of a model with rotation invariants: the columns of a structure that is turned. -/
theorem C124_invariant_columns (a : Mat) (ha : a.det ≠ 0) (pos : ℕ → Vec ℝ)
    (hsep : Separated tol (cellTrans a p.cutoff) (fun j => cellPos a (pos j)) n)
    (hoff : OffThreshold p (cellTrans a p.cutoff) (fun j => cellPos a (pos j)) n)
    (hno : NoDrop p types tol (cellTrans a p.cutoff) (fun j => cellPos a (pos j)) n)
    (hno' : NoDrop p types tol (cellTrans (M * a) p.cutoff) (fun j => cellPos (M * a) (M *ᵥ pos j)) n) (k : ℕ) :
    let X := gtModelRun p Real.sqrt types n (fullList a p.cutoff tol pos n)
    let X' := gtModelRun p Real.sqrt types n (fullList (M * a) p.cutoff tol (fun j => M *ᵥ pos j) n)
    Spec.TurnedProps n M (X.xe k) (X'.xe k) (X.xf k) (X'.xf k) (X.xs k) (X'.xs k) := by
  rw [cellTrans_mul hM] at hno'
  simp only [cellPos_mul hM a ha] at hno'
  unfold fullList
  rw [cellTrans_mul hM]
  simp only [cellPos_mul hM a ha]
  exact gt_turn p hp params hrad hcut hptol types hcond htab hM n tol ht _ _ hsep hoff hno hno' k

/-- **C124.**  Energy, forces and stress of a potential with rotation invariants. -/
theorem C124_invariant_properties (htypes : ∀ i < n, types i < p.nType) (c : ℕ → ℝ) (a : Mat) (ha : a.det ≠ 0)
    (pos : ℕ → Vec ℝ) (hL : Spec.LongTranslations (Spec.lattice a) tol)
    (hsep : Separated tol (cellTrans a p.cutoff) (fun j => cellPos a (pos j)) n)
    (hoff : OffThreshold p (cellTrans a p.cutoff) (fun j => cellPos a (pos j)) n)
    (hno : NoDrop p types tol (cellTrans a p.cutoff) (fun j => cellPos a (pos j)) n)
    (hno' : NoDrop p types tol (cellTrans (M * a) p.cutoff) (fun j => cellPos (M * a) (M *ᵥ pos j)) n) :
    let R := evalGtinv p Real.sqrt (p.pot c) types n (halfList a p.cutoff tol pos n)
    let R' := evalGtinv p Real.sqrt (p.pot c) types n (halfList (M * a) p.cutoff tol (fun j => M *ᵥ pos j) n)
    Spec.TurnedProps n M R.energy R'.energy R.forces R'.forces R.stress R'.stress := by
  intro R R'
  obtain ⟨e1, e2, e3⟩ := C59_program p hp types hcond htab n htypes c p.cutoff tol ht (cellTrans a p.cutoff)
    (fun j => cellPos a (pos j)) (Neighbor.C22_cell_neg a p.cutoff) (tol_cell ht hL)
  obtain ⟨g1, g2, g3⟩ := C59_program p hp types hcond htab n htypes c p.cutoff tol ht
    (cellTrans (M * a) p.cutoff) (fun j => cellPos (M * a) (M *ᵥ pos j)) (Neighbor.C22_cell_neg (M * a) p.cutoff)
    (tol_cell ht (lattice_turn hM hL))
  exact turned_lin M n (List.range (nVariables p.params)) c _ _ _ _ _ _
    (fun k => C124_invariant_columns p hp params hrad hcut hptol types hcond htab hM n tol ht a ha pos hsep
      hoff hno hno' k) _ _ _ _ _ _ (e1 hno) (g1 hno') e2 g2 e3 g3

end Turn

end Verif.Turned
