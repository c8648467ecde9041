import Verif.Spec.Relax
import Verif.Lemmas.MlpEval
import Verif.Props.MlpGrad
import Mathlib.Analysis.SpecialFunctions.Trigonometric.Deriv
import Mathlib.Analysis.SpecialFunctions.Pow.Deriv
import Mathlib.Analysis.Calculus.Deriv.Mul
import Mathlib.Analysis.Calculus.Deriv.Comp
import Mathlib.LinearAlgebra.Matrix.Trace
import Mathlib.LinearAlgebra.Matrix.Adjugate
import Mathlib.Tactic.FieldSimp
import Mathlib.Tactic.LinearCombination
import Mathlib.Tactic.IntervalCases

/-! # C65, C66: geometry optimization -/

namespace Verif.OptGeom
open Verif.Neighbor (Vec)
open Verif.Spec

/-! ## Helper lemmas -/

/-- Refining positions moves atoms to periodic images. -/
theorem eval_refine (eval : Eval) (h : Periodic eval) (tol : ℝ) (A : Axis) (f : ℕ → Vec ℝ) :
    eval A (refine tol f) = eval A f := by
  have := h A f fun i a => if f i a - (⌊f i a⌋ : ℝ) > 1 - tol then -⌊f i a⌋ - 1 else -⌊f i a⌋
  rw [← this]
  congr 1
  funext i a
  simp only [refine, Supercell.refine1]
  split <;> push_cast <;> ring

/-- Changing one coordinate changes the displacements linearly. -/
theorem disps_update (c : Config) (x : ℕ → ℝ) (k : ℕ) (hk : k < c.sizePos) (s : ℝ) (i : ℕ) (a : Fin 3) :
    disps c (Function.update x k (x k + s)) i a = disps c x i a + s * c.basisF (3 * i + a) k := by
  have h : ∀ j, c.basisF (3 * i + a) j * Function.update x k (x k + s) j =
      c.basisF (3 * i + a) j * x j + (if j = k then s * c.basisF (3 * i + a) k else 0) := by
    intro j
    by_cases hj : j = k
    · subst hj; simp; ring
    · simp [hj]
  simp only [disps, h, List.sum_map_add]
  congr 1
  exact Verif.Mlp.sum_range_delta c.sizePos k _ hk

theorem axisOf_update (c : Config) (x : ℕ → ℝ) (j : ℕ) (hj : j < c.nAxis) (s : ℝ) :
    axisOf c (Function.update x (c.sizePos + j) (x (c.sizePos + j) + s)) =
      axisOf c x + s • Matrix.of fun (r t : Fin 3) => c.basisAxis (3 * r + t) j := by
  ext r t
  have h : ∀ k, c.basisAxis (3 * r + t) k * Function.update x (c.sizePos + j) (x (c.sizePos + j) + s)
      (c.sizePos + k) = c.basisAxis (3 * r + t) k * x (c.sizePos + k) +
        (if k = j then s * c.basisAxis (3 * r + t) j else 0) := by
    intro k
    by_cases hk : k = j
    · subst hk; simp; ring
    · simp [hk]
  simp only [axisOf, h, List.sum_map_add, Matrix.of_apply, Matrix.add_apply, Matrix.smul_apply, smul_eq_mul]
  congr 1
  exact Verif.Mlp.sum_range_delta c.nAxis j _ hj

/-- The axes do not depend on the coordinates of the positions. -/
theorem axisOf_update_pos (c : Config) (x : ℕ → ℝ) (k : ℕ) (hk : k < c.sizePos) (v : ℝ) :
    axisOf c (Function.update x k v) = axisOf c x := by
  ext r t
  have h : ∀ l, c.sizePos + l ≠ k := fun l => by omega
  simp [axisOf, h]

/-- The displacements do not depend on the coordinates of the cell. -/
theorem disps_update_cell (c : Config) (x : ℕ → ℝ) (j : ℕ) (v : ℝ) :
    disps c (Function.update x (c.sizePos + j) v) = disps c x := by
  funext i a
  simp only [disps]
  congr 1
  refine List.map_congr_left fun k hk => ?_
  rw [Function.update_of_ne]
  have := List.mem_range.1 hk
  omega

theorem sum_range_three (n : ℕ) (g : ℕ → ℝ) : ((List.range (3 * n)).map g).sum =
    ((List.range n).map fun i => g (3 * i) + g (3 * i + 1) + g (3 * i + 2)).sum := by
  induction n with
  | zero => rfl
  | succ n ih =>
    have : 3 * (n + 1) = 3 * n + 1 + 1 + 1 := by ring
    rw [this, List.range_succ, List.range_succ, List.range_succ, List.range_succ]
    simp only [List.map_append, List.sum_append, ih, List.map_cons, List.map_nil, List.sum_cons, List.sum_nil]
    ring

/-- The derivative along a column of the basis of positions. -/
theorem jacFix_deriv (c : Config) (st : State) (k : ℕ) (f : ℕ → Vec ℝ)
    (hst : st.force = (c.eval st.axis f).forces) (hF : ForcesAreDerivatives c.eval c.n st.axis f) :
    HasDerivAt (fun s : ℝ => (c.eval st.axis fun i a => f i a + s * c.basisF (3 * i + a) k).energy)
      (jacFix c st k) 0 := by
  have h := hF fun i a => c.basisF (3 * i + a) k
  convert h using 1
  rw [jacFix, sum_range_three, ← neg_one_mul (List.sum _), ← List.sum_map_mul_left]
  congr 1
  refine List.map_congr_left fun i _ => ?_
  have e0 : (3 * i) / 3 = i := by omega
  have e1 : (3 * i + 1) / 3 = i := by omega
  have e2 : (3 * i + 2) / 3 = i := by omega
  have m0 : Fin.ofNat 3 (3 * i) = 0 := by ext; simp [Fin.ofNat]
  have m1 : Fin.ofNat 3 (3 * i + 1) = 1 := by ext; simp [Fin.ofNat]
  have m2 : Fin.ofNat 3 (3 * i + 2) = 2 := by ext; simp [Fin.ofNat]
  rw [e0, e1, e2, m0, m1, m2]
  simp only [prod, hst, Matrix.mulVec, dotProduct, Fin.sum_univ_three]
  have z1 : ((1 : Fin 3) : ℕ) = 1 := rfl
  have z2 : ((2 : Fin 3) : ℕ) = 2 := rfl
  have z0 : ((0 : Fin 3) : ℕ) = 0 := rfl
  simp only [z0, z1, z2, Nat.add_zero]
  ring

/-- The derivative of the determinant along `A + s B`. -/
theorem det_deriv (A B : Axis) (hA : A.det ≠ 0) :
    HasDerivAt (fun s : ℝ => (A + s • B).det) (A.det * (B * A⁻¹).trace) 0 := by
  have h1 : A.det * (B * A⁻¹).trace = (B * A.adjugate).trace := by
    rw [Matrix.inv_def, Matrix.mul_smul, Matrix.trace_smul, smul_eq_mul, ← mul_assoc, Ring.inverse_eq_inv',
      mul_inv_cancel₀ hA, one_mul]
  have h2 : ∃ c2 c3 : ℝ, ∀ s : ℝ, (A + s • B).det =
      A.det + s * (B * A.adjugate).trace + s ^ 2 * c2 + s ^ 3 * c3 := by
    refine ⟨(A * B.adjugate).trace, B.det, fun s => ?_⟩
    simp only [Matrix.det_fin_three, Matrix.adjugate_fin_three, Matrix.trace_fin_three, Matrix.mul_apply,
      Fin.sum_univ_three, Matrix.add_apply, Matrix.smul_apply, smul_eq_mul, Matrix.of_apply, Matrix.cons_val',
      Matrix.cons_val_zero, Matrix.cons_val_one, Matrix.cons_val]
    ring
  obtain ⟨c2, c3, h2⟩ := h2
  rw [h1]
  rw [show (fun s : ℝ => (A + s • B).det) = _ from funext h2]
  have := ((((hasDerivAt_id (0 : ℝ)).mul_const (B * A.adjugate).trace).const_add A.det).add
    (((hasDerivAt_id (0 : ℝ)).pow 2).mul_const c2)).add (((hasDerivAt_id (0 : ℝ)).pow 3).mul_const c3)
  exact this.congr_deriv (by simp)

theorem sum_range_nine (G : Fin 3 → Fin 3 → ℝ) :
    ((List.range 9).map fun q => G (Fin.ofNat 3 (q / 3)) (Fin.ofNat 3 q)).sum = ∑ r : Fin 3, ∑ t : Fin 3, G r t := by
  have : ((List.range 9).map fun q => G (Fin.ofNat 3 (q / 3)) (Fin.ofNat 3 q)) =
      [G 0 0, G 0 1, G 0 2, G 1 0, G 1 1, G 1 2, G 2 0, G 2 1, G 2 2] := rfl
  rw [this]
  simp only [Fin.sum_univ_three, List.sum_cons, List.sum_nil]
  ring

/-- The derivative of the enthalpy along a column of the basis of the axes. -/
theorem derivByAxis_deriv (c : Config) (st : State) (j : ℕ) (f : ℕ → Vec ℝ) (hr : c.relaxCell = true)
    (hst : st.stress = (c.eval st.axis f).stress) (hdet : st.axis.det ≠ 0)
    (hS : StressIsDerivative c.eval st.axis f) :
    HasDerivAt (fun s : ℝ => enthalpy c.eval c.pressure c.evToGPa
      (st.axis + s • Matrix.of fun (r t : Fin 3) => c.basisAxis (3 * r + t) j) f) (derivByAxis c st j) 0 := by
  set B : Axis := Matrix.of fun (r t : Fin 3) => c.basisAxis (3 * r + t) j with hB
  have h1 := hS (B * st.axis⁻¹)
  have hBA : B * st.axis⁻¹ * st.axis = B := Matrix.nonsing_inv_mul_cancel_right _ _ (isUnit_iff_ne_zero.2 hdet)
  rw [hBA] at h1
  have h2 := ((det_deriv st.axis B hdet).const_mul c.pressure).div_const c.evToGPa
  have h3 := h1.add h2
  refine (HasDerivAt.congr_deriv (f := fun s : ℝ => enthalpy c.eval c.pressure c.evToGPa (st.axis + s • B) f)
    h3 ?_)
  have hq : ∀ q < 9, c.basisAxis q j = B (Fin.ofNat 3 (q / 3)) (Fin.ofNat 3 q) := by
    intro q hq
    rw [hB]
    simp only [Matrix.of_apply, Fin.ofNat]
    congr 1
    omega
  have hs : ((List.range 9).map fun q => c.basisAxis q j *
      (-(sigma c st) * st.axis⁻¹.transpose) (Fin.ofNat 3 (q / 3)) (Fin.ofNat 3 q)).sum =
      ∑ r : Fin 3, ∑ t : Fin 3, B r t * (-(sigma c st) * st.axis⁻¹.transpose) r t := by
    have : ((List.range 9).map fun q => c.basisAxis q j *
      (-(sigma c st) * st.axis⁻¹.transpose) (Fin.ofNat 3 (q / 3)) (Fin.ofNat 3 q)) =
      (List.range 9).map fun q => B (Fin.ofNat 3 (q / 3)) (Fin.ofNat 3 q) *
      (-(sigma c st) * st.axis⁻¹.transpose) (Fin.ofNat 3 (q / 3)) (Fin.ofNat 3 q) :=
      List.map_congr_left fun q hq' => by rw [hq q (List.mem_range.1 hq')]
    rw [this]
    exact sum_range_nine fun r t => B r t * (-(sigma c st) * st.axis⁻¹.transpose) r t
  simp only [derivByAxis, hr, if_true]
  rw [hs]
  simp only [sigma, pvTerm, hst]
  simp only [Fin.sum_univ_three, Matrix.mul_apply, Matrix.neg_apply, Matrix.transpose_apply, Matrix.trace_fin_three,
    Matrix.of_apply, Matrix.cons_val', Matrix.cons_val_zero, Matrix.cons_val_one, Matrix.cons_val]
  ring

/-- What a successful call leaves behind. -/
theorem funFix_ok (c : Config) (st : State) (x : ℕ → ℝ) (st' : State) (e : ℝ)
    (h : funFix c st x = .ok (st', e)) :
    ¬ (c.eval (toStructureFix c st x).axis (toStructureFix c st x).positions).energy < -1000 * c.n ∧
    st'.axis = (toStructureFix c st x).axis ∧ st'.positions = (toStructureFix c st x).positions ∧
    st'.force = (c.eval (toStructureFix c st x).axis (toStructureFix c st x).positions).forces ∧
    e = (c.eval (toStructureFix c st x).axis (toStructureFix c st x).positions).energy +
      pvTerm c (toStructureFix c st x).axis := by
  simp only [funFix] at h
  split at h
  · exact absurd h (by simp)
  · rename_i hn
    simp only [Except.ok.injEq, Prod.mk.injEq] at h
    obtain ⟨rfl, rfl⟩ := h
    exact ⟨hn, rfl, rfl, rfl, rfl⟩

theorem funRelax_ok (c : Config) (st : State) (x : ℕ → ℝ) (st' : State) (e : ℝ)
    (h : funRelax c st x = .ok (st', e)) :
    ¬ ((c.eval (toStructureRelax c st x).axis (toStructureRelax c st x).positions).energy < -1000 * c.n ∨
      1000 < |(toStructureRelax c st x).axis.det| / c.n) ∧
    st'.axis = (toStructureRelax c st x).axis ∧ st'.positions = (toStructureRelax c st x).positions ∧
    st'.force = (c.eval (toStructureRelax c st x).axis (toStructureRelax c st x).positions).forces ∧
    st'.stress = (c.eval (toStructureRelax c st x).axis (toStructureRelax c st x).positions).stress ∧
    e = (c.eval (toStructureRelax c st x).axis (toStructureRelax c st x).positions).energy +
      pvTerm c (toStructureRelax c st x).axis := by
  simp only [funRelax] at h
  split at h
  · exact absurd h (by simp)
  · rename_i hn
    simp only [Except.ok.injEq, Prod.mk.injEq] at h
    obtain ⟨rfl, rfl⟩ := h
    exact ⟨hn, rfl, rfl, rfl, rfl, rfl⟩

/-- The structure to which the coordinates belong: the reference positions with displacements. -/
def target (c : Config) (x : ℕ → ℝ) : ℕ → Vec ℝ := fun i a => c.positions0 i a + disps c x i a

theorem target_nil (c : Config) (x : ℕ → ℝ) (h : c.sizePos = 0) : target c x = c.positions0 := by
  funext i a
  simp [target, disps, h]

/-- Folding over a history keeps what every call keeps. -/
theorem foldlM_inv {S X : Type} (P : S → Prop) (f : S → X → Except Err S)
    (hf : ∀ s x s', P s → f s x = .ok s' → P s') (xs : List X) :
    ∀ s s' : S, P s → xs.foldlM f s = .ok s' → P s' := by
  induction xs with
  | nil =>
    intro s s' hs h
    simp only [List.foldlM_nil, pure, Except.pure, Except.ok.injEq] at h
    exact h ▸ hs
  | cons x xs ih =>
    intro s s' hs h
    rw [List.foldlM_cons] at h
    cases hx : f s x with
    | error e => rw [hx] at h; exact absurd h (by simp [bind, Except.bind])
    | ok s1 =>
      rw [hx] at h
      exact ih s1 s' (hf s x s1 hs hx) h

theorem map_ok {A B E : Type} (g : A → B) (r : Except E A) (b : B) (h : r.map g = .ok b) :
    ∃ a, r = .ok a ∧ g a = b := by
  cases r with
  | error e => simp [Except.map] at h
  | ok a => exact ⟨a, rfl, by simpa [Except.map] using h⟩

theorem toStructureRelax_axis (c : Config) (st : State) (x : ℕ → ℝ) : (toStructureRelax c st x).axis =
    if c.relaxCell then axisOf c x else ((x c.sizePos / st.axis.det) ^ (1 / 3 : ℝ)) • st.axis := by
  simp only [toStructureRelax, toStructureFix]
  split <;> split <;> rfl

theorem toStructureRelax_positions (c : Config) (st : State) (x : ℕ → ℝ) : (toStructureRelax c st x).positions =
    if c.relaxPositions then refine c.tol (target c x) else st.positions := by
  simp only [toStructureRelax, toStructureFix]
  split <;> split <;> rfl

/-- While positions are fixed, they stay the positions of the start. -/
theorem evalsRelax_positions (c : Config) (hp : c.relaxPositions = false) (A0 : Axis) (xs : List (ℕ → ℝ))
    (st : State) (h : evalsRelax c (initialState c A0) xs = .ok st) : st.positions = c.positions0 := by
  refine foldlM_inv (fun s => s.positions = c.positions0) _ ?_ xs _ _ rfl h
  intro s x s' hs hx
  obtain ⟨⟨s1, e⟩, h1, rfl⟩ := map_ok _ _ _ hx
  obtain ⟨-, -, h2, -⟩ := funRelax_ok c s x s1 e h1
  rw [h2, toStructureRelax_positions, hp]
  exact hs

/-- The evaluator sees the target positions. -/
theorem eval_target (c : Config) (hper : Periodic c.eval) (hnone : c.relaxPositions = false → c.sizePos = 0)
    (st : State) (hpos : c.relaxPositions = false → st.positions = c.positions0) (x : ℕ → ℝ) (A : Axis) :
    c.eval A (if c.relaxPositions then refine c.tol (target c x) else st.positions) = c.eval A (target c x) := by
  cases hp : c.relaxPositions with
  | true => simpa using eval_refine c.eval hper c.tol A _
  | false => simp [hpos hp, target_nil c x (hnone hp)]

theorem target_update (c : Config) (x : ℕ → ℝ) (k : ℕ) (hk : k < c.sizePos) (s : ℝ) :
    target c (Function.update x k (x k + s)) = fun i a => target c x i a + s * c.basisF (3 * i + a) k := by
  funext i a
  simp only [target, disps_update c x k hk s, add_assoc]

/-! ## C65: the gradient given to the minimizer -/

/-- C65, relaxation of the cell: after any history of calls, a call returns the enthalpy of the structure of its
coordinates, and the gradient read after it is the gradient of the enthalpy, for the coordinates of the
positions and for those of the axes. -/
theorem C65_cell (c : Config) (hr : c.relaxCell = true) (hper : Periodic c.eval)
    (hnone : c.relaxPositions = false → c.sizePos = 0) (A0 : Axis) (xs : List (ℕ → ℝ)) (st : State)
    (hist : evalsRelax c (initialState c A0) xs = .ok st) (x : ℕ → ℝ) (st' : State) (e : ℝ)
    (hcall : funRelax c st x = .ok (st', e)) (hdet : (axisOf c x).det ≠ 0)
    (hF : ForcesAreDerivatives c.eval c.n (axisOf c x) (fun i a => c.positions0 i a + disps c x i a))
    (hS : StressIsDerivative c.eval (axisOf c x) (fun i a => c.positions0 i a + disps c x i a)) :
    let H := fun y : ℕ → ℝ => enthalpy c.eval c.pressure c.evToGPa (axisOf c y)
      (fun i a => c.positions0 i a + disps c y i a)
    e = H x ∧ ∀ k < c.sizePos + c.nAxis,
      HasDerivAt (fun s : ℝ => H (Function.update x k (x k + s))) (jacRelax c st' k) 0 := by
  intro H
  obtain ⟨-, hA, hP, hf, hs, he⟩ := funRelax_ok c st x st' e hcall
  have hpos := fun hp => evalsRelax_positions c hp A0 xs st hist
  have hax : (toStructureRelax c st x).axis = axisOf c x := by rw [toStructureRelax_axis, hr]; rfl
  rw [hax] at hA
  rw [hax, toStructureRelax_positions, eval_target c hper hnone st hpos x] at hf hs he
  refine ⟨he, fun k hk => ?_⟩
  by_cases hk' : k < c.sizePos
  · have hrel : c.relaxPositions = true := by
      cases hp : c.relaxPositions with
      | true => rfl
      | false => have := hnone hp; omega
    have hj : jacRelax c st' k = jacFix c st' k := by simp [jacRelax, hk', hrel]
    rw [hj]
    have h1 := jacFix_deriv c st' k (target c x) (by rw [hf, hA]) (by rw [hA]; exact hF)
    have h2 := h1.add_const (c.pressure * (axisOf c x).det / c.evToGPa)
    refine h2.congr_of_eventuallyEq (Filter.Eventually.of_forall fun s => ?_)
    show H (Function.update x k (x k + s)) = _
    have : H (Function.update x k (x k + s)) = enthalpy c.eval c.pressure c.evToGPa
        (axisOf c (Function.update x k (x k + s))) (target c (Function.update x k (x k + s))) := rfl
    rw [this, axisOf_update_pos c x k hk', target_update c x k hk', enthalpy, hA]
  · obtain ⟨j, rfl⟩ : ∃ j, k = c.sizePos + j := ⟨k - c.sizePos, by omega⟩
    have hj : jacRelax c st' (c.sizePos + j) = derivByAxis c st' j := by simp [jacRelax]
    rw [hj]
    have h1 := derivByAxis_deriv c st' j (target c x) hr (by rw [hs, hA]) (by rw [hA]; exact hdet)
      (by rw [hA]; exact hS)
    refine h1.congr_of_eventuallyEq (Filter.Eventually.of_forall fun s => ?_)
    have : H (Function.update x (c.sizePos + j) (x (c.sizePos + j) + s)) =
        enthalpy c.eval c.pressure c.evToGPa
        (axisOf c (Function.update x (c.sizePos + j) (x (c.sizePos + j) + s)))
        (fun i a => c.positions0 i a + disps c (Function.update x (c.sizePos + j) (x (c.sizePos + j) + s)) i a) := rfl
    show H (Function.update x (c.sizePos + j) (x (c.sizePos + j) + s)) = _
    rw [this, axisOf_update c x j (by omega) s, disps_update_cell c x j, hA]
    rfl

theorem evalsFix_axis (c : Config) (A0 : Axis) (xs : List (ℕ → ℝ))
    (st : State) (h : evalsFix c (initialState c A0) xs = .ok st) : st.axis = A0 := by
  refine foldlM_inv (fun s => s.axis = A0) _ ?_ xs _ _ rfl h
  intro s x s' hs hx
  obtain ⟨⟨s1, e⟩, h1, rfl⟩ := map_ok _ _ _ hx
  obtain ⟨-, h2, -⟩ := funFix_ok c s x s1 e h1
  show s1.axis = A0
  rw [h2, ← hs, toStructureFix]
  split <;> rfl

/-- C65, fixed cell: after any history of calls, a call returns the enthalpy of the structure of its coordinates,
and the gradient read after it is the gradient of the enthalpy. -/
theorem C65_positions (c : Config) (hr : c.relaxPositions = true) (hper : Periodic c.eval)
    (A0 : Axis) (xs : List (ℕ → ℝ)) (st : State)
    (hist : evalsFix c (initialState c A0) xs = .ok st) (x : ℕ → ℝ) (st' : State) (e : ℝ)
    (hcall : funFix c st x = .ok (st', e))
    (hF : ForcesAreDerivatives c.eval c.n A0 (fun i a => c.positions0 i a + disps c x i a)) :
    let H := fun y : ℕ → ℝ => enthalpy c.eval c.pressure c.evToGPa A0
      (fun i a => c.positions0 i a + disps c y i a)
    e = H x ∧ ∀ k < c.sizePos,
      HasDerivAt (fun s : ℝ => H (Function.update x k (x k + s))) (jacFix c st' k) 0 := by
  intro H
  obtain ⟨-, hA, hP, hf, he⟩ := funFix_ok c st x st' e hcall
  have hax : (toStructureFix c st x).axis = A0 := by
    rw [← evalsFix_axis c A0 xs st hist, toStructureFix]
    split <;> rfl
  have hps : (toStructureFix c st x).positions = refine c.tol (target c x) := by
    rw [toStructureFix, hr]; rfl
  rw [hax] at hA
  rw [hax, hps, eval_refine c.eval hper] at hf he
  refine ⟨he, fun k hk => ?_⟩
  have h1 := jacFix_deriv c st' k (target c x) (by rw [hf, hA]) (by rw [hA]; exact hF)
  have h2 := h1.add_const (c.pressure * A0.det / c.evToGPa)
  refine h2.congr_of_eventuallyEq (Filter.Eventually.of_forall fun s => ?_)
  have : H (Function.update x k (x k + s)) = enthalpy c.eval c.pressure c.evToGPa
      A0 (target c (Function.update x k (x k + s))) := rfl
  show H (Function.update x k (x k + s)) = _
  rw [this, target_update c x k hk, enthalpy, hA]

/-! ### Relaxation of the volume -/

/-- Folding over a history, with the calls at hand. -/
theorem foldlM_inv_mem {S X : Type} (P : S → Prop) (f : S → X → Except Err S) (xs : List X)
    (hf : ∀ x ∈ xs, ∀ s s', P s → f s x = .ok s' → P s') :
    ∀ s s' : S, P s → xs.foldlM f s = .ok s' → P s' := by
  induction xs with
  | nil =>
    intro s s' hs h
    simp only [List.foldlM_nil, pure, Except.pure, Except.ok.injEq] at h
    exact h ▸ hs
  | cons x xs ih =>
    intro s s' hs h
    rw [List.foldlM_cons] at h
    cases hx : f s x with
    | error e => rw [hx] at h; exact absurd h (by simp [bind, Except.bind])
    | ok s1 =>
      rw [hx] at h
      exact ih (fun y hy => hf y (List.mem_cons_of_mem _ hy)) s1 s'
        (hf x List.mem_cons_self s s1 hs hx) h

/-- Scaling from a scaled cell is scaling from the first cell. -/
theorem scale_again (A0 : Axis) (h0 : 0 < A0.det) (t V : ℝ) (ht : 0 < t) (hV : 0 < V) :
    ((V / (t • A0).det) ^ (1 / 3 : ℝ)) • (t • A0) = ((V / A0.det) ^ (1 / 3 : ℝ)) • A0 := by
  rw [Matrix.det_smul, Fintype.card_fin, smul_smul]
  congr 1
  have e1 : V / (t ^ 3 * A0.det) = (V / A0.det) / t ^ 3 := by field_simp
  rw [e1, Real.div_rpow (by positivity) (by positivity)]
  have e2 : (t ^ 3) ^ (1 / 3 : ℝ) = t := by
    rw [← Real.rpow_natCast, ← Real.rpow_mul ht.le]; norm_num
  rw [e2, div_mul_cancel₀ _ ht.ne']

/-- The cell after a history of volumes is a scaled first cell. -/
theorem evalsRelax_axis (c : Config) (hr : c.relaxCell = false) (A0 : Axis) (h0 : 0 < A0.det) (xs : List (ℕ → ℝ))
    (hx : ∀ y ∈ xs, 0 < y c.sizePos)
    (st : State) (h : evalsRelax c (initialState c A0) xs = .ok st) : ∃ t : ℝ, 0 < t ∧ st.axis = t • A0 := by
  refine foldlM_inv_mem (fun s => ∃ t : ℝ, 0 < t ∧ s.axis = t • A0) _ xs ?_ _ _ ⟨1, one_pos, (one_smul _ _).symm⟩ h
  rintro x hxm s s' ⟨t, ht, hs⟩ hx'
  obtain ⟨⟨s1, e⟩, h1, rfl⟩ := map_ok _ _ _ hx'
  obtain ⟨-, h2, -⟩ := funRelax_ok c s x s1 e h1
  refine ⟨(x c.sizePos / A0.det) ^ (1 / 3 : ℝ), Real.rpow_pos_of_pos (div_pos (hx x hxm) h0) _, ?_⟩
  show s1.axis = _
  rw [h2, toStructureRelax_axis, hr, hs]
  exact scale_again A0 h0 t _ ht (hx x hxm)

/-- C65, relaxation of the volume, in part: after any history of calls, a call returns the enthalpy of the
structure of its coordinates, whose volume is the last coordinate; the gradient read after it is the gradient of
the enthalpy for the coordinates of the positions.  For the volume the program returns the derivative multiplied
by the volume; the claim that it returns the derivative is false (`C65_volume_violation`). -/
theorem C65_volume_partial (c : Config) (hr : c.relaxCell = false) (hper : Periodic c.eval)
    (hnone : c.relaxPositions = false → c.sizePos = 0) (A0 : Axis) (h0 : 0 < A0.det) (xs : List (ℕ → ℝ))
    (hxs : ∀ y ∈ xs, 0 < y c.sizePos) (st : State)
    (hist : evalsRelax c (initialState c A0) xs = .ok st) (x : ℕ → ℝ) (hx : 0 < x c.sizePos) (st' : State) (e : ℝ)
    (hcall : funRelax c st x = .ok (st', e))
    (hF : ForcesAreDerivatives c.eval c.n (((x c.sizePos / A0.det) ^ (1 / 3 : ℝ)) • A0)
      (fun i a => c.positions0 i a + disps c x i a))
    (hS : StressIsDerivative c.eval (((x c.sizePos / A0.det) ^ (1 / 3 : ℝ)) • A0)
      (fun i a => c.positions0 i a + disps c x i a)) :
    let H := fun y : ℕ → ℝ => enthalpy c.eval c.pressure c.evToGPa (((y c.sizePos / A0.det) ^ (1 / 3 : ℝ)) • A0)
      (fun i a => c.positions0 i a + disps c y i a)
    e = H x ∧ st'.axis.det = x c.sizePos ∧
    (∀ k < c.sizePos, HasDerivAt (fun s : ℝ => H (Function.update x k (x k + s))) (jacRelax c st' k) 0) ∧
    HasDerivAt (fun s : ℝ => H (Function.update x c.sizePos (x c.sizePos + s)))
      (jacRelax c st' c.sizePos / x c.sizePos) 0 := by
  intro H
  obtain ⟨-, hA, hP, hf, hs, he⟩ := funRelax_ok c st x st' e hcall
  have hpos := fun hp => evalsRelax_positions c hp A0 xs st hist
  obtain ⟨t, ht, hst⟩ := evalsRelax_axis c hr A0 h0 xs hxs st hist
  set r := (x c.sizePos / A0.det) ^ (1 / 3 : ℝ) with hrdef
  have hrpos : 0 < r := Real.rpow_pos_of_pos (div_pos hx h0) _
  have hax : (toStructureRelax c st x).axis = r • A0 := by
    rw [toStructureRelax_axis, hr, hst]
    exact scale_again A0 h0 t _ ht hx
  rw [hax] at hA
  rw [hax, toStructureRelax_positions, eval_target c hper hnone st hpos x] at hf hs he
  have hr3 : r ^ 3 = x c.sizePos / A0.det := by
    rw [hrdef, ← Real.rpow_natCast, ← Real.rpow_mul (div_pos hx h0).le]; norm_num
  have hdet : (r • A0).det = x c.sizePos := by
    rw [Matrix.det_smul, Fintype.card_fin, hr3]; field_simp
  refine ⟨he, by rw [hA, hdet], fun k hk => ?_, ?_⟩
  · have hrel : c.relaxPositions = true := by
      cases hp : c.relaxPositions with
      | true => rfl
      | false => have := hnone hp; omega
    have hj : jacRelax c st' k = jacFix c st' k := by simp [jacRelax, hk, hrel]
    rw [hj]
    have h1 := jacFix_deriv c st' k (target c x) (by rw [hf, hA]) (by rw [hA]; exact hF)
    have h2 := h1.add_const (c.pressure * (r • A0).det / c.evToGPa)
    refine h2.congr_of_eventuallyEq (Filter.Eventually.of_forall fun s => ?_)
    have : H (Function.update x k (x k + s)) = enthalpy c.eval c.pressure c.evToGPa
        (((Function.update x k (x k + s) c.sizePos / A0.det) ^ (1 / 3 : ℝ)) • A0)
        (target c (Function.update x k (x k + s))) := rfl
    show H (Function.update x k (x k + s)) = _
    rw [this, Function.update_of_ne (by omega), target_update c x k hk, enthalpy, hA]
  · have hV := hx.ne'
    -- the scale as a function of the volume
    have hh : HasDerivAt (fun s : ℝ => ((x c.sizePos + s) / x c.sizePos) ^ (1 / 3 : ℝ) - 1)
        (1 / (3 * x c.sizePos)) 0 := by
      have h1 : HasDerivAt (fun s : ℝ => (x c.sizePos + s) / x c.sizePos) (1 / x c.sizePos) 0 :=
        ((hasDerivAt_id (0 : ℝ)).const_add (x c.sizePos)).div_const (x c.sizePos)
      have h2 := h1.rpow_const (p := 1 / 3) (Or.inl (by rw [add_zero, div_self hV]; exact one_ne_zero))
      refine (h2.sub_const 1).congr_deriv ?_
      rw [add_zero, div_self hV, Real.one_rpow]
      field_simp
    have h1 : HasDerivAt (fun s : ℝ => enthalpy c.eval c.pressure c.evToGPa (r • A0 + s • (r • A0)) (target c x))
        (-(sigma c st').trace) 0 := by
      have a := hS 1
      have b := det_deriv (r • A0) (r • A0) (by rw [hdet]; exact hV)
      rw [Matrix.mul_nonsing_inv _ (isUnit_iff_ne_zero.2 (by rw [hdet]; exact hV)), Matrix.trace_one] at b
      simp only [one_mul] at a
      have d := a.add ((b.const_mul c.pressure).div_const c.evToGPa)
      refine HasDerivAt.congr_deriv (f := fun s : ℝ => enthalpy c.eval c.pressure c.evToGPa
        (r • A0 + s • (r • A0)) (target c x)) d ?_
      simp only [sigma, Matrix.trace_fin_three, pvTerm, hs, hA]
      have ht : target c x = fun i a => c.positions0 i a + disps c x i a := rfl
      rw [ht]
      simp
      ring
    have h2 := HasDerivAt.comp_of_eq (0 : ℝ) h1 hh (by simp [div_self hV])
    have hj : jacRelax c st' c.sizePos = -(sigma c st').trace / 3 := by simp [jacRelax, derivByAxis, hr]
    rw [hj]
    refine (h2.congr_deriv (g' := -(sigma c st').trace / 3 / x c.sizePos) (by field_simp)).congr_of_eventuallyEq ?_
    have hnear : ∀ᶠ s : ℝ in nhds 0, 0 < x c.sizePos + s := by
      have : ContinuousAt (fun s : ℝ => x c.sizePos + s) 0 := by fun_prop
      exact this.eventually (lt_mem_nhds (by simpa using hx))
    refine hnear.mono fun s hs' => ?_
    have h3 : H (Function.update x c.sizePos (x c.sizePos + s)) = enthalpy c.eval c.pressure c.evToGPa
        (((Function.update x c.sizePos (x c.sizePos + s) c.sizePos / A0.det) ^ (1 / 3 : ℝ)) • A0)
        (fun i a => c.positions0 i a + disps c (Function.update x (c.sizePos + 0) (x c.sizePos + s)) i a) := rfl
    show H (Function.update x c.sizePos (x c.sizePos + s)) = _
    rw [h3, Function.update_self, disps_update_cell c x 0]
    show _ = enthalpy c.eval c.pressure c.evToGPa (r • A0 +
      (((x c.sizePos + s) / x c.sizePos) ^ (1 / 3 : ℝ) - 1) • (r • A0)) (target c x)
    have h4 : r • A0 + (((x c.sizePos + s) / x c.sizePos) ^ (1 / 3 : ℝ) - 1) • (r • A0) =
        (((x c.sizePos + s) / A0.det) ^ (1 / 3 : ℝ)) • A0 := by
      rw [← scale_again A0 h0 r _ hrpos hs', hdet]
      module
    rw [h4]
    rfl

/-! ### A crystal for which the hypotheses hold -/

/-- Atoms in a periodic potential and a cell with springs. -/
noncomputable def exEval (n : ℕ) : Eval := fun A f =>
  { energy := ((List.range n).map fun i => Real.cos (2 * Real.pi * f i 0) + Real.cos (2 * Real.pi * f i 1) +
      Real.cos (2 * Real.pi * f i 2)).sum + (A * A.transpose).trace / 2
    forces := fun i => A⁻¹.transpose.mulVec fun a => 2 * Real.pi * Real.sin (2 * Real.pi * f i a)
    stress := ![-(A * A.transpose) 0 0, -(A * A.transpose) 1 1, -(A * A.transpose) 2 2, -(A * A.transpose) 0 1,
      -(A * A.transpose) 1 2, -(A * A.transpose) 2 0] }

theorem exEval_periodic (n : ℕ) : Periodic (exEval n) := by
  intro A f k
  have hc : ∀ i a, Real.cos (2 * Real.pi * (f i a + (k i a : ℝ))) = Real.cos (2 * Real.pi * f i a) := by
    intro i a
    rw [← Real.cos_add_int_mul_two_pi (2 * Real.pi * f i a) (k i a)]; congr 1; ring
  have hs : ∀ i a, Real.sin (2 * Real.pi * (f i a + (k i a : ℝ))) = Real.sin (2 * Real.pi * f i a) := by
    intro i a
    rw [← Real.sin_add_int_mul_two_pi (2 * Real.pi * f i a) (k i a)]; congr 1; ring
  simp only [exEval, hc, hs]

theorem exEval_forces (n : ℕ) (A : Axis) (hA : A.det ≠ 0) (f : ℕ → Vec ℝ) :
    ForcesAreDerivatives (exEval n) n A f := by
  intro u
  have hcos : ∀ i a, HasDerivAt (fun s : ℝ => Real.cos (2 * Real.pi * (f i a + s * u i a)))
      (-(2 * Real.pi * Real.sin (2 * Real.pi * f i a)) * u i a) 0 := by
    intro i a
    have h1 : HasDerivAt (fun s : ℝ => 2 * Real.pi * (f i a + s * u i a)) (2 * Real.pi * (1 * u i a)) 0 :=
      (((hasDerivAt_id (0 : ℝ)).mul_const (u i a)).const_add (f i a)).const_mul (2 * Real.pi)
    refine h1.cos.congr_deriv ?_
    rw [zero_mul, add_zero]; ring
  have h := (Verif.Mlp.hasDerivAt_listSum (List.range n)
    (fun i (s : ℝ) => Real.cos (2 * Real.pi * (f i 0 + s * u i 0)) +
      Real.cos (2 * Real.pi * (f i 1 + s * u i 1)) + Real.cos (2 * Real.pi * (f i 2 + s * u i 2))) _ 0
    fun i _ => ((hcos i 0).add (hcos i 1)).add (hcos i 2)).add_const ((A * A.transpose).trace / 2)
  refine HasDerivAt.congr_deriv (f := fun s : ℝ => (exEval n A fun i a => f i a + s * u i a).energy) h ?_
  rw [← neg_one_mul (List.sum _), ← List.sum_map_mul_left]
  congr 1
  refine List.map_congr_left fun i _ => ?_
  set w : Fin 3 → ℝ := fun a => 2 * Real.pi * Real.sin (2 * Real.pi * f i a) with hw
  have hdot : dotProduct (A⁻¹.transpose.mulVec w) (A.mulVec (u i)) = dotProduct w (u i) := by
    rw [Matrix.mulVec_transpose, ← Matrix.dotProduct_mulVec, Matrix.mulVec_mulVec,
      Matrix.nonsing_inv_mul _ (isUnit_iff_ne_zero.2 hA), Matrix.one_mulVec]
  have hsum : ∀ v z : Fin 3 → ℝ, v 0 * z 0 + v 1 * z 1 + v 2 * z 2 = dotProduct v z := by
    intro v z; simp [dotProduct, Fin.sum_univ_three]
  show _ = -1 * ((A⁻¹.transpose.mulVec w) 0 * A.mulVec (u i) 0 + (A⁻¹.transpose.mulVec w) 1 * A.mulVec (u i) 1 +
    (A⁻¹.transpose.mulVec w) 2 * A.mulVec (u i) 2)
  rw [hsum, hdot, ← hsum]
  simp only [hw]
  ring

theorem exEval_stress (n : ℕ) (A : Axis) (f : ℕ → Vec ℝ) : StressIsDerivative (exEval n) A f := by
  intro ε
  have hq : ∀ s : ℝ, (exEval n (A + s • (ε * A)) f).energy = (exEval n A f).energy +
      s * (A * (ε * A).transpose).trace + s ^ 2 * (((ε * A) * (ε * A).transpose).trace / 2) := by
    intro s
    simp only [exEval, Matrix.trace_fin_three, Matrix.mul_apply, Fin.sum_univ_three, Matrix.transpose_apply,
      Matrix.add_apply, Matrix.smul_apply, smul_eq_mul]
    ring
  rw [show (fun s : ℝ => (exEval n (A + s • (ε * A)) f).energy) = _ from funext hq]
  have := (((hasDerivAt_id (0 : ℝ)).mul_const (A * (ε * A).transpose).trace).const_add (exEval n A f).energy).add
    (((hasDerivAt_id (0 : ℝ)).pow 2).mul_const (((ε * A) * (ε * A).transpose).trace / 2))
  refine this.congr_deriv ?_
  simp only [exEval, Matrix.trace_fin_three, Matrix.mul_apply, Fin.sum_univ_three, Matrix.transpose_apply,
    Matrix.cons_val]
  simp
  ring

theorem exEval_energy (n : ℕ) (A : Axis) (f : ℕ → Vec ℝ) : ¬ (exEval n A f).energy < -1000 * n := by
  have h1 : ∀ l : List ℕ, -3 * (l.length : ℝ) ≤ (l.map fun i => Real.cos (2 * Real.pi * f i 0) +
      Real.cos (2 * Real.pi * f i 1) + Real.cos (2 * Real.pi * f i 2)).sum := by
    intro l
    induction l with
    | nil => simp
    | cons i l ih =>
      have a := Real.neg_one_le_cos (2 * Real.pi * f i 0)
      have b := Real.neg_one_le_cos (2 * Real.pi * f i 1)
      have d := Real.neg_one_le_cos (2 * Real.pi * f i 2)
      simp only [List.map_cons, List.sum_cons, List.length_cons]
      push_cast
      linarith
  have h2 := h1 (List.range n)
  rw [List.length_range] at h2
  have h3 : 0 ≤ (A * A.transpose).trace := by
    simp only [Matrix.trace_fin_three, Matrix.mul_apply, Fin.sum_univ_three, Matrix.transpose_apply]
    nlinarith [mul_self_nonneg (A 0 0), mul_self_nonneg (A 0 1), mul_self_nonneg (A 0 2), mul_self_nonneg (A 1 0),
      mul_self_nonneg (A 1 1), mul_self_nonneg (A 1 2), mul_self_nonneg (A 2 0), mul_self_nonneg (A 2 1),
      mul_self_nonneg (A 2 2)]
  have h4 : (0 : ℝ) ≤ n := Nat.cast_nonneg n
  simp only [exEval, not_lt]
  linarith

/-- Two atoms, all coordinates free. -/
noncomputable def exConfig (cell pos : Bool) : Config where
  n := 2
  eval := exEval 2
  relaxCell := cell
  relaxPositions := pos
  basisF := fun q k => if k = q then 1 else 0
  sizePos := if pos then 6 else 0
  basisAxis := fun q k => if k = q then 1 else 0
  nAxis := 9
  positions0 := fun i _ => i / 2
  pressure := 5
  evToGPa := 160
  tol := 1 / 10

/-- Displacements of `0.1` and a cubic cell. -/
noncomputable def exX : ℕ → ℝ := fun k => if k < 6 then 1 / 10 else if k = 6 ∨ k = 10 ∨ k = 14 then 2 else 0

theorem exAxis : axisOf (exConfig true true) exX = (2 : ℝ) • (1 : Axis) := by
  have h : ∀ r t : Fin 3, axisOf (exConfig true true) exX r t = exX (6 + (3 * r + t)) := by
    intro r t
    have : ∀ k, (if k = 3 * (r : ℕ) + t then (1 : ℝ) else 0) * exX (6 + k) =
        if k = 3 * (r : ℕ) + t then exX (6 + (3 * r + t)) else 0 := by
      intro k; split
      · rename_i hk; rw [hk, one_mul]
      · rw [zero_mul]
    show ((List.range 9).map fun k => (if k = 3 * (r : ℕ) + t then (1 : ℝ) else 0) * exX (6 + k)).sum = _
    simp only [this]
    exact Verif.Mlp.sum_range_delta 9 _ _ (by omega)
  ext r t
  rw [h]
  fin_cases r <;> fin_cases t <;> simp [exX]

theorem exAxis_det : (axisOf (exConfig true true) exX).det = 8 := by
  rw [exAxis, Matrix.det_smul, Fintype.card_fin, Matrix.det_one]; norm_num

/-- The hypotheses of `C65_cell` are met, after a first call. -/
example : ∃ st st' e, evalsRelax (exConfig true true) (initialState (exConfig true true) 1) [exX] = .ok st ∧
    funRelax (exConfig true true) st exX = .ok (st', e) ∧ (axisOf (exConfig true true) exX).det ≠ 0 ∧
    Periodic (exConfig true true).eval ∧
    (∀ A f, A.det ≠ 0 → ForcesAreDerivatives (exConfig true true).eval (exConfig true true).n A f ∧
      StressIsDerivative (exConfig true true).eval A f) := by
  have hok : ∀ st, ∃ r, funRelax (exConfig true true) st exX = .ok r := by
    intro st
    simp only [funRelax]
    rw [if_neg]
    · exact ⟨_, rfl⟩
    · rw [not_or]
      refine ⟨exEval_energy 2 _ _, ?_⟩
      rw [toStructureRelax_axis]
      have : (if (exConfig true true).relaxCell = true then axisOf (exConfig true true) exX else
        ((exX (exConfig true true).sizePos / st.axis.det) ^ (1 / 3 : ℝ)) • st.axis) =
          axisOf (exConfig true true) exX := rfl
      rw [this, exAxis_det]
      norm_num [exConfig]
  obtain ⟨⟨st, e⟩, h1⟩ := hok (initialState (exConfig true true) 1)
  obtain ⟨⟨st', e'⟩, h2⟩ := hok st
  refine ⟨st, st', e', ?_, h2, by rw [exAxis_det]; norm_num, exEval_periodic 2,
    fun A f hA => ⟨exEval_forces 2 A hA f, exEval_stress 2 A f⟩⟩
  simp only [evalsRelax, List.foldlM_cons, List.foldlM_nil, h1]
  rfl

/-- The hypotheses of `C65_positions` are met, after a first call. -/
example : ∃ st st' e, evalsFix (exConfig false true) (initialState (exConfig false true) 1) [exX] = .ok st ∧
    funFix (exConfig false true) st exX = .ok (st', e) ∧ Periodic (exConfig false true).eval ∧
    (∀ f, ForcesAreDerivatives (exConfig false true).eval (exConfig false true).n 1 f) := by
  have hok : ∀ st, ∃ r, funFix (exConfig false true) st exX = .ok r := by
    intro st
    simp only [funFix]
    rw [if_neg]
    · exact ⟨_, rfl⟩
    · exact exEval_energy 2 _ _
  obtain ⟨⟨st, e⟩, h1⟩ := hok (initialState (exConfig false true) 1)
  obtain ⟨⟨st', e'⟩, h2⟩ := hok st
  refine ⟨st, st', e', ?_, h2, exEval_periodic 2, fun f => exEval_forces 2 1 (by simp) f⟩
  simp only [evalsFix, List.foldlM_cons, List.foldlM_nil, h1]
  rfl

/-- The cell of the counterexample is a cube with edge two. -/
theorem exVolume_call (st : State) (h : st.axis = (2 : ℝ) • (1 : Axis)) :
    ∃ st' e, funRelax (exConfig false false) st (fun _ => 8) = .ok (st', e) ∧ st'.axis = (2 : ℝ) • (1 : Axis) ∧
      jacRelax (exConfig false false) st' 0 = 17 / 4 := by
  have hdet : ((2 : ℝ) • (1 : Axis)).det = 8 := by
    rw [Matrix.det_smul, Fintype.card_fin, Matrix.det_one]; norm_num
  have hax : (toStructureRelax (exConfig false false) st (fun _ => 8)).axis = (2 : ℝ) • (1 : Axis) := by
    rw [toStructureRelax_axis]
    have : (if (exConfig false false).relaxCell = true then axisOf (exConfig false false) (fun _ => 8) else
        (((8 : ℝ) / st.axis.det) ^ (1 / 3 : ℝ)) • st.axis) = (((8 : ℝ) / st.axis.det) ^ (1 / 3 : ℝ)) • st.axis := rfl
    rw [this, h, hdet, div_self (by norm_num), Real.one_rpow, one_smul]
  have hok : ∃ r, funRelax (exConfig false false) st (fun _ => 8) = .ok r := by
    simp only [funRelax]
    rw [if_neg]
    · exact ⟨_, rfl⟩
    · rw [not_or]
      refine ⟨exEval_energy 2 _ _, ?_⟩
      rw [hax, hdet]
      norm_num [exConfig]
  obtain ⟨⟨st', e⟩, h1⟩ := hok
  obtain ⟨-, hA, -, -, hs, -⟩ := funRelax_ok _ _ _ _ _ h1
  rw [hax] at hA hs
  refine ⟨st', e, h1, hA, ?_⟩
  have : jacRelax (exConfig false false) st' 0 = -(sigma (exConfig false false) st').trace / 3 := rfl
  rw [this]
  simp only [sigma, hs, hA, pvTerm, hdet, Matrix.trace_fin_three]
  simp [exConfig, exEval, Matrix.mul_apply, Fin.sum_univ_three]
  norm_num

/-- C65 is false for the relaxation of the volume: forces and stress are the derivatives of the energy, and the
gradient read after a call is not the derivative of the enthalpy with respect to the volume. -/
theorem C65_volume_violation : ∃ (c : Config) (A0 : Axis) (x : ℕ → ℝ) (st' : State) (e : ℝ),
    c.relaxCell = false ∧ Periodic c.eval ∧ (c.relaxPositions = false ∧ c.sizePos = 0) ∧ 0 < A0.det ∧
    0 < x c.sizePos ∧ (∀ A f, A.det ≠ 0 → ForcesAreDerivatives c.eval c.n A f ∧ StressIsDerivative c.eval A f) ∧
    funRelax c (initialState c A0) x = .ok (st', e) ∧
    ¬ HasDerivAt (fun s : ℝ => enthalpy c.eval c.pressure c.evToGPa
      ((((x c.sizePos + s) / A0.det) ^ (1 / 3 : ℝ)) • A0) c.positions0) (jacRelax c st' c.sizePos) 0 := by
  have hdet : ((2 : ℝ) • (1 : Axis)).det = 8 := by
    rw [Matrix.det_smul, Fintype.card_fin, Matrix.det_one]; norm_num
  obtain ⟨st', e, h1, -, h3⟩ := exVolume_call
    (initialState (exConfig false false) ((2 : ℝ) • (1 : Axis))) rfl
  refine ⟨exConfig false false, (2 : ℝ) • (1 : Axis), fun _ => 8, st', e, rfl, exEval_periodic 2, ⟨rfl, rfl⟩,
    by rw [hdet]; norm_num, by norm_num, fun A f hA => ⟨exEval_forces 2 A hA f, exEval_stress 2 A f⟩, h1, ?_⟩
  intro hbad
  have hgood := (C65_volume_partial (exConfig false false) rfl (exEval_periodic 2) (fun _ => rfl)
    ((2 : ℝ) • (1 : Axis)) (by rw [hdet]; norm_num) [] (by simp) _ rfl (fun _ => 8) (by norm_num) st' e h1
    (exEval_forces 2 _ (by
      show (((8 : ℝ) / ((2 : ℝ) • (1 : Axis)).det) ^ (1 / 3 : ℝ) • ((2 : ℝ) • (1 : Axis))).det ≠ 0
      rw [hdet, div_self (by norm_num), Real.one_rpow, one_smul, hdet]; norm_num) _)
    (exEval_stress 2 _ _)).2.2.2
  have hsame : (fun s : ℝ => enthalpy (exConfig false false).eval (exConfig false false).pressure
      (exConfig false false).evToGPa (((((8 : ℝ) + s) / ((2 : ℝ) • (1 : Axis)).det) ^ (1 / 3 : ℝ)) •
        ((2 : ℝ) • (1 : Axis))) (exConfig false false).positions0) = fun s : ℝ =>
      enthalpy (exConfig false false).eval (exConfig false false).pressure (exConfig false false).evToGPa
        (((Function.update (fun _ : ℕ => (8 : ℝ)) (exConfig false false).sizePos (8 + s)
          (exConfig false false).sizePos / ((2 : ℝ) • (1 : Axis)).det) ^ (1 / 3 : ℝ)) • ((2 : ℝ) • (1 : Axis)))
        (target (exConfig false false) (Function.update (fun _ : ℕ => (8 : ℝ)) (exConfig false false).sizePos (8 + s))) := by
    funext s
    rw [target_nil _ _ rfl, Function.update_self]
  have hbad' := hbad
  change HasDerivAt (fun s : ℝ => enthalpy (exConfig false false).eval (exConfig false false).pressure
      (exConfig false false).evToGPa (((((8 : ℝ) + s) / ((2 : ℝ) • (1 : Axis)).det) ^ (1 / 3 : ℝ)) •
        ((2 : ℝ) • (1 : Axis))) (exConfig false false).positions0) _ 0 at hbad'
  rw [hsame] at hbad'
  have heq := hbad'.unique hgood
  have h3' : jacRelax (exConfig false false) st' (exConfig false false).sizePos = 17 / 4 := h3
  rw [h3'] at heq
  norm_num at heq

/-- The gradient belongs to the coordinates of the last call of the function: its own argument is not read.  A
minimizer that asks for the gradient elsewhere gets the gradient of the last call. -/
theorem C65_last_call (c : Config) (hr : c.relaxCell = true) (hper : Periodic c.eval)
    (hnone : c.relaxPositions = false → c.sizePos = 0) (A0 : Axis) (xs ys : List (ℕ → ℝ)) (st₁ st₂ : State)
    (h₁ : evalsRelax c (initialState c A0) xs = .ok st₁) (h₂ : evalsRelax c (initialState c A0) ys = .ok st₂)
    (x : ℕ → ℝ) (s₁ s₂ : State) (e₁ e₂ : ℝ) (c₁ : funRelax c st₁ x = .ok (s₁, e₁))
    (c₂ : funRelax c st₂ x = .ok (s₂, e₂)) :
    e₁ = e₂ ∧ s₁.axis = s₂.axis ∧ s₁.positions = s₂.positions ∧ jacRelax c s₁ = jacRelax c s₂ := by
  have key : ∀ (xs : List (ℕ → ℝ)) (st s : State) (e : ℝ), evalsRelax c (initialState c A0) xs = .ok st →
      funRelax c st x = .ok (s, e) → s.axis = axisOf c x ∧
      s.positions = (if c.relaxPositions then refine c.tol (target c x) else c.positions0) ∧
      s.force = (c.eval (axisOf c x) (target c x)).forces ∧
      s.stress = (c.eval (axisOf c x) (target c x)).stress ∧
      e = (c.eval (axisOf c x) (target c x)).energy + pvTerm c (axisOf c x) := by
    intro xs st s e hist hcall
    obtain ⟨-, hA, hP, hf, hs, he⟩ := funRelax_ok c st x s e hcall
    have hpos := fun hp => evalsRelax_positions c hp A0 xs st hist
    have hax : (toStructureRelax c st x).axis = axisOf c x := by rw [toStructureRelax_axis, hr]; rfl
    rw [hax] at hA
    rw [toStructureRelax_positions] at hP
    rw [hax, toStructureRelax_positions, eval_target c hper hnone st hpos x] at hf hs he
    refine ⟨hA, ?_, hf, hs, he⟩
    rw [hP]
    cases hp : c.relaxPositions with
    | true => rfl
    | false => simpa using hpos hp
  obtain ⟨a1, p1, f1, t1, r1⟩ := key xs st₁ s₁ e₁ h₁ c₁
  obtain ⟨a2, p2, f2, t2, r2⟩ := key ys st₂ s₂ e₂ h₂ c₂
  refine ⟨by rw [r1, r2], by rw [a1, a2], by rw [p1, p2], ?_⟩
  funext k
  simp only [jacRelax, jacFix, prod, derivByAxis, sigma, a1, a2, f1, f2, t1, t2]

/-- A call fails exactly for a huge negative energy or a huge volume. -/
theorem C65_guard (c : Config) (hr : c.relaxCell = true) (hper : Periodic c.eval)
    (hnone : c.relaxPositions = false → c.sizePos = 0) (A0 : Axis) (xs : List (ℕ → ℝ)) (st : State)
    (hist : evalsRelax c (initialState c A0) xs = .ok st) (x : ℕ → ℝ) :
    (∃ r, funRelax c st x = .ok r) ↔
      -1000 * (c.n : ℝ) ≤ (c.eval (axisOf c x) fun i a => c.positions0 i a + disps c x i a).energy ∧
        |(axisOf c x).det| / c.n ≤ 1000 := by
  have hpos := fun hp => evalsRelax_positions c hp A0 xs st hist
  have hax : (toStructureRelax c st x).axis = axisOf c x := by rw [toStructureRelax_axis, hr]; rfl
  simp only [funRelax]
  rw [hax, toStructureRelax_positions, eval_target c hper hnone st hpos x]
  have ht : (fun i a => c.positions0 i a + disps c x i a) = target c x := rfl
  rw [ht]
  by_cases h : (c.eval (axisOf c x) (target c x)).energy < -1000 * (c.n : ℝ) ∨ 1000 < |(axisOf c x).det| / c.n
  · rw [if_pos h]
    constructor
    · rintro ⟨r, hr⟩; simp at hr
    · rintro ⟨h1, h2⟩
      rcases h with h | h <;> linarith
  · rw [if_neg h]
    push Not at h
    exact ⟨fun _ => h, fun _ => ⟨_, rfl⟩⟩

/-! ## C66: the coordinates of cells and positions -/

theorem normalize_map (v : List ℝ) (r : ℝ) (h : √((v.map fun b => b * b).sum) = r) :
    normalize v = v.map fun a => a / r := by rw [normalize, h]

theorem basisCell_cubic (spg : ℕ) (h : 195 ≤ spg) :
    basisCell spg = [[1 / √3, 0, 0, 0, 1 / √3, 0, 0, 0, 1 / √3]] := by
  rw [basisCell, if_pos h, normalize_map _ √3]
  · simp
  · norm_num

theorem basisCell_hexagonal (spg : ℕ) (h : 143 ≤ spg) (h' : spg < 195) :
    basisCell spg = [[1 / √2, -0.5 / √2, 0, 0, √3 / 2 / √2, 0, 0, 0, 0], [0, 0, 0, 0, 0, 0, 0, 0, 1]] := by
  have hn : normalize [1, -0.5, 0, 0, √3 / 2, 0, 0, 0, 0] =
      [1 / √2, -0.5 / √2, 0, 0, √3 / 2 / √2, 0, 0, 0, 0] := by
    rw [normalize_map _ √2]
    · simp
    · have h3 : √3 * √3 = 3 := Real.mul_self_sqrt (by norm_num)
      congr 1
      simp only [List.map_cons, List.map_nil, List.sum_cons, List.sum_nil]
      linear_combination (1 / 4) * h3
  have hu : unitCol 8 = [0, 0, 0, 0, 0, 0, 0, 0, 1] := by simp [unitCol, List.range_succ]
  rw [basisCell, if_neg (by omega)]
  by_cases h1 : 168 ≤ spg ∧ spg ≤ 194
  · rw [if_pos h1, hn, hu]
  · rw [if_neg h1, if_pos (by omega), hn, hu]

theorem basisCell_tetragonal (spg : ℕ) (h : 75 ≤ spg) (h' : spg < 143) :
    basisCell spg = [[1 / √2, 0, 0, 0, 1 / √2, 0, 0, 0, 0], [0, 0, 0, 0, 0, 0, 0, 0, 1]] := by
  have hn : normalize [1, 0, 0, 0, 1, 0, 0, 0, 0] = [1 / √2, 0, 0, 0, 1 / √2, 0, 0, 0, 0] := by
    rw [normalize_map _ √2]
    · simp
    · norm_num
  have hu : unitCol 8 = [0, 0, 0, 0, 0, 0, 0, 0, 1] := by simp [unitCol, List.range_succ]
  rw [basisCell, if_neg (by omega), if_neg (by omega), if_neg (by omega), if_pos (by omega), hn, hu]

theorem basisCell_orthorhombic (spg : ℕ) (h : 16 ≤ spg) (h' : spg < 75) :
    basisCell spg = [[1, 0, 0, 0, 0, 0, 0, 0, 0], [0, 0, 0, 0, 1, 0, 0, 0, 0], [0, 0, 0, 0, 0, 0, 0, 0, 1]] := by
  rw [basisCell, if_neg (by omega), if_neg (by omega), if_neg (by omega), if_neg (by omega), if_pos (by omega)]
  simp [unitCol, List.range_succ]

theorem basisCell_monoclinic (spg : ℕ) (h : 3 ≤ spg) (h' : spg < 16) :
    basisCell spg = [[1, 0, 0, 0, 0, 0, 0, 0, 0], [0, 0, 0, 0, 1, 0, 0, 0, 0], [0, 0, 0, 0, 0, 0, 0, 0, 1],
      [0, 0, 1, 0, 0, 0, 0, 0, 0]] := by
  rw [basisCell, if_neg (by omega), if_neg (by omega), if_neg (by omega), if_neg (by omega), if_neg (by omega),
    if_pos (by omega)]
  simp [unitCol, List.range_succ]

theorem basisCell_triclinic (spg : ℕ) (h' : spg < 3) : basisCell spg = (List.range 9).map unitCol := by
  rw [basisCell, if_neg (by omega), if_neg (by omega), if_neg (by omega), if_neg (by omega), if_neg (by omega),
    if_neg (by omega)]

/-- C66: with symmetry, every set of coordinates is a cell of the standard shape of the crystal system. -/
theorem C66_shape (spg : ℕ) (c : Config) (hb : c.basisAxis = colEntry (basisCell spg))
    (hn : c.nAxis = (basisCell spg).length) (x : ℕ → ℝ) : Standard spg (axisOf c x) := by
  unfold Standard
  have e : ∀ r t : Fin 3, axisOf c x r t = ((List.range c.nAxis).map fun k =>
      c.basisAxis (3 * r + t) k * x (c.sizePos + k)).sum := fun _ _ => rfl
  by_cases h1 : 195 ≤ spg
  · rw [if_pos h1]
    rw [basisCell_cubic spg h1] at hb hn
    refine ⟨1 / √3 * x c.sizePos, ?_⟩
    ext r t
    rw [e, hn, hb]
    fin_cases r <;> fin_cases t <;> simp [colEntry, List.range_succ]
  rw [if_neg h1]
  by_cases h2 : 143 ≤ spg
  · rw [if_pos h2]
    rw [basisCell_hexagonal spg h2 (by omega)] at hb hn
    refine ⟨1 / √2 * x c.sizePos, x (c.sizePos + 1), ?_⟩
    ext r t
    rw [e, hn, hb]
    fin_cases r <;> fin_cases t <;> simp [colEntry, List.range_succ] <;> ring
  rw [if_neg h2]
  by_cases h3 : 75 ≤ spg
  · rw [if_pos h3]
    rw [basisCell_tetragonal spg h3 (by omega)] at hb hn
    refine ⟨1 / √2 * x c.sizePos, x (c.sizePos + 1), ?_⟩
    ext r t
    rw [e, hn, hb]
    fin_cases r <;> fin_cases t <;> simp [colEntry, List.range_succ]
  rw [if_neg h3]
  by_cases h4 : 16 ≤ spg
  · rw [if_pos h4]
    rw [basisCell_orthorhombic spg h4 (by omega)] at hb hn
    refine ⟨x c.sizePos, x (c.sizePos + 1), x (c.sizePos + 2), ?_⟩
    ext r t
    rw [e, hn, hb]
    fin_cases r <;> fin_cases t <;> simp [colEntry, List.range_succ]
  rw [if_neg h4]
  by_cases h5 : 3 ≤ spg
  · rw [if_pos h5]
    rw [basisCell_monoclinic spg h5 (by omega)] at hb hn
    refine ⟨x c.sizePos, x (c.sizePos + 1), x (c.sizePos + 2), x (c.sizePos + 3), ?_⟩
    ext r t
    rw [e, hn, hb]
    fin_cases r <;> fin_cases t <;> simp [colEntry, List.range_succ]
  rw [if_neg h5]
  trivial

/-- C66: the relaxation starts at the given cell, if it has the standard shape; so every cell of this shape has
coordinates. -/
theorem C66_start (spg : ℕ) (c : Config) (hb : c.basisAxis = colEntry (basisCell spg))
    (hn : c.nAxis = (basisCell spg).length) (A : Axis) (hA : Standard spg A) (x : ℕ → ℝ)
    (hx : ∀ k, x (c.sizePos + k) = initialCoeffs (basisCell spg) A k) : axisOf c x = A := by
  unfold Standard at hA
  have e : ∀ r t : Fin 3, axisOf c x r t = ((List.range c.nAxis).map fun k =>
      c.basisAxis (3 * r + t) k * initialCoeffs (basisCell spg) A k).sum := fun r t => by
    simp only [axisOf, hx]; rfl
  have h22 : √2 * √2 = 2 := Real.mul_self_sqrt (by norm_num)
  have h33 : √3 * √3 = 3 := Real.mul_self_sqrt (by norm_num)
  have q2 : √2 ^ 2 = 2 := Real.sq_sqrt (by norm_num)
  have q3 : √3 ^ 2 = 3 := Real.sq_sqrt (by norm_num)
  have n2 : √2 ≠ 0 := by positivity
  have n3 : √3 ≠ 0 := by positivity
  have s : ∀ k, initialCoeffs (basisCell spg) A k = ∑ r : Fin 3, ∑ t : Fin 3,
      colEntry (basisCell spg) (3 * r + t) k * A r t := by
    intro k
    have hq : ∀ q < 9, colEntry (basisCell spg) q k * A (Fin.ofNat 3 (q / 3)) (Fin.ofNat 3 q) =
        colEntry (basisCell spg) (3 * (Fin.ofNat 3 (q / 3) : Fin 3) + (Fin.ofNat 3 q : Fin 3)) k *
          A (Fin.ofNat 3 (q / 3)) (Fin.ofNat 3 q) := by
      intro q hq
      congr 2
      simp only [Fin.ofNat]
      omega
    rw [initialCoeffs, List.map_congr_left fun q hq' => hq q (List.mem_range.1 hq')]
    exact sum_range_nine fun r t => colEntry (basisCell spg) (3 * r + t) k * A r t
  by_cases h1 : 195 ≤ spg
  · rw [if_pos h1] at hA
    obtain ⟨a, rfl⟩ := hA
    simp only [s] at e
    rw [hn, hb, basisCell_cubic spg h1] at e
    ext r t
    rw [e]
    fin_cases r <;> fin_cases t <;> simp [colEntry, List.range_succ, Fin.sum_univ_three] <;> field_simp <;>
      linear_combination (-a) * h33
  rw [if_neg h1] at hA
  by_cases h2 : 143 ≤ spg
  · rw [if_pos h2] at hA
    obtain ⟨a, d, rfl⟩ := hA
    simp only [s] at e
    rw [hn, hb, basisCell_hexagonal spg h2 (by omega)] at e
    ext r t
    rw [e]
    fin_cases r <;> fin_cases t <;> simp [colEntry, List.range_succ, Fin.sum_univ_three] <;> field_simp <;>
      simp only [q2, q3] <;> ring
  rw [if_neg h2] at hA
  by_cases h3 : 75 ≤ spg
  · rw [if_pos h3] at hA
    obtain ⟨a, d, rfl⟩ := hA
    simp only [s] at e
    rw [hn, hb, basisCell_tetragonal spg h3 (by omega)] at e
    ext r t
    rw [e]
    fin_cases r <;> fin_cases t <;> simp [colEntry, List.range_succ, Fin.sum_univ_three] <;> field_simp <;>
      linear_combination (-a) * h22
  rw [if_neg h3] at hA
  by_cases h4 : 16 ≤ spg
  · rw [if_pos h4] at hA
    obtain ⟨a, b, d, rfl⟩ := hA
    simp only [s] at e
    rw [hn, hb, basisCell_orthorhombic spg h4 (by omega)] at e
    ext r t
    rw [e]
    fin_cases r <;> fin_cases t <;> simp [colEntry, List.range_succ, Fin.sum_univ_three]
  rw [if_neg h4] at hA
  by_cases h5 : 3 ≤ spg
  · rw [if_pos h5] at hA
    obtain ⟨a, b, d, f, rfl⟩ := hA
    simp only [s] at e
    rw [hn, hb, basisCell_monoclinic spg h5 (by omega)] at e
    ext r t
    rw [e]
    fin_cases r <;> fin_cases t <;> simp [colEntry, List.range_succ, Fin.sum_univ_three]
  · have hc : ∀ q k, q < 9 → k < 9 → colEntry (basisCell spg) q k = if k = q then 1 else 0 := by
      intro q k hq hk
      have h : ((List.range 9).map unitCol).getD k [] = unitCol k := by
        rw [List.getD_eq_getElem?_getD, List.getElem?_map, List.getElem?_range hk]; rfl
      rw [basisCell_triclinic spg (by omega), colEntry, h, unitCol]
      rw [List.getD_eq_getElem?_getD, List.getElem?_map, List.getElem?_range hq]
      simp only [Option.map_some, Option.getD_some, eq_comm]
    have hl : (basisCell spg).length = 9 := by rw [basisCell_triclinic spg (by omega)]; simp
    have hi : ∀ r t : Fin 3, initialCoeffs (basisCell spg) A (3 * r + t) = A r t := by
      intro r t
      have : ∀ q ∈ List.range 9, colEntry (basisCell spg) q (3 * r + t) * A (Fin.ofNat 3 (q / 3)) (Fin.ofNat 3 q) =
          if q = 3 * (r : ℕ) + t then A r t else 0 := by
        intro q hq
        rw [hc q _ (List.mem_range.1 hq) (by omega)]
        by_cases hqe : q = 3 * (r : ℕ) + t
        · have e1 : Fin.ofNat 3 (q / 3) = r := by ext; simp [Fin.ofNat]; omega
          have e2 : Fin.ofNat 3 q = t := by ext; simp [Fin.ofNat]; omega
          rw [if_pos hqe.symm, if_pos hqe, e1, e2, one_mul]
        · rw [if_neg (Ne.symm hqe), if_neg hqe, zero_mul]
      rw [initialCoeffs, List.map_congr_left this]
      exact Verif.Mlp.sum_range_delta 9 _ _ (by omega)
    ext r t
    rw [e, hn, hl, hb]
    have : ∀ k ∈ List.range 9, colEntry (basisCell spg) (3 * r + t) k * initialCoeffs (basisCell spg) A k =
        if k = 3 * (r : ℕ) + t then A r t else 0 := by
      intro k hk
      rw [hc _ k (by omega) (List.mem_range.1 hk)]
      by_cases hke : k = 3 * (r : ℕ) + t
      · rw [if_pos hke, if_pos hke, hke, hi, one_mul]
      · rw [if_neg hke, if_neg hke, zero_mul]
    rw [List.map_congr_left this]
    exact Verif.Mlp.sum_range_delta 9 _ _ (by omega)

/-- C66: a fractional basis vector is the Cartesian basis vector seen in the axes of the cell. -/
theorem C66_fractional (axis : Axis) (hA : axis.det ≠ 0) (basisC : ℕ → ℕ → ℝ) (m k : ℕ) (hk : k < m) (i : ℕ)
    (b : Fin 3) : axis.mulVec (fun a : Fin 3 => basisFractional axis basisC m (3 * i + a) k) b =
      basisC (3 * i + b) k := by
  have e : ∀ a : Fin 3, basisFractional axis basisC m (3 * i + a) k =
      (axis⁻¹.mulVec fun b : Fin 3 => basisC (3 * i + b) k) a := by
    intro a
    have h1 : (3 * i + (a : ℕ)) / 3 = i := by omega
    have h2 : Fin.ofNat 3 (3 * i + (a : ℕ)) = a := by ext; simp [Fin.ofNat]
    have h3 : (i * m + k) % m = k := by rw [mul_comm, Nat.mul_add_mod, Nat.mod_eq_of_lt hk]
    have h4 : (i * m + k) / m = i := by
      rw [mul_comm, Nat.mul_add_div (by omega), Nat.div_eq_of_lt hk, add_zero]
    simp only [basisFractional, h1, h2, h3, h4, Matrix.mulVec, dotProduct, Fin.sum_univ_three]
    rfl
  simp only [e]
  rw [Matrix.mulVec_mulVec, Matrix.mul_nonsing_inv _ (isUnit_iff_ne_zero.2 hA), Matrix.one_mulVec]

/-- A cell of the hexagonal shape, and one that is not. -/
example : Standard 194 !![3, -(3 / 2), 0; 0, √3 / 2 * 3, 0; 0, 0, 5] ∧
    ¬ Standard 225 (!![3, 0, 0; 0, 3, 0; 0, 0, 5] : Axis) := by
  constructor
  · rw [Standard, if_neg (by norm_num), if_pos (by norm_num)]
    exact ⟨3, 5, rfl⟩
  · rw [Standard, if_pos (by norm_num)]
    rintro ⟨a, h⟩
    have h0 := congrFun (congrFun h 0) 0
    have h2 := congrFun (congrFun h 2) 2
    simp at h0 h2
    linarith

/-! ## The potentials of the models -/

/-- The energy, forces and stress of a pair model as a function of axes and fractional positions, for a list of
lattice translations. -/
noncomputable def pairEval (g : Verif.Mlp.GaussParams) (types : ℕ → ℕ) (n : ℕ) (c : ℕ → ℝ) (tol : ℝ)
    (ks : List (Vec ℝ)) : Eval := fun A f =>
  Verif.Mlp.evalPair g.pair Real.sqrt (g.pair.pot c) types n
    (Verif.Neighbor.neighborHalf g.cutoff tol (ks.map A.mulVec) (fun i => A.mulVec (f i)) n)

/-- The pair models meet the hypotheses of C65 on forces and stress. -/
theorem C65_pair_model (g : Verif.Mlp.GaussParams) (hrc : 0 < g.cutoff) (types : ℕ → ℕ) (n : ℕ)
    (htypes : ∀ i < n, types i < g.nType) (c : ℕ → ℝ) (tol : ℝ) (ht : 0 < tol)
    (ks : List (Vec ℝ)) (A : Axis) (f : ℕ → Vec ℝ) (hneg : (ks.map (fun t => -t)).Perm ks)
    (hsep : Verif.Mlp.Separated tol (ks.map A.mulVec) (fun i => A.mulVec (f i)) n) :
    ForcesAreDerivatives (pairEval g types n c tol ks) n A f ∧
      StressIsDerivative (pairEval g types n c tol ks) A f := by
  have hneg' : ((ks.map A.mulVec).map (fun t => -t)).Perm (ks.map A.mulVec) := by
    have : (ks.map A.mulVec).map (fun t => -t) = (ks.map (fun t => -t)).map A.mulVec := by
      simp only [List.map_map]
      exact List.map_congr_left fun t _ => (Matrix.mulVec_neg t A).symm
    rw [this]
    exact hneg.map _
  constructor
  · intro u
    have h := Verif.Mlp.C57_forces g hrc types n htypes c tol ht (ks.map A.mulVec) (fun i => A.mulVec (f i)) hneg'
      hsep (fun i => A.mulVec (u i))
    refine HasDerivAt.congr_of_eventuallyEq h (Filter.Eventually.of_forall fun s => ?_)
    have : (fun (i : ℕ) => A.mulVec fun a => f i a + s * u i a) =
        fun (i : ℕ) (x : Fin 3) => A.mulVec (f i) x + s * A.mulVec (u i) x := by
      funext i x
      simp only [Matrix.mulVec, dotProduct, Fin.sum_univ_three]
      ring
    simp only [pairEval, this]
  · intro ε
    have h := Verif.Mlp.C57_stress g hrc types n htypes c tol ht (ks.map A.mulVec) (fun i => A.mulVec (f i)) hneg'
      hsep ε
    refine HasDerivAt.congr_of_eventuallyEq h (Filter.Eventually.of_forall fun s => ?_)
    have hv : ∀ v : Vec ℝ, (A + s • (ε * A : Axis)).mulVec v =
        fun x => A.mulVec v x + s * Verif.Mlp.strain ε (A.mulVec v) x := by
      intro v
      funext x
      simp only [Matrix.mulVec, dotProduct, Fin.sum_univ_three, Verif.Mlp.strain, Matrix.add_apply, Matrix.smul_apply,
        Matrix.mul_apply, smul_eq_mul]
      ring
    simp only [pairEval, List.map_map]
    congr 2
    · exact congrArg₂ (fun a b => Verif.Neighbor.neighborHalf g.cutoff tol a b n)
        (List.map_congr_left fun v _ => hv v) (funext fun i => hv (f i))

end Verif.OptGeom
