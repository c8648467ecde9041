import Verif.Model.TensorSym
import Verif.Spec.TensorSym
import Mathlib.Algebra.BigOperators.Fin
import Mathlib.LinearAlgebra.Matrix.Trace
import Mathlib.LinearAlgebra.Matrix.Notation
import Mathlib.Tactic.FinCases
import Mathlib.Tactic.Linarith
import Mathlib.Tactic.Ring
import Mathlib.Tactic.FieldSimp
import Mathlib.Data.List.Perm.Subperm
import Mathlib.Data.List.Nodup

/-!
# C104: symmetrized forces and stress tensors
-/

namespace Verif.TensorSym
open Verif.Spec

/-! ## The stress -/

/-- A tensor as a row of nine numbers. -/
def vec (T : Matrix (Fin 3) (Fin 3) ℝ) : Fin (3 * 3) → ℝ := fun n => T n.divNat n.modNat

theorem expand_vec (s : Fin 6 → ℝ) : expand s = vec (stressTensor s) := by
  funext n
  fin_cases n <;> rfl

theorem sum9 (f : Fin (3 * 3) → ℝ) : ∑ n, f n = ∑ i : Fin 3, ∑ j : Fin 3, f (finProdFinEquiv (i, j)) := by
  rw [← Fintype.sum_prod_type' fun (i j : Fin 3) => f (finProdFinEquiv (i, j))]
  exact (Equiv.sum_comp finProdFinEquiv f).symm

theorem divNat_prod {N : ℕ} (a : Fin N) (i : Fin 3) : (finProdFinEquiv (a, i)).divNat = a :=
  congrArg Prod.fst (finProdFinEquiv.symm_apply_apply (a, i))

theorem modNat_prod {N : ℕ} (a : Fin N) (i : Fin 3) : (finProdFinEquiv (a, i)).modNat = i :=
  congrArg Prod.snd (finProdFinEquiv.symm_apply_apply (a, i))

theorem kron_vec (R T : Matrix (Fin 3) (Fin 3) ℝ) : (kron R).mulVec (vec T) = vec (R * T * R.transpose) := by
  funext n
  simp only [Matrix.mulVec, dotProduct, kron, Matrix.of_apply, vec, sum9, divNat_prod, modNat_prod,
    Matrix.mul_apply, Matrix.transpose_apply, Finset.sum_mul]
  rw [Finset.sum_comm]
  refine Finset.sum_congr rfl fun j _ => Finset.sum_congr rfl fun k _ => ?_
  ring

/-- The average over the rotations. -/
noncomputable def average (A : Matrix (Fin 3) (Fin 3) ℝ) (rots : List (Matrix (Fin 3) (Fin 3) ℤ))
    (T : Matrix (Fin 3) (Fin 3) ℝ) : Matrix (Fin 3) (Fin 3) ℝ :=
  (1 / (rots.length : ℝ)) • (rots.map fun r => cartesianMatrix A r * T * (cartesianMatrix A r).transpose).sum

theorem sum_mulVec {n : ℕ} (l : List (Matrix (Fin n) (Fin n) ℝ)) (v : Fin n → ℝ) :
    l.sum.mulVec v = (l.map fun M => M.mulVec v).sum := by
  induction l with
  | nil => simp
  | cons M l ih => simp [Matrix.add_mulVec, ih]

theorem vec_sum (l : List (Matrix (Fin 3) (Fin 3) ℝ)) : (l.map vec).sum = vec l.sum := by
  induction l with
  | nil => rfl
  | cons M l ih => rw [List.map_cons, List.sum_cons, List.sum_cons, ih]; rfl

theorem spg_vec (A : Matrix (Fin 3) (Fin 3) ℝ) (rots : List (Matrix (Fin 3) (Fin 3) ℤ))
    (T : Matrix (Fin 3) (Fin 3) ℝ) : (spgProjector A rots).mulVec (vec T) = vec (average A rots T) := by
  unfold spgProjector average
  rw [Matrix.smul_mulVec, sum_mulVec, List.map_map]
  have : (rots.map ((fun M => M.mulVec (vec T)) ∘ fun r => kron (cartRotation A r))) =
      (rots.map fun r => cartesianMatrix A r * T * (cartesianMatrix A r).transpose).map vec := by
    rw [List.map_map]
    refine List.map_congr_left fun r _ => ?_
    simp only [Function.comp]
    rw [kron_vec]
    rfl
  rw [this, vec_sum]
  rfl

theorem sqrt_two_inv : (1 / Real.sqrt 2) * (1 / Real.sqrt 2) = 1 / 2 := by
  rw [div_mul_div_comm, Real.mul_self_sqrt (by norm_num)]; norm_num

set_option maxHeartbeats 2000000 in
theorem perm_entry (n m : Fin (3 * 3)) : permProjector n m =
    (1 / 2) * ((if n.divNat = m.divNat ∧ n.modNat = m.modNat then 1 else 0) +
      (if n.divNat = m.modNat ∧ n.modNat = m.divNat then 1 else 0)) := by
  have h := sqrt_two_inv
  simp only [one_div] at h
  fin_cases n <;> fin_cases m <;>
    simp [permProjector, combs, permBasis, uniq, Fin.divNat, Fin.modNat, h] <;> norm_num

theorem perm_vec (T : Matrix (Fin 3) (Fin 3) ℝ) :
    permProjector.mulVec (vec T) = vec ((1 / 2 : ℝ) • (T + T.transpose)) := by
  funext n
  simp only [Matrix.mulVec, dotProduct, perm_entry, vec, sum9, divNat_prod, modNat_prod, Matrix.smul_apply,
    Matrix.add_apply, Matrix.transpose_apply, smul_eq_mul]
  generalize n.divNat = i
  generalize n.modNat = j
  fin_cases i <;> fin_cases j <;> simp [Fin.sum_univ_three] <;> ring

theorem tensor_contract (T : Matrix (Fin 3) (Fin 3) ℝ) (h : T.transpose = T) : stressTensor (contract (vec T)) = T := by
  have h' : ∀ i j, T i j = T j i := fun i j => by
    conv_lhs => rw [← h]
    rfl
  ext i j
  fin_cases i <;> fin_cases j <;> first
    | rfl
    | exact h' _ _

theorem tensor_symm (s : Fin 6 → ℝ) : (stressTensor s).transpose = stressTensor s := by
  ext i j
  fin_cases i <;> fin_cases j <;> rfl

theorem list_sum_transpose (l : List (Matrix (Fin 3) (Fin 3) ℝ)) :
    l.sum.transpose = (l.map Matrix.transpose).sum := by
  induction l with
  | nil => simp
  | cons M l ih => simp [ih]

theorem average_symm (A : Matrix (Fin 3) (Fin 3) ℝ) (rots : List (Matrix (Fin 3) (Fin 3) ℤ))
    (T : Matrix (Fin 3) (Fin 3) ℝ) (h : T.transpose = T) : (average A rots T).transpose = average A rots T := by
  unfold average
  rw [Matrix.transpose_smul, list_sum_transpose, List.map_map]
  congr 2
  refine List.map_congr_left fun r _ => ?_
  simp only [Function.comp, Matrix.transpose_mul, Matrix.transpose_transpose, h, Matrix.mul_assoc]

theorem tensor_symStress (A : Matrix (Fin 3) (Fin 3) ℝ) (rots : List (Matrix (Fin 3) (Fin 3) ℤ)) (s : Fin 6 → ℝ) :
    stressTensor (symStress (projectorO2 A rots) s) = average A rots (stressTensor s) := by
  have hs := average_symm A rots _ (tensor_symm s)
  unfold symStress projectorO2
  rw [expand_vec, ← Matrix.mulVec_mulVec, spg_vec, perm_vec, hs, ← two_smul ℝ (average A rots (stressTensor s)),
    smul_smul]
  norm_num
  exact tensor_contract _ hs

theorem cart_mul (A : Matrix (Fin 3) (Fin 3) ℝ) (hA : A.det ≠ 0) (r s : Matrix (Fin 3) (Fin 3) ℤ) :
    cartesianMatrix A (r * s) = cartesianMatrix A r * cartesianMatrix A s := by
  unfold cartesianMatrix
  have h : (r * s).map (fun (x : ℤ) => (x : ℝ)) = r.map (fun (x : ℤ) => (x : ℝ)) * s.map (fun (x : ℤ) => (x : ℝ)) := by
    ext i j
    simp [Matrix.mul_apply]
  have hi : A⁻¹ * A = 1 := Matrix.nonsing_inv_mul A (isUnit_iff_ne_zero.mpr hA)
  rw [h]
  simp only [Matrix.mul_assoc]
  rw [← Matrix.mul_assoc A⁻¹ A, hi, Matrix.one_mul]

theorem cart_inj (A : Matrix (Fin 3) (Fin 3) ℝ) (hA : A.det ≠ 0) (r s : Matrix (Fin 3) (Fin 3) ℤ)
    (h : cartesianMatrix A r = cartesianMatrix A s) : r = s := by
  unfold cartesianMatrix at h
  have hi : A⁻¹ * A = 1 := Matrix.nonsing_inv_mul A (isUnit_iff_ne_zero.mpr hA)
  have h2 := congrArg (fun M => A⁻¹ * M * A) h
  simp only [Matrix.mul_assoc, hi, Matrix.mul_one] at h2
  rw [← Matrix.mul_assoc, ← Matrix.mul_assoc, hi, Matrix.one_mul, Matrix.one_mul] at h2
  ext i j
  have := congrFun (congrFun h2 i) j
  simpa using this

theorem left_perm {A : Matrix (Fin 3) (Fin 3) ℝ} {rots : List (Matrix (Fin 3) (Fin 3) ℤ)} (h : PointGroup A rots)
    (r : Matrix (Fin 3) (Fin 3) ℤ) (hr : r ∈ rots) : (rots.map fun s => r * s).Perm rots := by
  have hinj : Function.Injective fun s => r * s := by
    intro s t e
    apply cart_inj A h.axes
    have e2 := congrArg (cartesianMatrix A) e
    simp only [cart_mul A h.axes] at e2
    have e3 := congrArg (fun M => (cartesianMatrix A r).transpose * M) e2
    simp only [← Matrix.mul_assoc, h.rigid r hr, Matrix.one_mul] at e3
    exact e3
  refine (List.subperm_of_subset (h.once.map hinj) ?_).perm_of_length_le (by simp)
  intro x hx
  obtain ⟨s, hs, rfl⟩ := List.mem_map.mp hx
  exact h.closed r hr s hs

theorem mul_list_sum (R : Matrix (Fin 3) (Fin 3) ℝ) (l : List (Matrix (Fin 3) (Fin 3) ℝ)) (S : Matrix (Fin 3) (Fin 3) ℝ) :
    R * l.sum * S = (l.map fun M => R * M * S).sum := by
  induction l with
  | nil => simp
  | cons M l ih => simp [Matrix.mul_add, Matrix.add_mul, ih]

theorem average_invariant {A : Matrix (Fin 3) (Fin 3) ℝ} {rots : List (Matrix (Fin 3) (Fin 3) ℤ)}
    (h : PointGroup A rots) (T : Matrix (Fin 3) (Fin 3) ℝ) : RotationInvariant A rots (average A rots T) := by
  intro r hr
  unfold average
  rw [Matrix.mul_smul, Matrix.smul_mul, mul_list_sum, List.map_map]
  congr 1
  have hp := (left_perm h r hr).map fun s => cartesianMatrix A s * T * (cartesianMatrix A s).transpose
  rw [List.map_map] at hp
  rw [← hp.sum_eq]
  congr 1
  refine List.map_congr_left fun s _ => ?_
  simp only [Function.comp, cart_mul A h.axes, Matrix.transpose_mul, Matrix.mul_assoc]

/-- The inner product of tensors. -/
def inner (S T : Matrix (Fin 3) (Fin 3) ℝ) : ℝ := (S * T.transpose).trace

theorem inner_sum (S : Matrix (Fin 3) (Fin 3) ℝ) (l : List (Matrix (Fin 3) (Fin 3) ℝ)) :
    inner l.sum S = (l.map fun M => inner M S).sum := by
  induction l with
  | nil => simp [inner]
  | cons M l ih =>
    rw [List.sum_cons, List.map_cons, List.sum_cons, ← ih]
    simp [inner, Matrix.add_mul]

theorem inner_rotated (R S T : Matrix (Fin 3) (Fin 3) ℝ) (hR : R.transpose * R = 1)
    (hT : R * T * R.transpose = T) : inner (R * S * R.transpose) T = inner S T := by
  have ht : T.transpose = R * T.transpose * R.transpose := by
    conv_lhs => rw [← hT]
    simp [Matrix.transpose_mul, Matrix.mul_assoc]
  unfold inner
  conv_lhs => rw [ht]
  have e : R * S * R.transpose * (R * T.transpose * R.transpose) = R * (S * (R.transpose * R) * T.transpose * R.transpose) := by
    simp only [Matrix.mul_assoc]
  rw [e, hR, Matrix.mul_one, Matrix.trace_mul_comm, Matrix.mul_assoc, hR, Matrix.mul_one]

theorem sum_const (l : List (Matrix (Fin 3) (Fin 3) ℤ)) (c : ℝ) (f : Matrix (Fin 3) (Fin 3) ℤ → ℝ)
    (h : ∀ r ∈ l, f r = c) : (l.map f).sum = l.length * c := by
  induction l with
  | nil => simp
  | cons a l ih =>
    rw [List.map_cons, List.sum_cons, ih fun r hr => h r (List.mem_cons_of_mem _ hr), h a List.mem_cons_self]
    push_cast [List.length_cons]
    ring

theorem inner_average {A : Matrix (Fin 3) (Fin 3) ℝ} {rots : List (Matrix (Fin 3) (Fin 3) ℤ)}
    (h : PointGroup A rots) (S T : Matrix (Fin 3) (Fin 3) ℝ) (hT : RotationInvariant A rots T) :
    inner (average A rots S) T = inner S T := by
  have hl : (rots.length : ℝ) ≠ 0 := by
    have := h.some
    simpa using this
  have : inner (average A rots S) T = (1 / (rots.length : ℝ)) *
      inner (rots.map fun r => cartesianMatrix A r * S * (cartesianMatrix A r).transpose).sum T := by
    simp [inner, average, Matrix.smul_mul]
  have e := sum_const rots (inner S T)
    ((fun M => inner M T) ∘ fun r => cartesianMatrix A r * S * (cartesianMatrix A r).transpose)
    fun r hr => inner_rotated _ S T (h.rigid r hr) (hT r hr)
  rw [this, inner_sum, List.map_map, e]
  field_simp

theorem inner_eq (S T : Matrix (Fin 3) (Fin 3) ℝ) : inner S T = ∑ i, ∑ j, S i j * T i j := by
  simp [inner, Matrix.trace, Matrix.mul_apply]

theorem one_invariant {A : Matrix (Fin 3) (Fin 3) ℝ} {rots : List (Matrix (Fin 3) (Fin 3) ℤ)}
    (h : PointGroup A rots) : RotationInvariant A rots 1 := by
  intro r hr
  rw [Matrix.mul_one]
  exact mul_eq_one_comm.mp (h.rigid r hr)

theorem average_fixed {A : Matrix (Fin 3) (Fin 3) ℝ} {rots : List (Matrix (Fin 3) (Fin 3) ℤ)}
    (h : PointGroup A rots) (T : Matrix (Fin 3) (Fin 3) ℝ) (hT : RotationInvariant A rots T) :
    average A rots T = T := by
  have hl : (rots.length : ℝ) ≠ 0 := by
    have := h.some
    simpa using this
  unfold average
  have : (rots.map fun r => cartesianMatrix A r * T * (cartesianMatrix A r).transpose) = rots.map fun _ => T :=
    List.map_congr_left fun r hr => hT r hr
  rw [this, List.map_const', List.sum_replicate, ← Nat.cast_smul_eq_nsmul ℝ, smul_smul]
  field_simp
  rw [one_smul]

/-- The symmetrized stress of every structure is invariant under its rotations; it is the average of
the rotated stresses. -/
theorem C104_stress_invariant (A : Matrix (Fin 3) (Fin 3) ℝ) (rots : List (Matrix (Fin 3) (Fin 3) ℤ))
    (h : PointGroup A rots) (s : Fin 6 → ℝ) :
    RotationInvariant A rots (stressTensor (symStress (projectorO2 A rots) s)) ∧
    ∀ i j, stressTensor (symStress (projectorO2 A rots) s) i j =
      (rots.map fun r => (cartesianMatrix A r * stressTensor s * (cartesianMatrix A r).transpose) i j).sum / rots.length := by
  rw [tensor_symStress]
  refine ⟨average_invariant h _, fun i j => ?_⟩
  unfold average
  rw [Matrix.smul_apply, smul_eq_mul, one_div, inv_mul_eq_div]
  congr 1
  generalize rots = l
  induction l with
  | nil => simp
  | cons r l ih => simp only [List.map_cons, List.sum_cons, Matrix.add_apply, ih]

/-- Symmetrizing keeps the pressure, and it keeps a stress that has the symmetry. -/
theorem C104_stress_kept (A : Matrix (Fin 3) (Fin 3) ℝ) (rots : List (Matrix (Fin 3) (Fin 3) ℤ))
    (h : PointGroup A rots) (s : Fin 6 → ℝ) :
    let s' := symStress (projectorO2 A rots) s
    s' 0 + s' 1 + s' 2 = s 0 + s 1 + s 2 ∧
    (RotationInvariant A rots (stressTensor s) → s' = s) := by
  refine ⟨?_, fun hi => ?_⟩
  · have := inner_average h (stressTensor s) 1 (one_invariant h)
    rw [← tensor_symStress] at this
    simpa [inner, Matrix.trace, Fin.sum_univ_three, stressTensor] using this
  · have e := tensor_symStress A rots s
    rw [average_fixed h _ hi] at e
    funext i
    fin_cases i
    · exact congrFun (congrFun e 0) 0
    · exact congrFun (congrFun e 1) 1
    · exact congrFun (congrFun e 2) 2
    · exact congrFun (congrFun e 0) 1
    · exact congrFun (congrFun e 1) 2
    · exact congrFun (congrFun e 2) 0

/-- No stress with the symmetry is closer to the given one than the symmetrized one. -/
theorem C104_stress_closest (A : Matrix (Fin 3) (Fin 3) ℝ) (rots : List (Matrix (Fin 3) (Fin 3) ℤ))
    (h : PointGroup A rots) (s : Fin 6 → ℝ) (T : Matrix (Fin 3) (Fin 3) ℝ) (hT : RotationInvariant A rots T) :
    tensorDistance (stressTensor s) (stressTensor (symStress (projectorO2 A rots) s)) ≤
      tensorDistance (stressTensor s) T := by
  rw [tensor_symStress]
  set S := stressTensor s
  set P := average A rots S
  have h1 := inner_average h S T hT
  have h2 := inner_average h S P (average_invariant h S)
  have key : tensorDistance S T = tensorDistance S P + tensorDistance P T +
      2 * (inner S P - inner P P - (inner S T - inner P T)) := by
    rw [inner_eq, inner_eq, inner_eq, inner_eq]
    simp only [tensorDistance, Fin.sum_univ_three]
    ring
  have h3 : inner P T = inner S T := h1
  have h4 : inner P P = inner S P := h2
  have h5 : 0 ≤ tensorDistance P T :=
    Finset.sum_nonneg fun i _ => Finset.sum_nonneg fun j _ => sq_nonneg _
  rw [key, h3, h4]
  linarith

/-! ## The forces -/

theorem sumN {N : ℕ} (f : Fin (N * 3) → ℝ) : ∑ n, f n = ∑ a : Fin N, ∑ i : Fin 3, f (finProdFinEquiv (a, i)) := by
  rw [← Fintype.sum_prod_type' fun (a : Fin N) (i : Fin 3) => f (finProdFinEquiv (a, i))]
  exact (Equiv.sum_comp finProdFinEquiv f).symm

/-- The components of forces along the basis. -/
def along {N k : ℕ} (B : Matrix (Fin (N * 3)) (Fin k) ℝ) (f : Matrix (Fin 3) (Fin N) ℝ) : Fin k → ℝ :=
  B.transpose.mulVec (flatten f)

theorem symForcesAll_eq {N k : ℕ} (B : Matrix (Fin (N * 3)) (Fin k) ℝ) (f : Matrix (Fin 3) (Fin N) ℝ)
    (i : Fin 3) (a : Fin N) :
    symForcesAll (B * B.transpose) f i a = ∑ c, B (finProdFinEquiv (a, i)) c * along B f c := by
  unfold symForcesAll unflatten
  rw [Matrix.of_apply, ← Matrix.mulVec_mulVec]
  rfl

theorem comb_invariant {N k : ℕ} {ops : List (CellOperation N)} {B : Matrix (Fin (N * 3)) (Fin k) ℝ}
    (h : SymmetricBasis ops B) (x : Fin k → ℝ) :
    OperationInvariant ops (Matrix.of fun i a => ∑ c, B (finProdFinEquiv (a, i)) c * x c) := by
  intro g hg a
  funext i
  simp only [Matrix.of_apply, Matrix.mulVec, dotProduct, Finset.mul_sum]
  rw [Finset.sum_comm]
  refine Finset.sum_congr rfl fun c _ => ?_
  have e := congrFun (h.invariant c g hg a) i
  simp only [Matrix.of_apply, Matrix.mulVec, dotProduct] at e
  rw [e, Finset.sum_mul]
  exact Finset.sum_congr rfl fun j _ => by ring

theorem comb_noDrift {N k : ℕ} {ops : List (CellOperation N)} {B : Matrix (Fin (N * 3)) (Fin k) ℝ}
    (h : SymmetricBasis ops B) (x : Fin k → ℝ) :
    NoDrift (N := N) (Matrix.of fun i a => ∑ c, B (finProdFinEquiv (a, i)) c * x c) := by
  intro i
  simp only [Matrix.of_apply]
  rw [Finset.sum_comm]
  refine Finset.sum_eq_zero fun c _ => ?_
  rw [← Finset.sum_mul]
  have e := h.noDrift c i
  simp only [Matrix.of_apply] at e
  rw [e, zero_mul]

theorem flatten_comb {N k : ℕ} (B : Matrix (Fin (N * 3)) (Fin k) ℝ) (x : Fin k → ℝ) (f : Matrix (Fin 3) (Fin N) ℝ)
    (hf : ∀ i a, f i a = ∑ c, B (finProdFinEquiv (a, i)) c * x c) : flatten f = B.mulVec x := by
  funext n
  unfold flatten
  rw [hf, show finProdFinEquiv (n.divNat, n.modNat) = n from finProdFinEquiv.apply_symm_apply n]
  rfl

theorem along_comb {N k : ℕ} {ops : List (CellOperation N)} {B : Matrix (Fin (N * 3)) (Fin k) ℝ}
    (h : SymmetricBasis ops B) (x : Fin k → ℝ) (f : Matrix (Fin 3) (Fin N) ℝ)
    (hf : ∀ i a, f i a = ∑ c, B (finProdFinEquiv (a, i)) c * x c) : along B f = x := by
  unfold along
  rw [flatten_comb B x f hf, Matrix.mulVec_mulVec, h.orthonormal, Matrix.one_mulVec]

/-- The distance of forces, squared. -/
theorem dist_flatten {N : ℕ} (f g : Matrix (Fin 3) (Fin N) ℝ) :
    (∑ a, ∑ i, (f i a - g i a) ^ 2) = (flatten f - flatten g) ⬝ᵥ (flatten f - flatten g) := by
  simp only [dotProduct, sumN, Pi.sub_apply, flatten, divNat_prod, modNat_prod]
  exact Finset.sum_congr rfl fun a _ => Finset.sum_congr rfl fun i _ => by ring

theorem closest {N k : ℕ} {ops : List (CellOperation N)} {B : Matrix (Fin (N * 3)) (Fin k) ℝ}
    (h : SymmetricBasis ops B) (f g g' : Matrix (Fin 3) (Fin N) ℝ) (y : Fin k → ℝ)
    (hg : ∀ i a, g i a = ∑ c, B (finProdFinEquiv (a, i)) c * along B f c)
    (hg' : ∀ i a, g' i a = ∑ c, B (finProdFinEquiv (a, i)) c * y c) :
    (∑ a, ∑ i, (f i a - g i a) ^ 2) ≤ ∑ a, ∑ i, (f i a - g' i a) ^ 2 := by
  rw [dist_flatten, dist_flatten, flatten_comb B _ g hg, flatten_comb B y g' hg']
  set u := flatten f
  set x := along B f
  have hx : B.transpose.mulVec u = x := rfl
  have hb : ∀ v w : Fin k → ℝ, B.mulVec v ⬝ᵥ B.mulVec w = v ⬝ᵥ w := fun v w => by
    rw [Matrix.dotProduct_mulVec, Matrix.vecMul_mulVec, h.orthonormal, ← Matrix.dotProduct_mulVec, Matrix.one_mulVec]
  have hu : ∀ v : Fin k → ℝ, u ⬝ᵥ B.mulVec v = x ⬝ᵥ v := fun v => by
    rw [Matrix.dotProduct_mulVec, ← Matrix.mulVec_transpose, hx]
  have h1 : (u - B.mulVec x) ⬝ᵥ (u - B.mulVec x) = u ⬝ᵥ u - x ⬝ᵥ x := by
    rw [sub_dotProduct, dotProduct_sub, dotProduct_sub, hb, hu, dotProduct_comm (B.mulVec x) u, hu]
    ring
  have h2 : (u - B.mulVec y) ⬝ᵥ (u - B.mulVec y) = u ⬝ᵥ u - x ⬝ᵥ x + (x - y) ⬝ᵥ (x - y) := by
    rw [sub_dotProduct, dotProduct_sub, dotProduct_sub, hb, hu, dotProduct_comm (B.mulVec y) u, hu, sub_dotProduct,
      dotProduct_sub, dotProduct_sub, dotProduct_comm y x]
    ring
  rw [h1, h2]
  have : 0 ≤ (x - y) ⬝ᵥ (x - y) := Finset.sum_nonneg fun i _ => mul_self_nonneg _
  linarith

theorem reps_eq (m n : ℕ) (hn : 0 < n) :
    ((List.finRange (m * n)).filter fun a => decide (a.val % n = 0)) =
      (List.finRange m).map fun a => finProdFinEquiv (a, (⟨0, hn⟩ : Fin n)) := by
  have hs1 : ((List.finRange (m * n)).filter fun a => decide (a.val % n = 0)).Pairwise (· < ·) :=
    (List.pairwise_lt_finRange _).filter _
  have hs2 : ((List.finRange m).map fun a => finProdFinEquiv (a, (⟨0, hn⟩ : Fin n))).Pairwise (· < ·) := by
    rw [List.pairwise_map]
    refine (List.pairwise_lt_finRange m).imp fun {a b} hab => ?_
    simp only [finProdFinEquiv, Equiv.coe_fn_mk, Fin.lt_def] at *
    simpa using Nat.mul_lt_mul_of_pos_left hab hn
  refine List.Perm.eq_of_pairwise (fun a b _ _ h1 h2 => absurd h1 (lt_asymm h2)) hs1 hs2 ?_
  refine (List.perm_ext_iff_of_nodup (hs1.imp fun h => ne_of_lt h) (hs2.imp fun h => ne_of_lt h)).mpr fun x => ?_
  simp only [List.mem_filter, List.mem_finRange, true_and, decide_eq_true_eq, List.mem_map]
  constructor
  · intro hx
    refine ⟨x.divNat, ?_⟩
    have : x.modNat = ⟨0, hn⟩ := Fin.ext hx
    rw [← this]
    exact finProdFinEquiv.apply_symm_apply x
  · rintro ⟨a, rfl⟩
    simp [finProdFinEquiv]

/-- The forces that are returned are those of one set of forces on the supercell which is invariant,
has no drift and is the closest of these to the given forces: those of the first copy of each atom of
the unit cell.  With translations among the operations every copy has this force, and the forces
returned have no drift. -/
theorem C104_forces (m n k : ℕ) (hm : 0 < m) (hn : 0 < n) (ops : List (CellOperation (m * n)))
    (B : Matrix (Fin (m * n * 3)) (Fin k) ℝ) (h : SymmetricBasis ops B) (f : Matrix (Fin 3) (Fin (m * n)) ℝ) :
    ∃ g : Matrix (Fin 3) (Fin (m * n)) ℝ,
      symForces (projectorCartesian (.ok (some ⟨k, B⟩))) n f =
        ((List.finRange m).map fun a i => g i (finProdFinEquiv (a, ⟨0, hn⟩))) ∧
      OperationInvariant ops g ∧ NoDrift g ∧
      (∀ g', OperationInvariant ops g' → NoDrift g' →
        (∑ a, ∑ i, (f i a - g i a) ^ 2) ≤ ∑ a, ∑ i, (f i a - g' i a) ^ 2) ∧
      (OperationInvariant ops f → NoDrift f → g = f) ∧
      (HasTranslations ops →
        (∀ a c i, g i (finProdFinEquiv (a, c)) = g i (finProdFinEquiv (a, ⟨0, hn⟩))) ∧
        ∀ i, ∑ a, g i (finProdFinEquiv (a, ⟨0, hn⟩)) = 0) := by
  have hp : projectorCartesian (.ok (some ⟨k, B⟩)) = B * B.transpose := by
    unfold projectorCartesian
    have : ¬ m * n * 3 = 0 := by positivity
    simp only [this, if_false]
  set g : Matrix (Fin 3) (Fin (m * n)) ℝ := Matrix.of fun i a => ∑ c, B (finProdFinEquiv (a, i)) c * along B f c with hg
  have hge : symForcesAll (B * B.transpose) f = g := by
    ext i a
    rw [symForcesAll_eq]
    rfl
  have hgi : OperationInvariant ops g := comb_invariant h _
  have hgd : NoDrift g := comb_noDrift h _
  refine ⟨g, ?_, hgi, hgd, fun g' h1 h2 => ?_, fun h1 h2 => ?_, fun ht => ?_⟩
  · unfold symForces
    rw [hp, hge, reps_eq m n hn, List.map_map]
    rfl
  · obtain ⟨y, hy⟩ := h.complete g' h1 h2
    exact closest h f g g' y (fun _ _ => rfl) hy
  · obtain ⟨x, hx⟩ := h.complete f h1 h2
    ext i a
    rw [hx, hg, Matrix.of_apply, along_comb h x f hx]
  · have hc : ∀ a c i, g i (finProdFinEquiv (a, c)) = g i (finProdFinEquiv (a, ⟨0, hn⟩)) := by
      intro a c i
      obtain ⟨o, ho, hr, hpm⟩ := ht a c hn
      have := congrFun (hgi o ho (finProdFinEquiv (a, ⟨0, hn⟩))) i
      rw [hpm, hr, Matrix.one_mulVec] at this
      exact this
    refine ⟨hc, fun i => ?_⟩
    have hz := hgd i
    rw [← Equiv.sum_comp finProdFinEquiv, Fintype.sum_prod_type] at hz
    simp only [hc] at hz
    simp only [Finset.sum_const, Finset.card_univ, Fintype.card_fin] at hz
    rw [← Finset.smul_sum] at hz
    rw [nsmul_eq_mul] at hz
    exact (mul_eq_zero.mp hz).resolve_left (Nat.cast_ne_zero.mpr hn.ne')

/-- What an evaluation returns are the symmetrized sums of the static part and the average. -/
theorem C104_eval (m n k : ℕ) (A : Matrix (Fin 3) (Fin 3) ℝ) (rots : List (Matrix (Fin 3) (Fin 3) ℤ))
    (h : PointGroup A rots) (B : Matrix (Fin (m * n * 3)) (Fin k) ℝ) (p : Parts (m * n)) :
    (evalSym A rots (.ok (some ⟨k, B⟩)) n p).1 =
      List.zipWith (· + ·) (symForces (projectorCartesian (.ok (some ⟨k, B⟩))) n p.staticForces)
        (symForces (projectorCartesian (.ok (some ⟨k, B⟩))) n p.averageForces) ∧
    RotationInvariant A rots (stressTensor (evalSym A rots (.ok (some ⟨k, B⟩)) n p).2) ∧
    (evalSym A rots (.ok (some ⟨k, B⟩)) n p).2 0 + (evalSym A rots (.ok (some ⟨k, B⟩)) n p).2 1 +
        (evalSym A rots (.ok (some ⟨k, B⟩)) n p).2 2 =
      (p.staticStress 0 + p.staticStress 1 + p.staticStress 2) +
        (p.averageStress 0 + p.averageStress 1 + p.averageStress 2) := by
  refine ⟨?_, (C104_stress_invariant A rots h _).1, ?_⟩
  · simp only [evalSym, symForces, List.zipWith_map, List.zipWith_self]
    refine List.map_congr_left fun a _ => ?_
    funext i
    simp only [Pi.add_apply, symForcesAll, unflatten, Matrix.of_apply]
    have e : flatten (p.staticForces + p.averageForces) = flatten p.staticForces + flatten p.averageForces := rfl
    rw [e, Matrix.mulVec_add]
    rfl
  · have := (C104_stress_kept A rots h fun i => p.staticStress i + p.averageStress i).1
    simp only [evalSym]
    rw [this]
    ring

/-- Not so: if the basis cannot be made, whatever the reason, the forces are zero, without an error,
also where the given ones are symmetric, have no drift and are not zero. -/
theorem C104_error_violation (e : Err) :
    ∃ f : Matrix (Fin 3) (Fin 2) ℝ, OperationInvariant [⟨1, 1⟩] f ∧ NoDrift f ∧ f 0 0 = 1 ∧
      symForces (projectorCartesian (N := 2) (.error e)) 1 f = [fun _ => 0, fun _ => 0] := by
  refine ⟨!![1, -1; 0, 0; 0, 0], ?_, ?_, rfl, ?_⟩
  · intro g hg a
    rw [List.mem_singleton] at hg
    subst hg
    rw [Matrix.one_mulVec]
    rfl
  · intro i
    fin_cases i <;> simp [Fin.sum_univ_two]
  · simp [symForces, projectorCartesian, symForcesAll, unflatten, List.finRange, Nat.mod_one]

/-! ## Cases that meet the hypotheses -/

/-- A twofold axis. -/
def twofold : List (Matrix (Fin 3) (Fin 3) ℤ) := [1, !![-1, 0, 0; 0, -1, 0; 0, 0, 1]]

theorem twofold_group : PointGroup 1 twofold := by
  have hc : ∀ r, cartesianMatrix 1 r = r.map (fun (x : ℤ) => (x : ℝ)) := fun r => by
    simp [cartesianMatrix]
  refine ⟨by simp, by simp [twofold], ?_, ?_, ?_⟩
  · decide
  · decide
  · intro r hr
    rw [hc]
    simp only [twofold, List.mem_cons, List.not_mem_nil, or_false] at hr
    rcases hr with rfl | rfl
    · ext i j
      fin_cases i <;> fin_cases j <;> simp [Matrix.mul_apply, Fin.sum_univ_three]
    · ext i j
      fin_cases i <;> fin_cases j <;> simp [Matrix.mul_apply, Fin.sum_univ_three]

example : symStress (projectorO2 1 twofold) ![1, 2, 3, 4, 5, 6] = ![1, 2, 3, 4, 0, 0] := by
  have h := (C104_stress_invariant 1 twofold twofold_group ![1, 2, 3, 4, 5, 6]).2
  funext i
  have hc : ∀ r, cartesianMatrix 1 r = r.map (fun (x : ℤ) => (x : ℝ)) := fun r => by
    simp [cartesianMatrix]
  simp only [hc] at h
  fin_cases i
  · have := h 0 0
    simp [twofold, stressTensor, Matrix.mul_apply, Fin.sum_univ_three] at this
    simpa [twofold] using this
  · have := h 1 1
    simp [twofold, stressTensor, Matrix.mul_apply, Fin.sum_univ_three] at this
    simpa [twofold] using this
  · have := h 2 2
    simp [twofold, stressTensor, Matrix.mul_apply, Fin.sum_univ_three] at this
    simpa [twofold] using this
  · have := h 0 1
    simp [twofold, stressTensor, Matrix.mul_apply, Fin.sum_univ_three] at this
    simpa [twofold] using this
  · have := h 1 2
    simp [twofold, stressTensor, Matrix.mul_apply, Fin.sum_univ_three] at this
    simpa [twofold] using this
  · have := h 2 0
    simp [twofold, stressTensor, Matrix.mul_apply, Fin.sum_univ_three] at this
    simpa [twofold] using this

/-- Opposite forces on two atoms. -/
noncomputable def opposite : Matrix (Fin (2 * 1 * 3)) (Fin 3) ℝ :=
  Matrix.of fun n c => if n.modNat = c then (if n.divNat = (0 : Fin (2 * 1)) then 1 else -1) / Real.sqrt 2 else 0

theorem opposite_basis : SymmetricBasis (N := 2 * 1) [⟨1, 1⟩] opposite := by
  have h2 : (1 / Real.sqrt 2) * (1 / Real.sqrt 2) = 1 / 2 := sqrt_two_inv
  have hs : Real.sqrt 2 ≠ 0 := by positivity
  have hv : ∀ (a : Fin (2 * 1)) (i c : Fin 3), opposite (finProdFinEquiv (a, i)) c =
      if i = c then (if a = 0 then 1 else -1) / Real.sqrt 2 else 0 := fun a i c => by
    simp only [opposite, Matrix.of_apply, divNat_prod, modNat_prod]
  have hu : (Finset.univ : Finset (Fin (2 * 1))) = {0, 1} := by decide
  refine ⟨?_, ?_, ?_, ?_⟩
  · ext c d
    simp only [Matrix.mul_apply, Matrix.transpose_apply, sumN, hv]
    rw [hu, Finset.sum_pair (by decide)]
    have hq : (1 / Real.sqrt 2) * (1 / Real.sqrt 2) + (-1 / Real.sqrt 2) * (-1 / Real.sqrt 2) = 1 := by
      have : (-1 / Real.sqrt 2) * (-1 / Real.sqrt 2) = (1 / Real.sqrt 2) * (1 / Real.sqrt 2) := by ring
      rw [this, h2]; norm_num
    fin_cases c <;> fin_cases d <;> simp [Fin.sum_univ_three] <;> (try simpa using hq)
  · intro c g hg a
    rw [List.mem_singleton] at hg
    subst hg
    rw [Matrix.one_mulVec]
    rfl
  · intro c i
    simp only [Matrix.of_apply, hv]
    rw [hu, Finset.sum_pair (by decide)]
    split <;> simp <;> ring
  · intro f _ hd
    refine ⟨fun c => f c 0 * Real.sqrt 2, fun i a => ?_⟩
    have hz := hd i
    rw [hu, Finset.sum_pair (by decide)] at hz
    simp only [hv, ite_mul, zero_mul, Finset.sum_ite_eq, Finset.mem_univ, if_true]
    have ha : a = 0 ∨ a = 1 := by revert a; decide
    rcases ha with rfl | rfl
    · rw [if_pos rfl]; field_simp
    · rw [if_neg (by decide)]
      have : f i 1 = - f i 0 := by linarith
      rw [this]; field_simp

example : HasTranslations (m := 2) (n := 1) [⟨1, 1⟩] := by
  intro a k h
  refine ⟨_, List.mem_singleton.mpr rfl, rfl, ?_⟩
  have : k = ⟨0, h⟩ := Subsingleton.elim _ _
  rw [this]
  rfl

end Verif.TensorSym
