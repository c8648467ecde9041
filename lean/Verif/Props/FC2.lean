import Verif.Model.FC2
import Verif.Spec.Harmonic
import Mathlib.Tactic.Ring
import Mathlib.Tactic.FinCases
import Mathlib.Tactic.FieldSimp
import Mathlib.Tactic.LinearCombination
import Mathlib.Algebra.BigOperators.Ring.Finset
import Mathlib.Tactic.NormNum
import Mathlib.Algebra.Field.Rat

/-!
C45: energies, forces and stresses from second-order force constants.
-/

namespace Verif.FC2
open Verif.Spec Finset
variable {K : Type} [Field K] {n : ℕ}

theorem sum_flat (g : Fin n → Fin 3 → K) :
    ∑ r : Fin (n * 3), g ⟨r / 3, by omega⟩ ⟨r % 3, by omega⟩ = ∑ i, ∑ a, g i a := by
  rw [← Fintype.sum_prod_type' g]
  refine Fintype.sum_equiv finProdFinEquiv.symm _ _ ?_
  intro r
  rfl

theorem forcesFlat_eq (Φ : FC n K) (u : Fin n → Fin 3 → K) (r : Fin (n * 3)) :
    forcesFlat (toMatrix Φ) (flatten u) r = harmonicForce Φ u ⟨r / 3, by omega⟩ ⟨r % 3, by omega⟩ := by
  unfold forcesFlat harmonicForce toMatrix flatten
  rw [sum_flat fun j b => Φ ⟨r / 3, by omega⟩ j ⟨r % 3, by omega⟩ b * (- u j b)]
  simp only [mul_neg, sum_neg_distrib]

theorem reshapeT_flat (g : Fin n → Fin 3 → K) (a : Fin 3) (i : Fin n) :
    reshapeT (fun r => g ⟨r / 3, by omega⟩ ⟨r % 3, by omega⟩) a i = g i a := by
  unfold reshapeT
  have h1 : (⟨(3 * (i : ℕ) + a) / 3, by omega⟩ : Fin n) = i := by apply Fin.ext; simp only; omega
  have h2 : (⟨(3 * (i : ℕ) + a) % 3, by omega⟩ : Fin 3) = a := by apply Fin.ext; simp only; omega
  simp only [h1, h2]

/-- **C45.** The energy is `½ uᵀΦu`, the forces are `-Φu`, and the stress components are the
symmetrised products of forces and displacements in the order xx, yy, zz, xy, yz, zx. -/
theorem C45_values (Φ : FC n K) (u : Fin n → Fin 3 → K) :
    (evalFc2 (toMatrix Φ) (flatten u)).energy = harmonicEnergy Φ u ∧
    (∀ a i, (evalFc2 (toMatrix Φ) (flatten u)).forces a i = harmonicForce Φ u i a) ∧
    (evalFc2 (toMatrix Φ) (flatten u)).stress =
      let s (a b : Fin 3) := ∑ i, 1 / 2 * (harmonicForce Φ u i a * u i b + harmonicForce Φ u i b * u i a)
      fun k => match k with
        | 0 => s 0 0 | 1 => s 1 1 | 2 => s 2 2 | 3 => s 0 1 | 4 => s 1 2 | 5 => s 2 0 := by
  have hf : ∀ a i, reshapeT (forcesFlat (toMatrix Φ) (flatten u)) a i = harmonicForce Φ u i a := by
    intro a i
    rw [← reshapeT_flat (fun i a => harmonicForce Φ u i a) a i]
    unfold reshapeT
    exact forcesFlat_eq _ _ _
  have hd : ∀ a i, reshapeT (flatten u) a i = u i a := fun a i => reshapeT_flat u a i
  refine ⟨?_, hf, ?_⟩
  · unfold evalFc2 harmonicEnergy
    simp only
    congr 1
    simp only [forcesFlat_eq]
    unfold flatten
    rw [sum_flat fun i a => - u i a * harmonicForce Φ u i a]
    refine sum_congr rfl fun i _ => sum_congr rfl fun a _ => ?_
    unfold harmonicForce
    rw [neg_mul_neg, mul_sum]
    refine sum_congr rfl fun j _ => ?_
    rw [mul_sum]
    exact sum_congr rfl fun b _ => by ring
  · funext k
    have : ∀ a b : Fin 3, 1 / 2 * ∑ i, (reshapeT (forcesFlat (toMatrix Φ) (flatten u)) a i * reshapeT (flatten u) b i +
        reshapeT (forcesFlat (toMatrix Φ) (flatten u)) b i * reshapeT (flatten u) a i) =
        ∑ i, 1 / 2 * (harmonicForce Φ u i a * u i b + harmonicForce Φ u i b * u i a) := by
      intro a b
      simp only [hf, hd, mul_sum]
    fin_cases k <;> exact this _ _

theorem bilinear (Φ : FC n K) (u v : Fin n → Fin 3 → K) :
    (∑ i, ∑ a, ∑ j, ∑ b, u i a * Φ i j a b * v j b) = - ∑ i, ∑ a, u i a * harmonicForce Φ v i a := by
  unfold harmonicForce
  simp only [mul_neg, sum_neg_distrib, neg_neg, mul_sum, mul_assoc]

/-- **C45.** The returned forces are the exact negative derivative of the returned energy: the energy
after a further displacement `h` is the energy minus the work of the forces plus the energy of `h`. -/
theorem C45_forces_derivative (h2 : (2 : K) ≠ 0) (Φ : FC n K) (hs : PermSymm Φ) (u h : Fin n → Fin 3 → K) :
    (evalFc2 (toMatrix Φ) (flatten (u + h))).energy =
      (evalFc2 (toMatrix Φ) (flatten u)).energy
      - (∑ i, ∑ a, (evalFc2 (toMatrix Φ) (flatten u)).forces a i * h i a)
      + (evalFc2 (toMatrix Φ) (flatten h)).energy := by
  obtain ⟨e1, f1, -⟩ := C45_values Φ u
  rw [e1, (C45_values Φ h).1, (C45_values Φ (u + h)).1]
  simp only [f1]
  unfold harmonicEnergy
  have lin : ∀ i a, harmonicForce Φ (u + h) i a = harmonicForce Φ u i a + harmonicForce Φ h i a := by
    intro i a
    unfold harmonicForce
    simp only [Pi.add_apply, mul_add, sum_add_distrib]
    ring
  have sym : (∑ i, ∑ a, u i a * harmonicForce Φ h i a) = ∑ i, ∑ a, h i a * harmonicForce Φ u i a := by
    have h1 := bilinear Φ u h
    have h3 := bilinear Φ h u
    have h4 : (∑ i, ∑ a, ∑ j, ∑ b, u i a * Φ i j a b * h j b) = ∑ i, ∑ a, ∑ j, ∑ b, h i a * Φ i j a b * u j b := by
      have conv : ∀ F : Fin n → Fin 3 → Fin n → Fin 3 → K, (∑ i, ∑ a, ∑ j, ∑ b, F i a j b) = ∑ p : Fin n × Fin 3, ∑ q : Fin n × Fin 3, F p.1 p.2 q.1 q.2 := by
        intro F
        rw [Fintype.sum_prod_type]
        refine sum_congr rfl fun i _ => sum_congr rfl fun a _ => ?_
        rw [Fintype.sum_prod_type]
      rw [conv, conv, sum_comm]
      refine sum_congr rfl fun p _ => sum_congr rfl fun q _ => ?_
      rw [hs q.1 p.1 q.2 p.2]; ring
    rw [h1, h3] at h4
    exact neg_injective h4
  rw [bilinear, bilinear, bilinear]
  have ex : (∑ i, ∑ a, (u + h) i a * harmonicForce Φ (u + h) i a) =
      (∑ i, ∑ a, u i a * harmonicForce Φ u i a) + (∑ i, ∑ a, u i a * harmonicForce Φ h i a) +
      (∑ i, ∑ a, h i a * harmonicForce Φ u i a) + ∑ i, ∑ a, h i a * harmonicForce Φ h i a := by
    simp only [← sum_add_distrib]
    refine sum_congr rfl fun i _ => sum_congr rfl fun a _ => ?_
    rw [lin, Pi.add_apply, Pi.add_apply]; ring
  have cm : (∑ i, ∑ a, harmonicForce Φ u i a * h i a) = ∑ i, ∑ a, h i a * harmonicForce Φ u i a :=
    sum_congr rfl fun i _ => sum_congr rfl fun a _ => mul_comm _ _
  rw [ex, sym, cm]
  field_simp
  ring

/-- **C45.** Under the acoustic sum rule the forces sum to zero in each direction. -/
theorem C45_forces_sum_zero (Φ : FC n K) (hs : PermSymm Φ) (ha : SumRule Φ) (u : Fin n → Fin 3 → K) (a : Fin 3) :
    ∑ i, (evalFc2 (toMatrix Φ) (flatten u)).forces a i = 0 := by
  simp only [(C45_values Φ u).2.1]
  unfold harmonicForce
  rw [sum_neg_distrib, neg_eq_zero, sum_comm]
  refine sum_eq_zero fun j _ => ?_
  rw [sum_comm]
  refine sum_eq_zero fun b _ => ?_
  rw [← sum_mul]
  have : ∑ i, Φ i j a b = ∑ i, Φ j i b a := sum_congr rfl fun i _ => hs i j a b
  rw [this, ha j b a, zero_mul]

/-- **C45.** Under the acoustic sum rule a rigid translation changes neither energy nor forces. -/
theorem C45_translation (h2 : (2 : K) ≠ 0) (Φ : FC n K) (hs : PermSymm Φ) (ha : SumRule Φ) (u : Fin n → Fin 3 → K) (t : Fin 3 → K) :
    (evalFc2 (toMatrix Φ) (flatten (u + fun _ => t))).energy = (evalFc2 (toMatrix Φ) (flatten u)).energy ∧
    ∀ a i, (evalFc2 (toMatrix Φ) (flatten (u + fun _ => t))).forces a i =
      (evalFc2 (toMatrix Φ) (flatten u)).forces a i := by
  have hz : ∀ i a, harmonicForce Φ (fun _ => t) i a = 0 := by
    intro i a
    unfold harmonicForce
    rw [neg_eq_zero, sum_comm]
    refine sum_eq_zero fun b _ => ?_
    rw [← sum_mul, ha i a b, zero_mul]
  refine ⟨?_, ?_⟩
  · rw [C45_forces_derivative h2 Φ hs]
    have h0 : (evalFc2 (toMatrix Φ) (flatten fun (_ : Fin n) => t)).energy = 0 := by
      rw [(C45_values Φ _).1]
      unfold harmonicEnergy
      rw [bilinear]
      simp [hz]
    have h1 : (∑ i, ∑ a, (evalFc2 (toMatrix Φ) (flatten u)).forces a i * t a) = 0 := by
      rw [sum_comm]
      refine sum_eq_zero fun a _ => ?_
      rw [← sum_mul, C45_forces_sum_zero Φ hs ha u a, zero_mul]
    rw [h0, h1]; ring
  · intro a i
    rw [(C45_values Φ _).2.1, (C45_values Φ u).2.1]
    have : harmonicForce Φ (u + fun _ => t) i a = harmonicForce Φ u i a + harmonicForce Φ (fun _ => t) i a := by
      unfold harmonicForce
      simp only [Pi.add_apply, mul_add, sum_add_distrib]
      ring
    rw [this, hz, add_zero]

/-- A spring between two atoms meets the hypotheses and gives nonzero forces. -/
example :
    let Φ : FC 2 ℚ := fun i j a b => if a = b then (if i = j then 3 else -3) else 0
    let u : Fin 2 → Fin 3 → ℚ := fun i a => if i = 0 ∧ a = 0 then 1 else 0
    PermSymm Φ ∧ SumRule Φ ∧ (evalFc2 (toMatrix Φ) (flatten u)).energy = 3 / 2 ∧
      (evalFc2 (toMatrix Φ) (flatten u)).forces 0 1 = 3 := by
  intro Φ u
  refine ⟨?_, ?_, ?_, ?_⟩
  · intro i j a b; simp only [Φ, eq_comm]
  · unfold SumRule; decide +kernel
  · decide +kernel
  · decide +kernel

end Verif.FC2
