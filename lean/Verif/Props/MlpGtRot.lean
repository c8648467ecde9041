import Verif.Lemmas.MlpGtRot
import Verif.Props.MlpGtReal

/-!
# C59 with all components of the stress, C61: rotations
-/

namespace Verif.Mlp
open Verif Real
open Verif.Spec.Ylm (legendreD legendreD_up legendreD_down legendreD_zero)
open Verif.Neighbor (Vec Csr r2 mkCsr neighborHalf neighborFull)

/-! ## The harmonics of the program under rotations -/

theorem legendreD_ode (l k : ℕ) (x : ℝ) :
    (1 - x * x) * legendreD (l + 1) (k + 2) x - 2 * (k + 1) * x * legendreD (l + 1) (k + 1) x +
      ((l : ℝ) + k + 2) * (l + 1 - k) * legendreD (l + 1) k x = 0 := by
  have h1 := legendreD_up l (k + 1) x
  have h2 := legendreD_down l (k + 1) x
  have h3 := legendreD_down l k x
  push_cast at *
  linear_combination h1 - x * h2 - ((l : ℝ) + k + 2) * h3

theorem norm_up (l m : ℕ) (h : m < l) :
    √(((l : ℝ) - m) * (l + m + 1)) * Verif.Spec.Ylm.norm l (m + 1) = Verif.Spec.Ylm.norm l m := by
  rw [← norm_eq, ← norm_eq, ← nrm_up l m h]
  ring

/-- `√((l - m) (l + m + 1))`. -/
noncomputable def ladderF (l : ℕ) (m : ℤ) : ℝ := √(((l : ℝ) - m) * (l + m + 1))

theorem ladderF_ok : Spec.Ladder ladderF where
  top l := by simp [ladderF]
  flip l m := by
    unfold ladderF
    congr 1
    push_cast
    ring

/-- The gradient of the program along a rotation. -/
theorem turn_cart (maxl : ℕ) (d v : Vec ℝ) (h : 0 < r2 d) (hv : d 0 * v 0 + d 1 * v 1 + d 2 * v 2 = 0)
    (l k : ℕ) (hk : k ≤ l) (hl : l ≤ maxl) :
    toC (ylmGOf maxl (√(r2 d)) d (lm2iNeg l k) 0) * v 0 +
        toC (ylmGOf maxl (√(r2 d)) d (lm2iNeg l k) 1) * v 1 +
        toC (ylmGOf maxl (√(r2 d)) d (lm2iNeg l k) 2) * v 2 =
      (Verif.Spec.Ylm.norm l k : ℂ) * (k * ((⟨d 0, -d 1⟩ : ℂ) / (√(r2 d) : ℝ)) ^ (k - 1) *
          ((⟨v 0, -v 1⟩ : ℂ) / (√(r2 d) : ℝ)) * (legendreD l k (d 2 / √(r2 d)) : ℝ) +
        ((⟨d 0, -d 1⟩ : ℂ) / (√(r2 d) : ℝ)) ^ k *
          (legendreD l (k + 1) (d 2 / √(r2 d)) * (v 2 / √(r2 d)) : ℝ)) := by
  have hr : 0 < √(r2 d) := Real.sqrt_pos.2 h
  have h1 := ylmG_hasDeriv maxl d v h l k hk hl
  have hc : ∀ y, HasDerivAt (fun σ : ℝ => d y + σ * v y) (v y) 0 := by
    intro y
    have := ((hasDerivAt_id (0 : ℝ)).mul_const (v y)).const_add (d y)
    simpa using this
  have hR := curve _ _ _ 0 _ _ _ (hc 0) (hc 1) (hc 2) (by simpa [r2] using h)
  simp only [zero_mul, add_zero, hv, zero_div] at hR
  have h2 := hasDerivAt_cart _ _ _ 0 _ _ _ (hc 0) (hc 1) (hc 2) _ _ hR (by
    simp only [zero_mul, add_zero]; exact hr.ne') (Verif.Spec.Ylm.norm l k) l k
  have hcont : ContinuousAt (fun σ : ℝ => r2 (fun y => d y + σ * v y)) 0 := by
    unfold r2
    fun_prop
  have hev : (fun σ : ℝ => toC (ylmOf maxl (fun y => d y + σ * v y) (lm2iNeg l k))) =ᶠ[nhds 0] fun σ : ℝ =>
      (Verif.Spec.Ylm.norm l k : ℂ) * ((⟨d 0 + σ * v 0, -(d 1 + σ * v 1)⟩ : ℂ) /
        (√((d 0 + σ * v 0) * (d 0 + σ * v 0) + (d 1 + σ * v 1) * (d 1 + σ * v 1) +
          (d 2 + σ * v 2) * (d 2 + σ * v 2)) : ℝ)) ^ k *
        (legendreD l k ((d 2 + σ * v 2) / √((d 0 + σ * v 0) * (d 0 + σ * v 0) +
          (d 1 + σ * v 1) * (d 1 + σ * v 1) + (d 2 + σ * v 2) * (d 2 + σ * v 2))) : ℝ) := by
    filter_upwards [hcont.eventually (lt_mem_nhds (by simpa using h))] with σ hσ
    exact getYlm_cart maxl _ _ _ hσ l k hk hl
  have h3 := (h2.congr_of_eventuallyEq hev).unique h1
  rw [← h3]
  simp only [zero_mul, add_zero, mul_zero, sub_zero]
  have e0 : d 0 * d 0 + d 1 * d 1 + d 2 * d 2 = r2 d := rfl
  rw [e0]
  have hrC : ((√(r2 d) : ℝ) : ℂ) ≠ 0 := by exact_mod_cast hr.ne'
  generalize √(r2 d) = r at *
  have e1 : v 2 * r / r ^ 2 = v 2 / r := by field_simp
  have e2 : ((⟨v 0, -v 1⟩ : ℂ) * (r : ℝ) - ⟨d 0, -d 1⟩ * ((0 : ℝ) : ℂ)) / (r : ℝ) ^ 2 =
      (⟨v 0, -v 1⟩ : ℂ) / (r : ℝ) := by
    rw [Complex.ofReal_zero, mul_zero, sub_zero]
    field_simp
  rw [e1, e2]

theorem toC_turn (maxl : ℕ) (r : ℝ) (d : Vec ℝ) (a b : Fin 3) (k : ℕ) :
    toC (Spec.turn (ylmGOf maxl r d) d a b k) =
      (d a : ℂ) * toC (ylmGOf maxl r d k b) - (d b : ℂ) * toC (ylmGOf maxl r d k a) := by
  unfold Spec.turn
  rw [toC_sub, toC_smul, toC_smul]

section Half
variable (maxl : ℕ) (d : Vec ℝ) (h : 0 < r2 d) (l k : ℕ) (hk : k ≤ l) (hl : l ≤ maxl)
include h hk hl

theorem ylmV_cart : toC (ylmVOf maxl (√(r2 d)) d (lm2iNeg l k)) =
    (Verif.Spec.Ylm.norm l k : ℂ) * ((⟨d 0, -d 1⟩ : ℂ) / (√(r2 d) : ℝ)) ^ k *
      (legendreD l k (d 2 / √(r2 d)) : ℝ) := by
  have h1 := C60_same_value maxl _ _ _ h l k hk hl
  have h2 := getYlm_cart maxl _ _ _ h l k hk hl
  rw [← h1] at h2
  exact h2

theorem half_turns :
    toC (Spec.turn (ylmGOf maxl (√(r2 d)) d) d 0 1 (lm2iNeg l k)) =
      (Verif.Spec.Ylm.norm l k : ℂ) * (k * ((⟨d 0, -d 1⟩ : ℂ) / (√(r2 d) : ℝ)) ^ (k - 1) *
          (-Complex.I * ((⟨d 0, -d 1⟩ : ℂ) / (√(r2 d) : ℝ))) * (legendreD l k (d 2 / √(r2 d)) : ℝ)) ∧
    toC (Spec.turn (ylmGOf maxl (√(r2 d)) d) d 1 2 (lm2iNeg l k)) =
      (Verif.Spec.Ylm.norm l k : ℂ) * (k * ((⟨d 0, -d 1⟩ : ℂ) / (√(r2 d) : ℝ)) ^ (k - 1) *
          (Complex.I * (d 2 / √(r2 d) : ℝ)) * (legendreD l k (d 2 / √(r2 d)) : ℝ) +
        ((⟨d 0, -d 1⟩ : ℂ) / (√(r2 d) : ℝ)) ^ k *
          (legendreD l (k + 1) (d 2 / √(r2 d)) * (d 1 / √(r2 d)) : ℝ)) ∧
    toC (Spec.turn (ylmGOf maxl (√(r2 d)) d) d 2 0 (lm2iNeg l k)) =
      (Verif.Spec.Ylm.norm l k : ℂ) * (k * ((⟨d 0, -d 1⟩ : ℂ) / (√(r2 d) : ℝ)) ^ (k - 1) *
          (d 2 / √(r2 d) : ℝ) * (legendreD l k (d 2 / √(r2 d)) : ℝ) -
        ((⟨d 0, -d 1⟩ : ℂ) / (√(r2 d) : ℝ)) ^ k *
          (legendreD l (k + 1) (d 2 / √(r2 d)) * (d 0 / √(r2 d)) : ℝ)) := by
  have hr : 0 < √(r2 d) := Real.sqrt_pos.2 h
  have h01 := turn_cart maxl d ![-d 1, d 0, 0] h (by simp; ring) l k hk hl
  have h12 := turn_cart maxl d ![0, -d 2, d 1] h (by simp; ring) l k hk hl
  have h20 := turn_cart maxl d ![d 2, 0, -d 0] h (by simp; ring) l k hk hl
  simp only [Matrix.cons_val_zero, Matrix.cons_val_one, Matrix.cons_val] at h01 h12 h20
  rw [toC_turn, toC_turn, toC_turn]
  have hrC : ((√(r2 d) : ℝ) : ℂ) ≠ 0 := by exact_mod_cast hr.ne'
  generalize √(r2 d) = r at *
  have e1 : (⟨-d 1, -d 0⟩ : ℂ) / (r : ℝ) = -Complex.I * ((⟨d 0, -d 1⟩ : ℂ) / (r : ℝ)) := by
    rw [mul_div_assoc']
    congr 1
    apply Complex.ext <;> simp
  have e2 : (⟨0, - -d 2⟩ : ℂ) / (r : ℝ) = Complex.I * (d 2 / r : ℝ) := by
    push_cast
    rw [mul_div_assoc']
    congr 1
    apply Complex.ext <;> simp
  have e3 : (⟨d 2, -0⟩ : ℂ) / (r : ℝ) = (d 2 / r : ℝ) := by
    push_cast
    congr 1
    apply Complex.ext <;> simp
  rw [e1] at h01
  rw [e2] at h12
  rw [e3] at h20
  refine ⟨?_, ?_, ?_⟩
  · push_cast at h01 ⊢
    linear_combination h01
  · push_cast at h12 ⊢
    linear_combination h12
  · push_cast at h20 ⊢
    linear_combination h20

theorem half_axis : Spec.turn (ylmGOf maxl (√(r2 d)) d) d 0 1 (lm2iNeg l k) =
    ⟨0, -(k : ℝ)⟩ * ylmVOf maxl (√(r2 d)) d (lm2iNeg l k) := by
  apply toC_inj
  rw [toC_mul, ylmV_cart maxl d h l k hk hl, (half_turns maxl d h l k hk hl).1]
  have e : toC ⟨0, -(k : ℝ)⟩ = -Complex.I * k := by apply Complex.ext <;> simp [toC]
  rw [e]
  rcases k with _ | k
  · simp
  · simp only [Nat.add_sub_cancel]
    ring

theorem half_lower (hk' : k < l) : Spec.turn (ylmGOf maxl (√(r2 d)) d) d 1 2 (lm2iNeg l k) -
    ⟨0, 1⟩ * Spec.turn (ylmGOf maxl (√(r2 d)) d) d 2 0 (lm2iNeg l k) =
    ⟨0, √(((l : ℝ) - k) * (l + k + 1))⟩ * ylmVOf maxl (√(r2 d)) d (lm2iNeg l (k + 1)) := by
  apply toC_inj
  obtain ⟨-, h1, h2⟩ := half_turns maxl d h l k hk hl
  rw [toC_sub, toC_mul, toC_mul, h1, h2, ylmV_cart maxl d h l (k + 1) hk' hl, ← norm_up l k hk']
  have e : ∀ a : ℝ, toC ⟨0, a⟩ = Complex.I * a := by intro a; apply Complex.ext <;> simp [toC]
  rw [e, e]
  have hw : (⟨d 0, -d 1⟩ : ℂ) / (√(r2 d) : ℝ) = (d 0 / √(r2 d) : ℝ) - Complex.I * (d 1 / √(r2 d) : ℝ) := by
    push_cast
    rw [mul_div_assoc', ← sub_div]
    congr 1
    apply Complex.ext <;> simp
  rw [pow_succ]
  generalize ((⟨d 0, -d 1⟩ : ℂ) / (√(r2 d) : ℝ)) ^ k = W
  rw [hw]
  push_cast
  have hI := Complex.I_mul_I
  linear_combination ((√(((l : ℝ) - k) * (l + k + 1)) : ℂ) * Verif.Spec.Ylm.norm l (k + 1) * W *
    (legendreD l (k + 1) (d 2 / √(r2 d)) : ℝ) * (d 1 / √(r2 d) : ℂ)) * hI

theorem half_lower_top (hk' : k = l) : Spec.turn (ylmGOf maxl (√(r2 d)) d) d 1 2 (lm2iNeg l k) -
    ⟨0, 1⟩ * Spec.turn (ylmGOf maxl (√(r2 d)) d) d 2 0 (lm2iNeg l k) = 0 := by
  apply toC_inj
  obtain ⟨-, h1, h2⟩ := half_turns maxl d h l k hk hl
  have h0 : legendreD l (k + 1) (d 2 / √(r2 d)) = 0 := legendreD_zero (by omega) _
  rw [toC_sub, toC_mul, h1, h2, h0]
  have e : ∀ a : ℝ, toC ⟨0, a⟩ = Complex.I * a := by intro a; apply Complex.ext <;> simp [toC]
  rw [e]
  have e0 : toC 0 = 0 := rfl
  rw [e0]
  push_cast
  ring

end Half

theorem half_raise (maxl : ℕ) (d : Vec ℝ) (h : 0 < r2 d) (l k : ℕ) (hk : k + 1 ≤ l) (hl : l ≤ maxl) :
    Spec.turn (ylmGOf maxl (√(r2 d)) d) d 1 2 (lm2iNeg l (k + 1)) +
    ⟨0, 1⟩ * Spec.turn (ylmGOf maxl (√(r2 d)) d) d 2 0 (lm2iNeg l (k + 1)) =
    ⟨0, √(((l : ℝ) - k) * (l + k + 1))⟩ * ylmVOf maxl (√(r2 d)) d (lm2iNeg l k) := by
  apply toC_inj
  obtain ⟨-, h1, h2⟩ := half_turns maxl d h l (k + 1) hk hl
  rw [toC_add, toC_mul, toC_mul, h1, h2, ylmV_cart maxl d h l k (by omega) hl, ← norm_up l k (by omega)]
  have e : ∀ a : ℝ, toC ⟨0, a⟩ = Complex.I * a := by intro a; apply Complex.ext <;> simp [toC]
  rw [e, e]
  have hr : 0 < √(r2 d) := Real.sqrt_pos.2 h
  have hw : (⟨d 0, -d 1⟩ : ℂ) / (√(r2 d) : ℝ) = (d 0 / √(r2 d) : ℝ) - Complex.I * (d 1 / √(r2 d) : ℝ) := by
    push_cast
    rw [mul_div_assoc', ← sub_div]
    congr 1
    apply Complex.ext <;> simp
  rw [pow_succ, Nat.add_sub_cancel]
  generalize ((⟨d 0, -d 1⟩ : ℂ) / (√(r2 d) : ℝ)) ^ k = W
  rw [hw]
  have hone : (d 0 / √(r2 d)) * (d 0 / √(r2 d)) + (d 1 / √(r2 d)) * (d 1 / √(r2 d)) =
      1 - (d 2 / √(r2 d)) * (d 2 / √(r2 d)) := by
    have : √(r2 d) * √(r2 d) = d 0 * d 0 + d 1 * d 1 + d 2 * d 2 := Real.mul_self_sqrt h.le
    field_simp
    rw [sq √(r2 d), this]
    ring
  obtain ⟨l, rfl⟩ : ∃ l', l = l' + 1 := ⟨l - 1, by omega⟩
  have hode := legendreD_ode l k (d 2 / √(r2 d))
  have hsq : √((((l + 1 : ℕ) : ℝ) - k) * ((l + 1 : ℕ) + k + 1)) * √((((l + 1 : ℕ) : ℝ) - k) * ((l + 1 : ℕ) + k + 1))
      = (((l + 1 : ℕ) : ℝ) - k) * ((l + 1 : ℕ) + k + 1) := by
    refine Real.mul_self_sqrt (mul_nonneg ?_ (by positivity))
    have : (k : ℝ) ≤ ((l + 1 : ℕ) : ℝ) := by exact_mod_cast (by omega : k ≤ l + 1)
    linarith
  generalize √((((l + 1 : ℕ) : ℝ) - k) * ((l + 1 : ℕ) + k + 1)) = S at *
  generalize legendreD (l + 1) (k + 1) (d 2 / √(r2 d)) = P1 at *
  generalize legendreD (l + 1) (k + 1 + 1) (d 2 / √(r2 d)) = P2 at *
  generalize legendreD (l + 1) k (d 2 / √(r2 d)) = P0 at *
  generalize d 0 / √(r2 d) = X at *
  generalize d 1 / √(r2 d) = Y at *
  generalize d 2 / √(r2 d) = U at *
  generalize Verif.Spec.Ylm.norm (l + 1) (k + 1) = N at *
  have hode' : (((1 - U * U) * P2 - 2 * (k + 1) * U * P1 + ((l : ℝ) + k + 2) * (l + 1 - k) * P0 : ℝ) : ℂ) = 0 := by
    rw [hode]; simp
  have hone' : ((X * X + Y * Y : ℝ) : ℂ) = ((1 - U * U : ℝ) : ℂ) := by rw [hone]
  have hsq' : ((S * S : ℝ) : ℂ) = (((((l + 1 : ℕ) : ℝ) - k) * ((l + 1 : ℕ) + k + 1) : ℝ) : ℂ) := by rw [hsq]
  have hI := Complex.I_mul_I
  push_cast at *
  linear_combination (-Complex.I * N * W) * hode' - (Complex.I * N * W * P2) * hone' -
    (Complex.I * N * W * P0) * hsq' + (N * W * P2 * X * Y) * hI

/-- **C61 (harmonics).**  The spherical harmonics of the program and the gradients of the program turn like
angular momentum states, for every vector other than zero. -/
theorem C61_harmonics (maxl : ℕ) (d : Vec ℝ) (h : 0 < r2 d) :
    Spec.RotRules maxl ladderF (ylmVOf maxl (√(r2 d)) d) (ylmGOf maxl (√(r2 d)) d) d := by
  have hrul := C59_ylm_rules maxl d h
  have hneg : ∀ l ≤ maxl, ∀ m : ℤ, ∀ a b,
      Spec.full (Spec.turn (ylmGOf maxl (√(r2 d)) d) d a b) l (-m) = Cx.smul (ccOf m)
        (Cx.conj (Spec.full (Spec.turn (ylmGOf maxl (√(r2 d)) d) d a b) l m)) := by
    intro l hl m a b
    refine full_neg _ l m ?_
    simp [Spec.turn, hrul.realG l hl]
  have hnegY : ∀ l ≤ maxl, ∀ m : ℤ, Spec.full (ylmVOf maxl (√(r2 d)) d) l (-m) = Cx.smul (ccOf m)
        (Cx.conj (Spec.full (ylmVOf maxl (√(r2 d)) d) l m)) := by
    intro l hl m
    exact full_neg _ l m (hrul.real l hl)
  have hhalf : ∀ (f : ℕ → Cx ℝ) (l k : ℕ), k ≤ l → Spec.full f l (-(k : ℤ)) = f (lm2iNeg l k) := by
    intro f l k hk
    unfold Spec.full
    rw [if_pos (by omega), Int.natAbs_neg, Int.natAbs_natCast, halfIdx_eq hk]
  constructor
  · intro l hl m h1 h2
    rcases le_or_gt m 0 with hm | hm
    · obtain ⟨k, rfl⟩ : ∃ k : ℕ, m = -(k : ℤ) := ⟨m.natAbs, by omega⟩
      rw [hhalf _ l k (by omega), hhalf _ l k (by omega), half_axis maxl d h l k (by omega) hl]
      push_cast
      rfl
    · obtain ⟨k, rfl⟩ : ∃ k : ℕ, m = -(-(k : ℤ)) := ⟨m.natAbs, by omega⟩
      rw [hneg l hl, hnegY l hl, hhalf _ l k (by omega), hhalf _ l k (by omega),
        half_axis maxl d h l k (by omega) hl]
      ext <;> simp <;> ring
  · intro l hl m h1 h2
    rcases lt_or_ge m 0 with hm | hm
    · obtain ⟨k, rfl⟩ : ∃ k : ℕ, m = -((k + 1 : ℕ) : ℤ) := ⟨m.natAbs - 1, by omega⟩
      rw [hhalf _ l (k + 1) (by omega), hhalf _ l (k + 1) (by omega),
        show -((k + 1 : ℕ) : ℤ) + 1 = -(k : ℤ) by push_cast; ring, hhalf _ l k (by omega),
        half_raise maxl d h l k (by omega) hl]
      unfold ladderF
      congr 3
      push_cast
      ring
    · obtain ⟨k, rfl⟩ : ∃ k : ℕ, m = -(-(k : ℤ)) := ⟨m.natAbs, by omega⟩
      rw [hneg l hl (-(k : ℤ)) 1 2, hneg l hl (-(k : ℤ)) 2 0, hhalf _ l k (by omega), hhalf _ l k (by omega)]
      have hcc : ∀ A B : Cx ℝ, Cx.smul (ccOf (-(k : ℤ))) (Cx.conj A) +
          ⟨0, 1⟩ * Cx.smul (ccOf (-(k : ℤ))) (Cx.conj B) =
          Cx.smul (ccOf (-(k : ℤ))) (Cx.conj (A - ⟨0, 1⟩ * B)) := by
        intro A B
        ext <;> simp <;> ring
      rw [hcc]
      by_cases hkl : k = l
      · rw [half_lower_top maxl d h l k (by omega) hl hkl]
        have : ladderF l (- -(k : ℤ)) = 0 := by rw [neg_neg, hkl]; exact ladderF_ok.top l
        rw [this]
        ext <;> simp <;> ring
      · rw [half_lower maxl d h l k (by omega) hl (by omega),
          show - -(k : ℤ) + 1 = -(-((k + 1 : ℕ) : ℤ)) by push_cast; ring, hnegY l hl,
          hhalf _ l (k + 1) (by omega)]
        have e1 : ladderF l (- -(k : ℤ)) = √(((l : ℝ) - k) * (l + k + 1)) := by
          unfold ladderF
          push_cast
          simp
        have e2 : (ccOf (-((k + 1 : ℕ) : ℤ)) : ℝ) = -ccOf (-(k : ℤ)) := by
          rw [ccOf_neg, ccOf_neg]
          unfold ccOf
          rw [Int.natAbs_natCast, Int.natAbs_natCast, pow_succ]
          ring
        rw [e1, e2]
        ext <;> simp <;> ring

/-! ## Consequences for the model -/

section Consequences
variable {K : Type} [Field K] [LinearOrder K] [IsStrictOrderedRing K]
variable (p : GtParams K) (sqrt : K → K) (types : ℕ → ℕ)
variable (hcond : ∀ i j, (p.cond i j).Nodup) {s : ℕ → ℤ → K} (hs : Spec.Ladder s)
  (htab : Spec.RotTable s p.maxl p.lComb p.lmArray p.lmCoeffs)
  (hY : ∀ d : Vec K, 0 < r2 d → Spec.YlmRules p.maxl p.ylm p.ylmV p.ylmG (sqrt (r2 d)) d)
  (hR : ∀ d : Vec K, 0 < r2 d →
    Spec.RotRules p.maxl s (p.ylmV (sqrt (r2 d)) d) (p.ylmG (sqrt (r2 d)) d) d)
include hcond hs htab hY hR

omit hcond hs htab [IsStrictOrderedRing K] in
theorem rok_of (d : Vec K) (h : 0 < r2 d) : ROK p sqrt s d :=
  ⟨hR d h, (hY d h).real, (hY d h).realG⟩

omit hcond hs htab hY hR in
theorem full_pos (cutoff tol : K) (ht : 0 < tol) (trans : List (Vec K)) (pos : ℕ → Vec K) (n i : ℕ)
    (hi : i < n) : ∀ e ∈ (neighborFull cutoff tol trans pos n).row i, e.1 < n ∧ 0 < r2 e.2 ∧
      ∃ t ∈ trans, e.2 = pos e.1 - pos i + t := by
  intro e he
  obtain ⟨h1, t, h2, h3, -, h4⟩ := (Neighbor.C22_full_content cutoff tol trans pos n i hi e.1 e.2).1 he
  exact ⟨h1, lt_trans (mul_pos ht ht) h4, t, h2, h3⟩

/-- The virial of every feature of every atom of every structure is symmetric. -/
theorem symVirial_of_rotation (n : ℕ) (cutoff tol : K) (ht : 0 < tol) (trans : List (Vec K))
    (pos : ℕ → Vec K) : SymVirial p sqrt types n (neighborFull cutoff tol trans pos n) := by
  intro i hi a b f
  exact DS_symm p sqrt types hcond hs htab i _
    (fun e he => rok_of p sqrt hY hR e.2 (full_pos cutoff tol ht trans pos n i hi e he).2.1) a b f

/-- **C59 (all components).**  If the table is invariant under rotations and the harmonics turn like
angular momentum states, the evaluator and the linear model agree on the energy as long as no product is cut
off, and on all forces and all six components of the stress always. -/
theorem C59_all_components (n : ℕ) (htypes : ∀ i < n, types i < p.nType)
    (c : ℕ → K) (cutoff tol : K) (ht : 0 < tol) (trans : List (Vec K)) (pos : ℕ → Vec K)
    (hneg : (trans.map (fun t => -t)).Perm trans)
    (htol : ∀ t ∈ trans, tol * tol < r2 t → tol ≤ |t 0| ∨ tol ≤ |t 1| ∨ tol ≤ |t 2|) :
    let full := neighborFull cutoff tol trans pos n
    let R := evalGtinv p sqrt (p.pot c) types n (neighborHalf cutoff tol trans pos n)
    let X := gtModelRun p sqrt types n full
    let cols := List.range (nVariables p.params)
    ((∀ i < n, NoSkip p (types i) (anlmD p sqrt types i (full.row i)).a) →
      R.energy = (cols.map fun k => c k * X.xe k).sum) ∧
    (∀ q x, R.forces q x = (cols.map fun k => c k * X.xf k q x).sum) ∧
    (∀ c6 : Fin 6, R.stress c6 = (cols.map fun k => c k * X.xs k c6).sum) := by
  intro full R X cols
  obtain ⟨h1, h2, h3⟩ := C59_fast_equals_linear p sqrt types hcond htab.table n htypes hY c cutoff tol ht trans
    pos hneg htol
  exact ⟨h1, h2, fun c6 => h3 c6 (Or.inr
    (symVirial_of_rotation p sqrt types hcond hs htab hY hR n cutoff tol ht trans pos))⟩

omit hs hR in
/-- Weighted sums of the force columns. -/
theorem xf_weight (n : ℕ) (cutoff tol : K) (ht : 0 < tol) (trans : List (Vec K)) (pos : ℕ → Vec K)
    (u : ℕ → K) (k : ℕ) (x : Fin 3) :
    let full := neighborFull cutoff tol trans pos n
    ((List.range n).map fun q => u q * (gtModelRun p sqrt types n full).xf k q x).sum =
      ((List.range n).map fun i => ((p.poly (types i)).map fun t =>
        if k = t.1 then termDeriv (FM p sqrt types i (full.row i))
          (fun f => ((full.row i).map fun e => (u i - u e.1) * DM p sqrt types i (full.row i) x e f).sum) t.2
        else 0).sum).sum := by
  intro full
  have hYf : ∀ i < n, ∀ e ∈ full.row i, YOK p sqrt e.2 := by
    intro i hi e he
    have h := (full_pos cutoff tol ht trans pos n i hi e he).2.1
    refine ⟨hY e.2 h, ?_⟩
    have := hY (-e.2) (by rw [r2_neg]; exact h)
    rw [r2_neg] at this
    exact this
  have h1 := fun q => (gtModelRun_terms p sqrt types hcond htab.table n full hYf k).2.1 q x
  simp only [h1]
  have h2 : ∀ q, u q * ((List.range n).map fun i => ((p.poly (types i)).map fun t =>
      if k = t.1 then termDeriv (FM p sqrt types i (full.row i))
        (DF p sqrt types i (full.row i) q x) t.2 else 0).sum).sum =
      ((List.range n).map fun i => u q * ((p.poly (types i)).map fun t =>
      if k = t.1 then termDeriv (FM p sqrt types i (full.row i))
        (DF p sqrt types i (full.row i) q x) t.2 else 0).sum).sum := by
    intro q
    rw [List.sum_map_mul_left]
  simp only [h2]
  rw [sum_map_comm]
  refine sum_map_congr _ _ _ ?_
  intro i hi
  rw [List.mem_range] at hi
  have h3 : ∀ q, u q * ((p.poly (types i)).map fun t =>
      if k = t.1 then termDeriv (FM p sqrt types i (full.row i))
        (DF p sqrt types i (full.row i) q x) t.2 else 0).sum =
      ((p.poly (types i)).map fun t => u q * 
      if k = t.1 then termDeriv (FM p sqrt types i (full.row i))
        (DF p sqrt types i (full.row i) q x) t.2 else 0).sum := by
    intro q
    rw [List.sum_map_mul_left]
  simp only [h3]
  rw [sum_map_comm]
  refine sum_map_congr _ _ _ ?_
  intro t _
  by_cases hk : k = t.1
  · simp only [if_pos hk]
    have h4 : (fun f => ((full.row i).map fun e => (u i - u e.1) * DM p sqrt types i (full.row i) x e f).sum) =
        fun f => ((List.range n).map fun q => u q * DF p sqrt types i (full.row i) q x f).sum := by
      funext f
      unfold DF
      have h5 : ∀ q, u q * ((full.row i).map fun e => sgnAt q i e.1 * DM p sqrt types i (full.row i) x e f).sum =
          ((full.row i).map fun e => u q * (sgnAt q i e.1 * DM p sqrt types i (full.row i) x e f)).sum := by
        intro q
        rw [List.sum_map_mul_left]
      simp only [h5]
      rw [sum_map_comm]
      refine sum_map_congr _ _ _ ?_
      intro e he
      have he1 := (full_pos cutoff tol ht trans pos n i hi e he).1
      have h6 : ∀ j < n, ((List.range n).map fun q => u q * (if q = j then (1 : K) else 0)).sum = u j := by
        intro j hj
        rw [show ((List.range n).map fun q => u q * (if q = j then (1 : K) else 0)) =
          (List.range n).map fun q => if q = j then u j else 0 from
          List.map_congr_left fun q _ => by
            by_cases h : q = j
            · simp [h]
            · simp [h]]
        exact sum_range_delta n j (u j) hj
      rw [← h6 i hi, ← h6 e.1 he1, sub_mul, ← List.sum_map_mul_right, ← List.sum_map_mul_right]
      rw [sub_eq_iff_eq_add, ← List.sum_map_add]
      refine sum_map_congr _ _ _ ?_
      intro q _
      unfold sgnAt
      ring
    rw [h4, gt_termDeriv_sum]
    refine sum_map_congr _ _ _ ?_
    intro q _
    rw [← gt_termDeriv_mul]
  · simp [if_neg hk]

omit hs hR in
/-- **C61 (no net force).**  The forces of every column of the design matrix add up to zero, for every
structure. -/
theorem C61_no_net_force (n : ℕ) (cutoff tol : K) (ht : 0 < tol) (trans : List (Vec K)) (pos : ℕ → Vec K)
    (k : ℕ) (x : Fin 3) : ((List.range n).map fun q =>
      (gtModelRun p sqrt types n (neighborFull cutoff tol trans pos n)).xf k q x).sum = 0 := by
  have := xf_weight p sqrt types hcond htab hY n cutoff tol ht trans pos (fun _ => 1) k x
  simp only [one_mul, sub_self, zero_mul] at this
  rw [this]
  refine (sum_map_congr _ _ (fun _ => (0 : K)) ?_).trans (by simp)
  intro i _
  refine (sum_map_congr _ _ (fun _ => (0 : K)) ?_).trans (by simp)
  intro t _
  split_ifs with hk
  · have h0 := gt_termDeriv_mul (FM p sqrt types i ((neighborFull cutoff tol trans pos n).row i)) (fun _ => 0) 0 t.2
    simp only [zero_mul] at h0
    simpa using h0
  · rfl

/-- **C61 (no net torque).**  For every isolated group of atoms, the torque of the forces of every column of
the design matrix vanishes: the columns do not change when the group is turned. -/
theorem C61_no_torque (n : ℕ) (cutoff tol : K) (ht : 0 < tol) (pos : ℕ → Vec K) (k : ℕ) (a b : Fin 3) :
    let X := gtModelRun p sqrt types n (neighborFull cutoff tol [0] pos n)
    ((List.range n).map fun q => pos q a * X.xf k q b - pos q b * X.xf k q a).sum = 0 := by
  intro X
  have h1 : ∀ a b, ((List.range n).map fun q => pos q a * X.xf k q b).sum =
      ((List.range n).map fun i => ((p.poly (types i)).map fun t =>
        if k = t.1 then termDeriv (FM p sqrt types i ((neighborFull cutoff tol [0] pos n).row i))
          (DS p sqrt types i ((neighborFull cutoff tol [0] pos n).row i) b a) t.2 else 0).sum).sum := by
    intro a b
    rw [xf_weight p sqrt types hcond htab hY n cutoff tol ht [0] pos (fun q => pos q a) k b]
    refine sum_map_congr _ _ _ ?_
    intro i hi
    rw [List.mem_range] at hi
    refine sum_map_congr _ _ _ ?_
    intro t _
    have : (fun f => (((neighborFull cutoff tol [0] pos n).row i).map fun e =>
        (pos i a - pos e.1 a) * DM p sqrt types i ((neighborFull cutoff tol [0] pos n).row i) b e f).sum) =
        DS p sqrt types i ((neighborFull cutoff tol [0] pos n).row i) b a := by
      funext f
      unfold DS
      refine sum_map_congr _ _ _ ?_
      intro e he
      obtain ⟨-, -, t, ht0, h3⟩ := full_pos cutoff tol ht [0] pos n i hi e he
      rw [List.mem_singleton] at ht0
      subst ht0
      rw [h3]
      simp
    rw [this]
  have h2 : ((List.range n).map fun q => pos q a * X.xf k q b - pos q b * X.xf k q a).sum =
      ((List.range n).map fun q => pos q a * X.xf k q b).sum -
        ((List.range n).map fun q => pos q b * X.xf k q a).sum := by
    rw [eq_sub_iff_add_eq, ← List.sum_map_add]
    exact sum_map_congr _ _ _ fun q _ => by ring
  rw [h2, h1, h1, sub_eq_zero]
  refine sum_map_congr _ _ _ ?_
  intro i hi
  rw [List.mem_range] at hi
  refine sum_map_congr _ _ _ ?_
  intro t _
  have := symVirial_of_rotation p sqrt types hcond hs htab hY hR n cutoff tol ht [0] pos i hi b a
  rw [show DS p sqrt types i ((neighborFull cutoff tol [0] pos n).row i) b a =
    DS p sqrt types i ((neighborFull cutoff tol [0] pos n).row i) a b from funext this]

end Consequences

/-! ## The program over the real numbers -/

/-- Parameters with the harmonics of the program. -/
structure UsesProgramYlm (p : GtParams ℝ) : Prop where
  ylm : p.ylm = ylmOf p.maxl
  ylmV : p.ylmV = ylmVOf p.maxl
  ylmG : p.ylmG = ylmGOf p.maxl

section RealCase
variable (p : GtParams ℝ) (hp : UsesProgramYlm p) (types : ℕ → ℕ)
  (hcond : ∀ i j, (p.cond i j).Nodup) (htab : Spec.RotTable ladderF p.maxl p.lComb p.lmArray p.lmCoeffs)
include hp

theorem real_rules (d : Vec ℝ) (h : 0 < r2 d) :
    Spec.YlmRules p.maxl p.ylm p.ylmV p.ylmG (√(r2 d)) d ∧
    Spec.RotRules p.maxl ladderF (p.ylmV (√(r2 d)) d) (p.ylmG (√(r2 d)) d) d := by
  rw [hp.ylm, hp.ylmV, hp.ylmG]
  exact ⟨C59_ylm_rules p.maxl d h, C61_harmonics p.maxl d h⟩

include hcond htab

/-- **C59.**  Over the real numbers, with the harmonics of the program and every table of rotation
invariants: the fast evaluator and the linear model give the same energy (as long as no product is cut off),
the same forces and the same stress, for every structure and every potential. -/
theorem C59_program (n : ℕ) (htypes : ∀ i < n, types i < p.nType)
    (c : ℕ → ℝ) (cutoff tol : ℝ) (ht : 0 < tol) (trans : List (Vec ℝ)) (pos : ℕ → Vec ℝ)
    (hneg : (trans.map (fun t => -t)).Perm trans)
    (htol : ∀ t ∈ trans, tol * tol < r2 t → tol ≤ |t 0| ∨ tol ≤ |t 1| ∨ tol ≤ |t 2|) :
    let full := neighborFull cutoff tol trans pos n
    let R := evalGtinv p Real.sqrt (p.pot c) types n (neighborHalf cutoff tol trans pos n)
    let X := gtModelRun p Real.sqrt types n full
    let cols := List.range (nVariables p.params)
    ((∀ i < n, NoSkip p (types i) (anlmD p Real.sqrt types i (full.row i)).a) →
      R.energy = (cols.map fun k => c k * X.xe k).sum) ∧
    (∀ q x, R.forces q x = (cols.map fun k => c k * X.xf k q x).sum) ∧
    (∀ c6 : Fin 6, R.stress c6 = (cols.map fun k => c k * X.xs k c6).sum) :=
  C59_all_components p Real.sqrt types hcond ladderF_ok htab (fun d h => (real_rules p hp d h).1)
    (fun d h => (real_rules p hp d h).2) n htypes c cutoff tol ht trans pos hneg htol

/-- **C61.**  Over the real numbers, with the harmonics of the program and every table of rotation
invariants: the forces on every structure add up to zero, and the forces on an isolated group of atoms exert
no torque, whatever the coefficients. -/
theorem C61_program (n : ℕ) (htypes : ∀ i < n, types i < p.nType) (c : ℕ → ℝ) (cutoff tol : ℝ)
    (ht : 0 < tol) (pos : ℕ → Vec ℝ) :
    (∀ (trans : List (Vec ℝ)), (trans.map (fun t => -t)).Perm trans →
      (∀ t ∈ trans, tol * tol < r2 t → tol ≤ |t 0| ∨ tol ≤ |t 1| ∨ tol ≤ |t 2|) → ∀ x,
      ((List.range n).map fun q => (evalGtinv p Real.sqrt (p.pot c) types n
        (neighborHalf cutoff tol trans pos n)).forces q x).sum = 0) ∧
    (∀ a b, ((List.range n).map fun q =>
      pos q a * (evalGtinv p Real.sqrt (p.pot c) types n (neighborHalf cutoff tol [0] pos n)).forces q b -
      pos q b * (evalGtinv p Real.sqrt (p.pot c) types n (neighborHalf cutoff tol [0] pos n)).forces q a).sum =
        0) := by
  have hY := fun d h => (real_rules p hp d h).1
  have hR := fun d h => (real_rules p hp d h).2
  constructor
  · intro trans hneg htol x
    obtain ⟨-, h1, -⟩ := C59_program p hp types hcond htab n htypes c cutoff tol ht trans pos hneg htol
    simp only [h1]
    rw [sum_map_comm]
    refine (sum_map_congr _ _ (fun _ => (0 : ℝ)) ?_).trans (by simp)
    intro k _
    rw [List.sum_map_mul_left, C61_no_net_force p Real.sqrt types hcond htab hY n cutoff tol ht trans pos k x,
      mul_zero]
  · intro a b
    obtain ⟨-, h1, -⟩ := C59_program p hp types hcond htab n htypes c cutoff tol ht [0] pos
      (by simp) (by
        intro t ht0 h2
        rw [List.mem_singleton] at ht0
        subst ht0
        exfalso
        have : r2 (0 : Vec ℝ) = 0 := by simp [r2]
        rw [this] at h2
        nlinarith [mul_pos ht ht])
    simp only [h1]
    have h2 : ∀ q, pos q a * ((List.range (nVariables p.params)).map fun k => c k *
          (gtModelRun p Real.sqrt types n (neighborFull cutoff tol [0] pos n)).xf k q b).sum -
        pos q b * ((List.range (nVariables p.params)).map fun k => c k *
          (gtModelRun p Real.sqrt types n (neighborFull cutoff tol [0] pos n)).xf k q a).sum =
        ((List.range (nVariables p.params)).map fun k => c k * (pos q a *
          (gtModelRun p Real.sqrt types n (neighborFull cutoff tol [0] pos n)).xf k q b - pos q b *
          (gtModelRun p Real.sqrt types n (neighborFull cutoff tol [0] pos n)).xf k q a)).sum := by
      intro q
      rw [← List.sum_map_mul_left, ← List.sum_map_mul_left, sub_eq_iff_eq_add, ← List.sum_map_add]
      exact sum_map_congr _ _ _ fun k _ => by ring
    simp only [h2]
    rw [sum_map_comm]
    refine (sum_map_congr _ _ (fun _ => (0 : ℝ)) ?_).trans (by simp)
    intro k _
    rw [List.sum_map_mul_left]
    have := C61_no_torque p Real.sqrt types hcond ladderF_ok htab hY hR n cutoff tol ht pos k a b
    simp only at this
    rw [this, mul_zero]

end RealCase

/-! ## A concrete case -/

/-- Two types, radial functions `1 + n + r`, `l = 0` and `l = 1, 1`. -/
noncomputable def exRot : GtParams ℝ where
  nType := 2
  nFn := 2
  maxl := 1
  cond := fun i j => if i = j then [0] else [0, 1]
  rad := fun n r => n + 1 + r
  radD := fun _ _ => 1
  ylm := ylmOf 1
  ylmV := ylmVOf 1
  ylmG := ylmGOf 1
  cutoff := 5
  tol := 1 / 100
  threshold := 100
  skip := 1 / 1000
  lComb := [[0], [1, 1]]
  lmArray := [[[0]], [[1, 3], [2, 2], [3, 1]]]
  lmCoeffs := [[1], [-1, 1, -1]]
  modelType := 2
  maxp := 2

theorem exRot_table : Spec.RotTable ladderF exRot.maxl exRot.lComb exRot.lmArray exRot.lmCoeffs := by
  intro i ls h
  rcases i with _ | _ | i
  · obtain rfl : [0] = ls := Option.some.inj h
    refine ⟨[([0], 1)], ⟨⟨by decide, by decide, by decide, by simp, by simp, by simp, ?_⟩, ?_⟩, rfl, rfl⟩
    · simp
    · intro as has
      obtain ⟨a, rfl⟩ : ∃ a, as = [a] := List.length_eq_one_iff.1 has
      simp only [List.map_cons, List.map_nil, Spec.raiseProd, List.sum_cons, List.sum_nil]
      have : ladderF 0 0 = 0 := ladderF_ok.top 0
      rw [this]
      ext <;> simp
  · obtain rfl : [1, 1] = ls := Option.some.inj h
    refine ⟨[([-1, 1], -1), ([0, 0], 1), ([1, -1], -1)], ⟨⟨by decide, ?_, by decide, by simp, ?_, by simp, ?_⟩,
      ?_⟩, rfl, rfl⟩
    · intro l hl
      have : l = 1 := by simpa using hl
      simp [this, exRot]
    · intro r hr e he
      simp only [List.mem_cons, List.not_mem_nil, or_false] at hr
      rcases hr with rfl | rfl | rfl <;> simp at he <;> rcases he with rfl | rfl <;> simp
    · simp only [List.map_cons, List.map_nil, neg_neg, neg_zero]
      exact (List.reverse_perm [([-1, 1], (-1 : ℝ)), ([0, 0], 1), ([1, -1], -1)])
    · intro as has
      obtain ⟨a, b, rfl⟩ : ∃ a b, as = [a, b] := List.length_eq_two.1 has
      simp only [List.map_cons, List.map_nil, Spec.raiseProd, List.sum_cons, List.sum_nil,
        List.zipWith_cons_cons, List.zipWith_nil_left, List.prod_cons, List.prod_nil]
      have h1 : ladderF 1 1 = 0 := ladderF_ok.top 1
      have h2 : ladderF 1 (-1) = ladderF 1 0 := ladderF_ok.flip 1 0
      rw [h1, h2]
      norm_num
      ext <;> simp <;> ring
  · simp [exRot] at h

set_option maxRecDepth 100000 in
example : UsesProgramYlm exRot ∧ (∀ i j, (exRot.cond i j).Nodup) ∧ (∀ i < 2, i < exRot.nType) ∧
    Spec.RotTable ladderF exRot.maxl exRot.lComb exRot.lmArray exRot.lmCoeffs := by
  refine ⟨⟨rfl, rfl, rfl⟩, ?_, fun i hi => hi, exRot_table⟩
  intro i j
  show (if i = j then [0] else [0, 1]).Nodup
  split_ifs <;> decide

/-! ## Dropped products -/

/-- One type, one constant radial function; products below one half are dropped. -/
def exSkip : GtParams ℚ where
  nType := 1
  nFn := 1
  maxl := 0
  cond := fun _ _ => [0]
  rad := fun _ _ => 1 / 10
  radD := fun _ _ => 0
  ylm := fun _ _ => 1
  ylmV := fun _ _ _ => 1
  ylmG := fun _ _ _ _ => 0
  cutoff := 5
  tol := 1 / 100
  threshold := 0
  skip := 1 / 2
  lComb := [[0]]
  lmArray := [[[0]]]
  lmCoeffs := [[1]]
  modelType := 2
  maxp := 1

/-- The condition on the energy in C59 is needed: when the feature program drops a product and the evaluator
does not, the energies differ (`polymlp_features.cpp` 22, 184-187). -/
theorem C59_dropped_products :
    (evalGtinv exSkip id (exSkip.pot fun _ => 1) (fun _ => 0) 2
      (neighborHalf 5 (1 / 10) [0] (fun (i : ℕ) => ![(i : ℚ), 0, 0]) 2)).energy = 1 / 5 ∧
    ((List.range (nVariables exSkip.params)).map fun k => 1 * (gtModelRun exSkip id (fun _ => 0) 2
      (neighborFull 5 (1 / 10) [0] (fun (i : ℕ) => ![(i : ℚ), 0, 0]) 2)).xe k).sum = 0 := by
  decide +kernel

end Verif.Mlp
