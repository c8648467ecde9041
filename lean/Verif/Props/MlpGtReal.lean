import Verif.Props.MlpGtEval
import Verif.Props.MlpYlm

/-!
# C59 over the real numbers, with the spherical harmonics of the program
-/

namespace Verif.Mlp
open Verif Real
open Verif.Neighbor (Vec Csr r2 mkCsr neighborHalf neighborFull)

/-- The values of `get_ylm_` without derivatives. -/
noncomputable def ylmOf (maxl : ℕ) (d : Vec ℝ) : ℕ → Cx ℝ := getYlm maxl (d 0) (d 1) (d 2)

/-- The values of `get_ylm_` with derivatives. -/
noncomputable def ylmVOf (maxl : ℕ) (r : ℝ) (d : Vec ℝ) : ℕ → Cx ℝ :=
  (getYlmDer maxl r (d 0) (d 1) (d 2)).y

/-- The derivatives of `get_ylm_`. -/
noncomputable def ylmGOf (maxl : ℕ) (r : ℝ) (d : Vec ℝ) (k : ℕ) : Fin 3 → Cx ℝ :=
  let o := getYlmDer maxl r (d 0) (d 1) (d 2)
  ![o.dx k, o.dy k, o.dz k]

theorem halfIdx_eq {l k : ℕ} (h : k ≤ l) : Spec.halfIdx l k = lm2iNeg l k := by
  unfold Spec.halfIdx lm2iNeg
  omega

theorem toC_inj {a b : Cx ℝ} (h : toC a = toC b) : a = b :=
  Cx.ext (congrArg Complex.re h) (congrArg Complex.im h)

/-- The derivatives along the axes. -/
theorem ylmG_hasDeriv (maxl : ℕ) (d v : Vec ℝ) (h : 0 < r2 d) (l k : ℕ) (hk : k ≤ l) (hl : l ≤ maxl) :
    HasDerivAt (fun σ : ℝ => toC (ylmOf maxl (fun y => d y + σ * v y) (lm2iNeg l k)))
      (toC (ylmGOf maxl (√(r2 d)) d (lm2iNeg l k) 0) * v 0 +
        toC (ylmGOf maxl (√(r2 d)) d (lm2iNeg l k) 1) * v 1 +
        toC (ylmGOf maxl (√(r2 d)) d (lm2iNeg l k) 2) * v 2) 0 := by
  have hc : ∀ y, HasDerivAt (fun σ : ℝ => d y + σ * v y) (v y) 0 := by
    intro y
    have := ((hasDerivAt_id (0 : ℝ)).mul_const (v y)).const_add (d y)
    simpa using this
  have := C60_derivative maxl _ _ _ 0 (v 0) (v 1) (v 2) (hc 0) (hc 1) (hc 2)
    (by simpa [r2] using h) l k hk hl
  simp only [zero_mul, add_zero] at this
  exact this

theorem ylmG_parity (maxl : ℕ) (d : Vec ℝ) (h : 0 < r2 d) (l k : ℕ) (hk : k ≤ l) (hl : l ≤ maxl)
    (v : Vec ℝ) :
    toC (ylmGOf maxl (√(r2 d)) (-d) (lm2iNeg l k) 0) * v 0 +
        toC (ylmGOf maxl (√(r2 d)) (-d) (lm2iNeg l k) 1) * v 1 +
        toC (ylmGOf maxl (√(r2 d)) (-d) (lm2iNeg l k) 2) * v 2 =
      (((-1) ^ l : ℝ) : ℂ) * -(toC (ylmGOf maxl (√(r2 d)) d (lm2iNeg l k) 0) * v 0 +
        toC (ylmGOf maxl (√(r2 d)) d (lm2iNeg l k) 1) * v 1 +
        toC (ylmGOf maxl (√(r2 d)) d (lm2iNeg l k) 2) * v 2) := by
  have hn : r2 (-d) = r2 d := r2_neg d
  have h1 := ylmG_hasDeriv maxl (-d) v (by rw [hn]; exact h) l k hk hl
  rw [hn] at h1
  have h2 := (ylmG_hasDeriv maxl d (-v) h l k hk hl).const_mul (((-1) ^ l : ℝ) : ℂ)
  have hcont : ContinuousAt (fun σ : ℝ => r2 (fun y => d y + σ * (-v) y)) 0 := by
    unfold r2
    fun_prop
  have hev : (fun σ : ℝ => toC (ylmOf maxl (fun y => (-d) y + σ * v y) (lm2iNeg l k))) =ᶠ[nhds 0]
      fun σ : ℝ => (((-1) ^ l : ℝ) : ℂ) * toC (ylmOf maxl (fun y => d y + σ * (-v) y) (lm2iNeg l k)) := by
    filter_upwards [hcont.eventually (lt_mem_nhds (by simpa using h))] with σ hσ
    have := C60_parity maxl _ _ _ hσ l k hk hl
    rw [← toC_smul, ylmOf, ylmOf, ← this]
    simp only [Pi.neg_apply]
    congr 2 <;> ring
  have h3 := (h2.congr_of_eventuallyEq hev).unique h1
  rw [← h3]
  simp only [Pi.neg_apply, Complex.ofReal_neg]
  ring

/-- The spherical harmonics of the program follow the rules, for every vector other than zero. -/
theorem C59_ylm_rules (maxl : ℕ) (d : Vec ℝ) (h : 0 < r2 d) :
    Spec.YlmRules maxl (ylmOf maxl) (ylmVOf maxl) (ylmGOf maxl) (√(r2 d)) d where
  value l hl k hk := by
    rw [halfIdx_eq hk]
    exact C60_same_value maxl _ _ _ h l k hk hl
  parity l hl k hk := by
    rw [halfIdx_eq hk]
    have h1 := C60_same_value maxl _ _ _ h l k hk hl
    have hn : 0 < -d 0 * -d 0 + -d 1 * -d 1 + -d 2 * -d 2 := by
      have : -d 0 * -d 0 + -d 1 * -d 1 + -d 2 * -d 2 = r2 d := by unfold r2; ring
      rw [this]; exact h
    have h2 := C60_same_value maxl _ _ _ hn l k hk hl
    have e : -d 0 * -d 0 + -d 1 * -d 1 + -d 2 * -d 2 = r2 d := by unfold r2; ring
    rw [e] at h2
    have h3 := C60_parity maxl _ _ _ h l k hk hl
    show (getYlmDer maxl (√(r2 d)) (-d 0) (-d 1) (-d 2)).y _ = _
    rw [h2, h3]
    congr 1
    exact h1.symm
  parityG l hl k hk x := by
    rw [halfIdx_eq hk]
    apply toC_inj
    have hs : toC (-Cx.smul ((-1) ^ l) (ylmGOf maxl (√(r2 d)) d (lm2iNeg l k) x)) =
        (((-1) ^ l : ℝ) : ℂ) * -toC (ylmGOf maxl (√(r2 d)) d (lm2iNeg l k) x) := by
      rw [mul_neg, ← toC_smul]
      rfl
    rw [hs]
    have := ylmG_parity maxl d h l k hk hl (Pi.single x 1)
    fin_cases x <;> simpa using this
  real l hl := by
    rw [halfIdx_eq (Nat.zero_le l)]
    have h1 := C60_same_value maxl _ _ _ h l 0 (Nat.zero_le l) hl
    have h2 := getYlm_cart maxl _ _ _ h l 0 (Nat.zero_le l) hl
    rw [← h1, pow_zero, mul_one, ← Complex.ofReal_mul] at h2
    exact congrArg Complex.im h2
  realG l hl x := by
    rw [halfIdx_eq (Nat.zero_le l)]
    have h0 := computeYlmDer_zero maxl (d 2 / √(r2 d)) (azimuthal (d 0) (d 1)).1 (azimuthal (d 0) (d 1)).2
      (√(r2 d)) l hl
    obtain ⟨-, h1, h2, h3⟩ := h0
    fin_cases x
    · exact (congrArg Complex.im h1).trans (by simp)
    · exact (congrArg Complex.im h2).trans (by simp)
    · exact (congrArg Complex.im h3).trans (by simp)

end Verif.Mlp
