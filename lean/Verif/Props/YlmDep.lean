import Verif.Lemmas.YlmDep
import Verif.Props.MlpYlm

/-!
# C130: the spherical harmonics of polar coordinates

A direction is given by a polar angle between `0` and `π` and an azimuthal angle.  Entry `lm2iNeg l m` of the output
is the harmonic of degree `l` and order `-m`; see `Spec/Ylm.lean` for the textbook formula.
-/

namespace Verif.Mlp
open Real Verif.Spec.Ylm

/-- **C130 (values).**  Every entry is the textbook spherical harmonic at the given angles. -/
theorem C130_value (lmax : ℕ) (polar azimuthal : ℝ) (h0 : 0 ≤ polar) (h1 : polar ≤ π) (l m : ℕ) (hm : m ≤ l)
    (hl : l ≤ lmax) :
    toC (getYlmPolar lmax polar azimuthal (lm2iNeg l m)) = Verif.Spec.Ylm.ylmNeg l m polar azimuthal := by
  have hs : 0 ≤ sin polar := sin_nonneg_of_nonneg_of_le_pi h0 h1
  have hsq : √(1.0 - cos polar * cos polar) = sin polar := by
    rw [show (1.0 : ℝ) - cos polar * cos polar = sin polar * sin polar by
      have := sin_sq_add_cos_sq polar; norm_num; linarith [this, sq (sin polar), sq (cos polar)], sqrt_mul_self hs]
  have hc : cos azimuthal * cos azimuthal + sin azimuthal * sin azimuthal = 1 := by
    linear_combination sin_sq_add_cos_sq azimuthal
  have e2 : 1 * sin polar * cos azimuthal * (1 * sin polar * cos azimuthal) +
      1 * sin polar * sin azimuthal * (1 * sin polar * sin azimuthal) + 1 * cos polar * (1 * cos polar) = 1 := by
    linear_combination sin polar ^ 2 * (sin_sq_add_cos_sq azimuthal) + (sin_sq_add_cos_sq polar)
  rw [← C60_value lmax 1 polar azimuthal one_pos l m hm hl,
    getYlm_cart lmax _ _ _ (by rw [e2]; exact one_pos) l m hm hl, e2, sqrt_one]
  show toC (depYlm lmax (cos polar) azimuthal (lm2iNeg l m)) = _
  rw [depYlm_eq lmax _ _ l m hm hl, computeYlm_eq lmax _ _ _ hc l m hm hl, hsq]
  have e4 : (⟨1 * sin polar * cos azimuthal, -(1 * sin polar * sin azimuthal)⟩ : ℂ) / ((1 : ℝ) : ℂ) =
      (sin polar : ℂ) * (⟨cos azimuthal, -sin azimuthal⟩ : ℂ) := by
    rw [Complex.ofReal_one, div_one]
    apply Complex.ext <;> simp [← Complex.ofReal_sin]
  rw [e4, mul_pow, one_mul, div_one]
  push_cast
  ring

/-- **C130 (same function).**  The entries are those of the Cartesian interface at the vector with these polar
coordinates. -/
theorem C130_cartesian (lmax : ℕ) (r polar azimuthal : ℝ) (hr : 0 < r) (h0 : 0 ≤ polar) (h1 : polar ≤ π) (l m : ℕ)
    (hm : m ≤ l) (hl : l ≤ lmax) :
    toC (getYlmPolar lmax polar azimuthal (lm2iNeg l m)) =
      toC (getYlm lmax (r * sin polar * cos azimuthal) (r * sin polar * sin azimuthal) (r * cos polar)
        (lm2iNeg l m)) := by
  rw [C130_value lmax polar azimuthal h0 h1 l m hm hl, C60_value lmax r polar azimuthal hr l m hm hl]

/-- **C130 (derivatives).**  The function with derivatives returns the same values, and along every differentiable
curve through the point with polar coordinates `(r, polar, azimuthal)` the harmonic changes at the rate given by the
three returned arrays, on the z axis too. -/
theorem C130_derivative (lmax : ℕ) (r polar azimuthal : ℝ) (hr : 0 < r) (h0 : 0 ≤ polar) (h1 : polar ≤ π)
    (X Y Z : ℝ → ℝ) (τ vx vy vz : ℝ) (hX : HasDerivAt X vx τ) (hY : HasDerivAt Y vy τ) (hZ : HasDerivAt Z vz τ)
    (hx : X τ = r * sin polar * cos azimuthal) (hy : Y τ = r * sin polar * sin azimuthal) (hz : Z τ = r * cos polar)
    (R T P : ℝ → ℝ) (hR : ∀ σ, 0 < R σ) (hcart : ∀ σ, X σ = R σ * sin (T σ) * cos (P σ) ∧
      Y σ = R σ * sin (T σ) * sin (P σ) ∧ Z σ = R σ * cos (T σ)) (l m : ℕ) (hm : m ≤ l) (hl : l ≤ lmax) :
    let o := getYlmPolarDer lmax r polar azimuthal
    let i := lm2iNeg l m
    toC (o.1 i) = Verif.Spec.Ylm.ylmNeg l m polar azimuthal ∧
    HasDerivAt (fun σ => Verif.Spec.Ylm.ylmNeg l m (T σ) (P σ))
      (toC (o.2.dx i) * vx + toC (o.2.dy i) * vy + toC (o.2.dz i) * vz) τ := by
  intro o i
  refine ⟨C130_value lmax polar azimuthal h0 h1 l m hm hl, ?_⟩
  have hs : 0 ≤ sin polar := sin_nonneg_of_nonneg_of_le_pi h0 h1
  have hsq : √(1.0 - cos polar * cos polar) = sin polar := by
    rw [show (1.0 : ℝ) - cos polar * cos polar = sin polar * sin polar by
      have := sin_sq_add_cos_sq polar; norm_num; linarith [this, sq (sin polar), sq (cos polar)], sqrt_mul_self hs]
  have hc : cos azimuthal * cos azimuthal + sin azimuthal * sin azimuthal = 1 := by
    linear_combination sin_sq_add_cos_sq azimuthal
  have e2 : X τ * X τ + Y τ * Y τ + Z τ * Z τ = r * r := by
    rw [hx, hy, hz]
    linear_combination r * r * sin polar ^ 2 * (sin_sq_add_cos_sq azimuthal) + r * r * (sin_sq_add_cos_sq polar)
  have e3 : Z τ / r = cos polar := by rw [hz]; field_simp
  have key := derivative_angles lmax X Y Z τ vx vy vz hX hY hZ (by rw [e2]; positivity) l m hm hl r (cos azimuthal)
    (sin azimuthal) (by rw [e2, sqrt_mul_self hr.le]) hc (by rw [e3, hsq, hx]) (by rw [e3, hsq, hy])
  have ev : (fun σ => toC (getYlm lmax (X σ) (Y σ) (Z σ) (lm2iNeg l m))) =
      fun σ => Verif.Spec.Ylm.ylmNeg l m (T σ) (P σ) := by
    funext σ
    obtain ⟨a, b, c⟩ := hcart σ
    rw [a, b, c, C60_value lmax (R σ) (T σ) (P σ) (hR σ) l m hm hl]
  dsimp only at key
  rw [ev, e3] at key
  obtain ⟨d1, d2, d3⟩ := depDer_eq lmax (cos polar) azimuthal r l m hm hl
  rw [← d1, ← d2, ← d3] at key
  exact key

/-- The harmonic of degree three and order minus two off the axes. -/
example : toC (getYlmPolar 3 1 2 (lm2iNeg 3 2)) = Verif.Spec.Ylm.ylmNeg 3 2 1 2 :=
  C130_value 3 1 2 (by norm_num) (by linarith [pi_gt_three]) 3 2 (by decide) (by decide)

/-- The curve that turns the azimuthal angle at polar angle one meets the hypotheses. -/
example : let o := getYlmPolarDer 3 2 1 5
    HasDerivAt (fun σ => Verif.Spec.Ylm.ylmNeg 3 2 1 σ)
      (toC (o.2.dx (lm2iNeg 3 2)) * (2 * sin 1 * -sin 5 : ℝ) + toC (o.2.dy (lm2iNeg 3 2)) * (2 * sin 1 * cos 5 : ℝ) +
        toC (o.2.dz (lm2iNeg 3 2)) * (0 : ℝ)) 5 :=
  (C130_derivative 3 2 1 5 (by norm_num) (by norm_num) (by linarith [pi_gt_three])
    (fun σ => 2 * sin 1 * cos σ) (fun σ => 2 * sin 1 * sin σ) (fun _ => 2 * cos 1) 5 _ _ _
    ((hasDerivAt_cos 5).const_mul _) ((hasDerivAt_sin 5).const_mul _) (hasDerivAt_const _ _) rfl rfl rfl
    (fun _ => 2) (fun _ => 1) (fun σ => σ) (fun _ => by norm_num) (fun _ => ⟨rfl, rfl, rfl⟩) 3 2 (by decide)
    (by decide)).2

end Verif.Mlp
