import Verif.Lemmas.MlpYlm
import Verif.Model.MlpNlm
import Mathlib.Analysis.SpecialFunctions.Sqrt
import Mathlib.Analysis.Complex.RealDeriv

/-!
# C60: spherical harmonics
-/

namespace Verif.Mlp
open Real Verif.Spec.Ylm

/-- The angles that `get_ylm_` computes describe the point. -/
theorem angles (x y z : ℝ) (h : 0 < x * x + y * y + z * z) :
    let r := √(x * x + y * y + z * z)
    let t := z / r
    let s := √(1.0 - t * t)
    let a := azimuthal x y
    0 < r ∧ x = r * s * a.1 ∧ y = r * s * a.2 ∧ z = r * t ∧ a.1 * a.1 + a.2 * a.2 = 1 ∧
      s * s + t * t = 1 ∧ 0 ≤ s := by
  intro r t s a
  have hr : 0 < r := sqrt_pos.2 h
  have hrr : r * r = x * x + y * y + z * z := mul_self_sqrt h.le
  have hz : z = r * t := by
    show z = r * (z / r)
    field_simp
  have h1 : r * r * (1.0 - t * t) = x * x + y * y := by
    have : r * r * (t * t) = z * z := by rw [hz]; ring
    rw [mul_sub, this, hrr]
    norm_num
  have h0 : 0 ≤ 1.0 - t * t := by
    have h2 : 0 ≤ r * r * (1.0 - t * t) := by rw [h1]; exact add_nonneg (mul_self_nonneg x) (mul_self_nonneg y)
    have h3 : 0 < r * r := by positivity
    by_contra hc
    have := mul_neg_of_pos_of_neg h3 (not_le.1 hc)
    linarith
  have hs : s * s + t * t = 1 := by
    have : s * s = 1.0 - t * t := mul_self_sqrt h0
    rw [this]
    norm_num
  have hrs : r * s = √(x * x + y * y) := by
    rw [← h1, sqrt_mul (by positivity), sqrt_mul_self hr.le]
  refine ⟨hr, ?_, ?_, hz, ?_, hs, sqrt_nonneg _⟩
  all_goals
    show _
    by_cases hp : √(x * x + y * y) > 0.0
    · have e : a = (x / √(x * x + y * y), y / √(x * x + y * y)) := by
        show azimuthal x y = _
        unfold azimuthal
        simp only
        rw [if_pos hp]
      have hp' : 0 < √(x * x + y * y) := by
        have : (0.0 : ℝ) = 0 := by norm_num
        rw [this] at hp
        exact hp
      have hne := hp'.ne'
      have hq : √(x * x + y * y) * √(x * x + y * y) = x * x + y * y :=
        mul_self_sqrt (add_nonneg (mul_self_nonneg x) (mul_self_nonneg y))
      rw [e]
      try rw [hrs]
      generalize √(x * x + y * y) = rho at hne hq ⊢
      simp only
      field_simp
      try linarith
    · have e : a = (1.0, 0.0) := by
        show azimuthal x y = _
        unfold azimuthal
        simp only
        rw [if_neg hp]
      have hp0 : √(x * x + y * y) = 0 := by
        have : (0.0 : ℝ) = 0 := by norm_num
        rw [this] at hp
        exact le_antisymm (not_lt.1 hp) (sqrt_nonneg _)
      have hxy : x * x + y * y ≤ 0 := by
        rw [sqrt_eq_zero'] at hp0
        exact hp0
      have hx : x = 0 := by nlinarith [mul_self_nonneg x, mul_self_nonneg y]
      have hy : y = 0 := by nlinarith [mul_self_nonneg x, mul_self_nonneg y]
      rw [e]
      try rw [hrs, hp0]
      try rw [hx]
      try rw [hy]
      norm_num

/-- Values of `get_ylm_` in Cartesian coordinates. -/
theorem getYlm_cart (lmax : ℕ) (x y z : ℝ) (h : 0 < x * x + y * y + z * z) (l m : ℕ) (hm : m ≤ l)
    (hl : l ≤ lmax) :
    toC (getYlm lmax x y z (lm2iNeg l m)) =
      (Verif.Spec.Ylm.norm l m : ℂ) * ((⟨x, -y⟩ : ℂ) / (√(x * x + y * y + z * z) : ℝ)) ^ m *
        (legendreD l m (z / √(x * x + y * y + z * z)) : ℝ) := by
  obtain ⟨hr, hx, hy, hz, hc, hs, -⟩ := angles x y z h
  unfold getYlm
  rw [computeYlm_eq lmax _ _ _ hc l m hm hl]
  have e : (⟨x, -y⟩ : ℂ) / (√(x * x + y * y + z * z) : ℝ) =
      (√(1.0 - z / √(x * x + y * y + z * z) * (z / √(x * x + y * y + z * z))) : ℝ) *
        ⟨(azimuthal x y).1, -(azimuthal x y).2⟩ := by
    rw [div_eq_iff (by exact_mod_cast hr.ne')]
    apply Complex.ext
    · simp
      linarith
    · simp
      linarith
  rw [e, mul_pow]
  push_cast
  ring

theorem getYlmDer_cart (lmax : ℕ) (x y z : ℝ) (h : 0 < x * x + y * y + z * z) (l m : ℕ) (hm : m ≤ l)
    (hl : l ≤ lmax) :
    toC ((getYlmDer lmax (√(x * x + y * y + z * z)) x y z).y (lm2iNeg l m)) =
      toC (getYlm lmax x y z (lm2iNeg l m)) := by
  obtain ⟨hr, hx, hy, hz, hc, hs, -⟩ := angles x y z h
  unfold getYlm getYlmDer
  rw [computeYlm_eq lmax _ _ _ hc l m hm hl]
  by_cases h0 : m = 0
  · subst h0
    rw [(computeYlmDer_zero lmax _ _ _ _ l hl).1]
    simp
  · rw [(computeYlmDer_neg lmax _ _ _ _ hc l m hm hl h0).1]

/-- **C60 (values).**  For every direction, the entry at position `l(l+1)/2 + l - m` is the spherical
harmonic `Y_l^{-m}` of the polar angle `theta` and the azimuth `phi`, whatever the distance `r > 0`; also on
the z axis. -/
theorem C60_value (lmax : ℕ) (r theta phi : ℝ) (hr : 0 < r) (l m : ℕ) (hm : m ≤ l)
    (hl : l ≤ lmax) :
    toC (getYlm lmax (r * sin theta * cos phi) (r * sin theta * sin phi) (r * cos theta) (lm2iNeg l m)) =
      Verif.Spec.Ylm.ylmNeg l m theta phi := by
  have e2 : r * sin theta * cos phi * (r * sin theta * cos phi) +
      r * sin theta * sin phi * (r * sin theta * sin phi) + r * cos theta * (r * cos theta) = r * r := by
    linear_combination r * r * sin theta ^ 2 * (sin_sq_add_cos_sq phi) + r * r * (sin_sq_add_cos_sq theta)
  have hpos : 0 < r * r := by positivity
  rw [getYlm_cart lmax _ _ _ (by rw [e2]; exact hpos) l m hm hl, e2, sqrt_mul_self hr.le]
  have e3 : r * cos theta / r = cos theta := by field_simp
  have e4 : (⟨r * sin theta * cos phi, -(r * sin theta * sin phi)⟩ : ℂ) / (r : ℝ) =
      (sin theta : ℝ) * Complex.exp (-(Complex.I * phi)) := by
    rw [div_eq_iff (by exact_mod_cast hr.ne')]
    have : Complex.exp (-(Complex.I * phi)) = ⟨cos phi, -sin phi⟩ := by
      rw [show -(Complex.I * (phi : ℂ)) = ((-phi : ℝ) : ℂ) * Complex.I by push_cast; ring]
      apply Complex.ext
      · rw [Complex.exp_ofReal_mul_I_re, cos_neg]
      · rw [Complex.exp_ofReal_mul_I_im, sin_neg]
    rw [this]
    generalize sin theta = S
    apply Complex.ext
    · simp
      ring
    · simp
      ring
  rw [e3, e4]
  unfold Verif.Spec.Ylm.ylmNeg ylm
  rw [map_mul, map_mul, map_mul, ← Complex.exp_conj]
  simp only [map_mul, map_pow, map_neg, map_one, Complex.conj_ofReal, Complex.conj_I, map_natCast]
  have hs : ((-1 : ℂ) ^ m) * (-1) ^ m = 1 := by rw [← mul_pow]; norm_num
  rw [mul_pow, ← Complex.exp_nat_mul]
  have e5 : (m : ℂ) * -(Complex.I * phi) = -Complex.I * m * phi := by ring
  rw [e5]
  push_cast
  linear_combination (-(Verif.Spec.Ylm.norm l m : ℂ) * ((Complex.sin theta ^ m *
    (legendreD l m (cos theta) : ℝ)) * Complex.exp (-Complex.I * m * phi))) * hs

/-- **C60 (two programs).**  The program that also computes derivatives computes the same values. -/
theorem C60_same_value (lmax : ℕ) (x y z : ℝ) (h : 0 < x * x + y * y + z * z) (l m : ℕ) (hm : m ≤ l)
    (hl : l ≤ lmax) :
    (getYlmDer lmax (√(x * x + y * y + z * z)) x y z).y (lm2iNeg l m) = getYlm lmax x y z (lm2iNeg l m) := by
  have := getYlmDer_cart lmax x y z h l m hm hl
  have h1 := congrArg Complex.re this
  have h2 := congrArg Complex.im this
  exact Cx.ext h1 h2

/-- **C60 (parity).**  In the opposite direction `Y_l^{-m}` is multiplied by `(-1)^l`. -/
theorem C60_parity (lmax : ℕ) (x y z : ℝ) (h : 0 < x * x + y * y + z * z) (l m : ℕ) (hm : m ≤ l)
    (hl : l ≤ lmax) :
    getYlm lmax (-x) (-y) (-z) (lm2iNeg l m) = Cx.smul ((-1) ^ l) (getYlm lmax x y z (lm2iNeg l m)) := by
  have e : toC (getYlm lmax (-x) (-y) (-z) (lm2iNeg l m)) =
      toC (Cx.smul ((-1) ^ l) (getYlm lmax x y z (lm2iNeg l m))) := by
    rw [toC_smul, getYlm_cart lmax x y z h l m hm hl, getYlm_cart lmax _ _ _ (by simpa using h) l m hm hl]
    simp only [neg_mul_neg]
    rw [neg_div, legendreD_parity, show (⟨-x, - -y⟩ : ℂ) = -⟨x, -y⟩ from Complex.ext rfl rfl, neg_div,
      neg_pow]
    have hs : ((-1 : ℂ) ^ m) * (-1) ^ m = 1 := by rw [← mul_pow]; norm_num
    push_cast
    rw [pow_add]
    generalize (-1 : ℂ) ^ m = e at hs
    linear_combination ((Verif.Spec.Ylm.norm l m : ℂ) *
      ((⟨x, -y⟩ : ℂ) / (√(x * x + y * y + z * z) : ℝ)) ^ m * (-1) ^ l *
        (legendreD l m (z / √(x * x + y * y + z * z)) : ℝ)) * hs
  have h1 := congrArg Complex.re e
  have h2 := congrArg Complex.im e
  exact Cx.ext h1 h2

/-- Rates of change of the distance and of the direction along a curve. -/
theorem curve (X Y Z : ℝ → ℝ) (τ vx vy vz : ℝ) (hX : HasDerivAt X vx τ) (hY : HasDerivAt Y vy τ)
    (hZ : HasDerivAt Z vz τ) (h : 0 < X τ * X τ + Y τ * Y τ + Z τ * Z τ) :
    HasDerivAt (fun σ => √(X σ * X σ + Y σ * Y σ + Z σ * Z σ))
      ((X τ * vx + Y τ * vy + Z τ * vz) / √(X τ * X τ + Y τ * Y τ + Z τ * Z τ)) τ := by
  have h1 := (((hX.mul hX).add (hY.mul hY)).add (hZ.mul hZ)).sqrt h.ne'
  refine h1.congr_deriv ?_
  simp only [Pi.add_apply, Pi.mul_apply]
  have := (sqrt_pos.2 h).ne'
  field_simp
  ring

/-- The derivative of the closed form. -/
theorem hasDerivAt_cart (X Y Z : ℝ → ℝ) (τ vx vy vz : ℝ) (hX : HasDerivAt X vx τ) (hY : HasDerivAt Y vy τ)
    (hZ : HasDerivAt Z vz τ) (R : ℝ → ℝ) (v : ℝ) (hR : HasDerivAt R v τ) (h0 : R τ ≠ 0) (n : ℝ) (l m : ℕ) :
    HasDerivAt (fun σ => (n : ℂ) * ((⟨X σ, -Y σ⟩ : ℂ) / (R σ : ℝ)) ^ m * (legendreD l m (Z σ / R σ) : ℝ))
      ((n : ℂ) * (m * ((⟨X τ, -Y τ⟩ : ℂ) / (R τ : ℝ)) ^ (m - 1) *
          (((⟨vx, -vy⟩ : ℂ) * (R τ : ℝ) - (⟨X τ, -Y τ⟩ : ℂ) * (v : ℝ)) / (R τ : ℝ) ^ 2) *
            (legendreD l m (Z τ / R τ) : ℝ) +
        ((⟨X τ, -Y τ⟩ : ℂ) / (R τ : ℝ)) ^ m *
          (legendreD l (m + 1) (Z τ / R τ) * ((vz * R τ - Z τ * v) / R τ ^ 2) : ℝ))) τ := by
  have hW : HasDerivAt (fun σ => (⟨X σ, -Y σ⟩ : ℂ)) ⟨vx, -vy⟩ τ := by
    have h1 := (hX.ofReal_comp).sub ((hY.ofReal_comp).mul_const Complex.I)
    have e1 : (fun σ => (⟨X σ, -Y σ⟩ : ℂ)) = fun σ => (X σ : ℂ) - (Y σ : ℂ) * Complex.I := by
      funext σ
      apply Complex.ext <;> simp
    have e2 : (⟨vx, -vy⟩ : ℂ) = (vx : ℂ) - vy * Complex.I := by
      apply Complex.ext <;> simp
    rw [e1, e2]
    exact h1
  have hRc := hR.ofReal_comp
  have hq := (hW.div hRc (by exact_mod_cast h0)).pow m
  have hu : HasDerivAt (fun σ => legendreD l m (Z σ / R σ))
      (legendreD l (m + 1) (Z τ / R τ) * ((vz * R τ - Z τ * v) / R τ ^ 2)) τ :=
    HasDerivAt.comp (h₂ := legendreD l m) τ (hasDerivAt_legendreD l m (Z τ / R τ)) (hZ.div hR h0)
  have := ((hq.const_mul (n : ℂ)).mul hu.ofReal_comp)
  refine this.congr_deriv ?_
  simp only [Pi.div_apply, Pi.pow_apply]
  ring

/-- The derivatives for any cosine and sine of the azimuth that belong to the point; on the z axis every pair does. -/
theorem derivative_angles (lmax : ℕ) (X Y Z : ℝ → ℝ) (τ vx vy vz : ℝ)
    (hX : HasDerivAt X vx τ) (hY : HasDerivAt Y vy τ) (hZ : HasDerivAt Z vz τ)
    (h : 0 < X τ * X τ + Y τ * Y τ + Z τ * Z τ) (l m : ℕ) (hm : m ≤ l) (hl : l ≤ lmax) (r c g : ℝ)
    (hrr : r = √(X τ * X τ + Y τ * Y τ + Z τ * Z τ)) (hc : c * c + g * g = 1)
    (hx : X τ = r * √(1.0 - Z τ / r * (Z τ / r)) * c) (hy : Y τ = r * √(1.0 - Z τ / r * (Z τ / r)) * g) :
    let o := computeYlmDer lmax (Z τ / r) c g r
    let i := lm2iNeg l m
    HasDerivAt (fun σ => toC (getYlm lmax (X σ) (Y σ) (Z σ) i))
      (toC (o.dx i) * vx + toC (o.dy i) * vy + toC (o.dz i) * vz) τ := by
  intro o i
  have hR := curve X Y Z τ vx vy vz hX hY hZ h
  obtain ⟨hr, -, -, hz, -, hs, -⟩ := angles (X τ) (Y τ) (Z τ) h
  have hd := hasDerivAt_cart X Y Z τ vx vy vz hX hY hZ _ _ hR hr.ne' (Verif.Spec.Ylm.norm l m) l m
  have hev : (fun σ => toC (getYlm lmax (X σ) (Y σ) (Z σ) i)) =ᶠ[nhds τ] fun σ =>
      (Verif.Spec.Ylm.norm l m : ℂ) *
        ((⟨X σ, -Y σ⟩ : ℂ) / (√(X σ * X σ + Y σ * Y σ + Z σ * Z σ) : ℝ)) ^ m *
        (legendreD l m (Z σ / √(X σ * X σ + Y σ * Y σ + Z σ * Z σ)) : ℝ) := by
    have hcont : ContinuousAt (fun σ => X σ * X σ + Y σ * Y σ + Z σ * Z σ) τ :=
      ((hX.continuousAt.mul hX.continuousAt).add (hY.continuousAt.mul hY.continuousAt)).add
        (hZ.continuousAt.mul hZ.continuousAt)
    filter_upwards [hcont.eventually (lt_mem_nhds h)] with σ hσ
    exact getYlm_cart lmax _ _ _ hσ l m hm hl
  refine (hd.congr_of_eventuallyEq hev).congr_deriv ?_
  show _ = toC (Ylm.dx _ (lm2iNeg l m)) * vx + toC (Ylm.dy _ (lm2iNeg l m)) * vy +
    toC (Ylm.dz _ (lm2iNeg l m)) * vz
  show _ = toC (Ylm.dx (computeYlmDer lmax (Z τ / r) c g r) _) * vx + toC (Ylm.dy (computeYlmDer lmax (Z τ / r) c g r) _) * vy +
    toC (Ylm.dz (computeYlmDer lmax (Z τ / r) c g r) _) * vz
  simp only [← hrr] at hr hz hs ⊢
  clear hev hd hR o
  have hrC : (r : ℂ) ≠ 0 := by exact_mod_cast hr.ne'
  have h0 := computeYlmDer_zero lmax (Z τ / r) c g r l hl
  have h1 := computeYlmDer_neg lmax (Z τ / r) c g r hc l m hm hl
  generalize computeYlmDer lmax (Z τ / r) c g r = q at *
  simp only at h0 h1
  generalize √(1.0 - Z τ / r * (Z τ / r)) = s at *
  generalize Z τ / r = t at *
  have hv : (X τ * vx + Y τ * vy + Z τ * vz) / r = s * c * vx + s * g * vy + t * vz := by
    rw [hx, hy, hz]
    field_simp
  have hz' : (vz * r - Z τ * (s * c * vx + s * g * vy + t * vz)) / r ^ 2 =
      (s * s * vz - t * s * (c * vx + g * vy)) * r⁻¹ := by
    rw [hz]
    field_simp
    linear_combination (-vz) * hs
  have hw : (⟨X τ, -Y τ⟩ : ℂ) / (r : ℝ) = (s : ℝ) * ⟨c, -g⟩ := by
    rw [div_eq_iff hrC, hx, hy]
    apply Complex.ext <;> simp <;> ring
  have hw' : ((⟨vx, -vy⟩ : ℂ) * (r : ℝ) - (⟨X τ, -Y τ⟩ : ℂ) * ((s * c * vx + s * g * vy + t * vz : ℝ) : ℂ)) /
      (r : ℝ) ^ 2 = (⟨vx, -vy⟩ - (s : ℝ) * ⟨c, -g⟩ * ((s * c * vx + s * g * vy + t * vz : ℝ) : ℂ)) *
        (r⁻¹ : ℝ) := by
    rw [← hw]
    push_cast
    field_simp
  rw [hv, hz', hw', hw]
  by_cases e : m = 0
  · subst e
    obtain ⟨-, d1, d2, d3⟩ := h0
    rw [d1, d2, d3]
    push_cast
    simp only [CharP.cast_eq_zero, zero_mul, pow_zero, one_mul, zero_add]
    ring
  · obtain ⟨-, d1, d2, d3⟩ := h1 e
    rw [d1, d2, d3]
    obtain ⟨k, rfl⟩ := Nat.exists_eq_succ_of_ne_zero e
    rw [show k.succ - 1 = k from rfl]
    generalize Verif.Spec.Ylm.norm l k.succ = n
    generalize legendreD l (k.succ + 1) t = u'
    generalize legendreD l k.succ t = u
    have key : (k.succ : ℂ) * u * (⟨vx, -vy⟩ - (s : ℝ) * ⟨c, -g⟩ *
          ((s * c * vx + s * g * vy + t * vz : ℝ) : ℂ)) +
        (s : ℂ) * ⟨c, -g⟩ * ((u' : ℝ) : ℂ) * ((s * s * vz - t * s * (c * vx + g * vy) : ℝ) : ℂ) =
        ⟨c, -g⟩ * (⟨(k.succ * t * u - s * s * u') * t * c, k.succ * u * g⟩ * (vx : ℂ) +
          ⟨(k.succ * t * u - s * s * u') * t * g, -(k.succ * u * c)⟩ * (vy : ℂ) +
          ((-(s * (k.succ * t * u - s * s * u')) : ℝ) : ℂ) * (vz : ℂ)) := by
      have hk : ((k.succ : ℕ) : ℂ) = ((k.succ : ℝ) : ℂ) := by push_cast; rfl
      rw [hk]
      generalize (k.succ : ℝ) = m'
      apply Complex.ext
      · simp
        linear_combination (m' * u * (-c ^ 2 * vx - c * g * vy)) * hs - m' * u * vx * hc
      · simp
        linear_combination (m' * u * (c * g * vx + g ^ 2 * vy)) * hs + m' * u * vy * hc
    push_cast [Nat.succ_eq_add_one, pow_succ] at key ⊢
    linear_combination (n * s ^ k * ⟨c, -g⟩ ^ k * (r : ℂ)⁻¹) * key

/-- **C60 (derivatives).**  Along every curve through a point other than the origin, the rate of change of
`Y_l^{-m}` is the velocity contracted with the three derivatives that the program computes; also on the
z axis. -/
theorem C60_derivative (lmax : ℕ) (X Y Z : ℝ → ℝ) (τ vx vy vz : ℝ)
    (hX : HasDerivAt X vx τ) (hY : HasDerivAt Y vy τ) (hZ : HasDerivAt Z vz τ)
    (h : 0 < X τ * X τ + Y τ * Y τ + Z τ * Z τ) (l m : ℕ) (hm : m ≤ l) (hl : l ≤ lmax) :
    let o := getYlmDer lmax (√(X τ * X τ + Y τ * Y τ + Z τ * Z τ)) (X τ) (Y τ) (Z τ)
    let i := lm2iNeg l m
    HasDerivAt (fun σ => toC (getYlm lmax (X σ) (Y σ) (Z σ) i))
      (toC (o.dx i) * vx + toC (o.dy i) * vy + toC (o.dz i) * vz) τ := by
  intro o i
  obtain ⟨-, hx, hy, -, hc, -, -⟩ := angles (X τ) (Y τ) (Z τ) h
  exact derivative_angles lmax X Y Z τ vx vy vz hX hY hZ h l m hm hl _ _ _ rfl hc hx hy

theorem tri_eq (l : ℕ) : (l + 3) * l / 2 = l * (l + 1) / 2 + l := by
  rw [show (l + 3) * l = l * (l + 1) + l * 2 by ring, Nat.add_mul_div_right _ _ (by decide)]

theorem lmAttr_key (l : ℕ) (m : ℤ) (h1 : -(l : ℤ) ≤ m) (h2 : m ≤ l) :
    (lmAttr l m).ylmKey = (lm2iNeg l m.natAbs : ℕ) := by
  unfold lmAttr lm2iNeg
  rw [tri_eq]
  by_cases h : m < 1
  · simp only
    rw [if_pos h]
    show ((l * (l + 1) / 2 + l : ℕ) : ℤ) + m = _
    omega
  · simp only
    rw [if_neg h]
    show ((l * (l + 1) / 2 + l : ℕ) : ℤ) - m = _
    omega

/-- **C60 (channels).**  Each channel `(l, m)` of the model, `m = -l..l`, reads the entry of its spherical
harmonic: the stored entry for `m ≤ 0`, its conjugate times `cc` for `m > 0`. -/
theorem C60_channel (maxl : ℕ) (r theta phi : ℝ) (hr : 0 < r) :
    (∀ l : ℕ, ∀ m : ℤ, l ≤ maxl → -(l : ℤ) ≤ m → m ≤ l → lmAttr l m ∈ lmAttrs maxl) ∧
    ∀ a ∈ lmAttrs maxl,
      let y := toC (getYlm maxl (r * sin theta * cos phi) (r * sin theta * sin phi) (r * cos theta)
        a.ylmKey.toNat)
      (if a.conj then (a.cc : ℂ) * (starRingEnd ℂ) y else y) = ylmInt a.l a.m theta phi := by
  refine ⟨?_, ?_⟩
  · intro l m hl h1 h2
    unfold lmAttrs
    refine List.mem_flatMap.2 ⟨l, List.mem_range.2 (by omega), List.mem_map.2 ⟨(m + l).toNat,
      List.mem_range.2 (by omega), ?_⟩⟩
    rw [show (((m + l).toNat : ℕ) : ℤ) - (l : ℤ) = m by omega]
  · intro a ha
    obtain ⟨l, hl, ha⟩ := List.mem_flatMap.1 ha
    obtain ⟨k, hk, rfl⟩ := List.mem_map.1 ha
    have hl' : l ≤ maxl := by have := List.mem_range.1 hl; omega
    have hk' := List.mem_range.1 hk
    obtain ⟨m, hmk⟩ : ∃ m : ℤ, m = (k : ℤ) - (l : ℤ) := ⟨_, rfl⟩
    rw [← hmk]
    intro y
    have h1 : -(l : ℤ) ≤ m := by omega
    have h2 : m ≤ l := by omega
    have hy : y = Verif.Spec.Ylm.ylmNeg l m.natAbs theta phi := by
      have := C60_value maxl r theta phi hr l m.natAbs (by omega) hl'
      rw [← this]
      show toC (getYlm maxl _ _ _ (lmAttr l m).ylmKey.toNat) = _
      rw [lmAttr_key l m h1 h2, Int.toNat_natCast]
    clear_value y
    subst hy
    have hs : ((-1 : ℂ) ^ m.natAbs) * (-1) ^ m.natAbs = 1 := by rw [← mul_pow]; norm_num
    have hconj : ∀ (n : ℕ), (starRingEnd ℂ) ((-1 : ℂ) ^ n) = (-1) ^ n := by intro n; simp
    by_cases h : m < 1
    · have e1 : (lmAttr l m).conj = false := by unfold lmAttr; simp only; rw [if_pos h]
      have e2 : (lmAttr l m).l = l := by unfold lmAttr; simp only; rw [if_pos h]
      have e3 : (lmAttr l m).m = m := by unfold lmAttr; simp only; rw [if_pos h]
      rw [e1, e2, e3, if_neg (by decide)]
      unfold ylmInt
      by_cases h0 : 0 ≤ m
      · obtain rfl : m = 0 := by omega
        rw [if_pos le_rfl]
        show Verif.Spec.Ylm.ylmNeg l 0 theta phi = ylm l 0 theta phi
        unfold Verif.Spec.Ylm.ylmNeg ylm
        simp
      · rw [if_neg h0, show m.natAbs = (-m).toNat by omega]
    · have e1 : (lmAttr l m).conj = true := by unfold lmAttr; simp only; rw [if_neg h]
      have e2 : (lmAttr l m).l = l := by unfold lmAttr; simp only; rw [if_neg h]
      have e3 : (lmAttr l m).m = m := by unfold lmAttr; simp only; rw [if_neg h]
      have e4 : ((lmAttr l m).cc : ℂ) = (-1) ^ m.natAbs := by
        unfold lmAttr
        simp only
        rw [if_neg h]
        rcases Nat.even_or_odd m.natAbs with he | he
        · rw [he.neg_one_pow]
          simp only
          rw [if_pos (by obtain ⟨q, hq⟩ := he; omega)]
          norm_num
        · rw [he.neg_one_pow]
          simp only
          rw [if_neg (by obtain ⟨q, hq⟩ := he; omega)]
          norm_num
      rw [e1, e2, e3, e4, if_pos rfl]
      unfold ylmInt
      rw [if_pos (by omega), show m.toNat = m.natAbs by omega]
      unfold Verif.Spec.Ylm.ylmNeg
      rw [map_mul, hconj, Complex.conj_conj, ← mul_assoc, hs, one_mul]

/-- A direction off the axes: `l = 3`, `m = -2` at `theta = 1`, `phi = 2`; and the z axis, where the
derivative of `Y_1^{-1}` does not vanish. -/
example : toC (getYlm 3 (2 * sin 1 * cos 2) (2 * sin 1 * sin 2) (2 * cos 1) (lm2iNeg 3 2)) =
    Verif.Spec.Ylm.ylmNeg 3 2 1 2 :=
  C60_value 3 2 1 2 (by norm_num) 3 2 (by decide) (by decide)

example : let o := getYlmDer 1 (√((0 : ℝ) * 0 + 0 * 0 + 1 * 1)) 0 0 1
    HasDerivAt (fun σ : ℝ => toC (getYlm 1 σ 0 1 (lm2iNeg 1 1))) (toC (o.dx (lm2iNeg 1 1))) 0 := by
  intro o
  have h := C60_derivative 1 (fun σ : ℝ => σ) (fun _ => 0) (fun _ => 1) 0 1 0 0 (hasDerivAt_id 0)
    (hasDerivAt_const _ _) (hasDerivAt_const _ _) (by norm_num) 1 1 le_rfl le_rfl
  refine h.congr_deriv ?_
  simp [o]

end Verif.Mlp
