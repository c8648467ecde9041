import Verif.Model.MlpYlm
import Verif.Lemmas.Legendre
import Mathlib.Analysis.Complex.Basic

/-!
# Lemmas on the computation of spherical harmonics
-/

namespace Verif.Mlp
open Real Verif.Spec.Ylm

/-! ## Positions in the arrays -/

theorem tri_succ (l : ℕ) : (l + 1) * (l + 1 + 1) / 2 = l * (l + 1) / 2 + (l + 1) := by
  rw [show (l + 1) * (l + 1 + 1) = l * (l + 1) + (l + 1) * 2 by ring, Nat.add_mul_div_right _ _ (by decide)]

theorem tri_mono {l l' : ℕ} (h : l < l') : l * (l + 1) / 2 + (l + 1) ≤ l' * (l' + 1) / 2 := by
  induction l' with
  | zero => omega
  | succ k ih =>
    rw [tri_succ]
    rcases Nat.lt_succ_iff_lt_or_eq.1 h with h | rfl
    · have := ih h
      omega
    · omega

theorem lm2i_inj {l m l' m' : ℕ} (h : m ≤ l) (h' : m' ≤ l') (e : lm2i l m = lm2i l' m') :
    l = l' ∧ m = m' := by
  unfold lm2i at e
  rcases lt_trichotomy l l' with hl | rfl | hl
  · have := tri_mono hl
    omega
  · exact ⟨rfl, by omega⟩
  · have := tri_mono hl
    omega

theorem lm2iNeg_inj {l m l' m' : ℕ} (h : m ≤ l) (h' : m' ≤ l') (e : lm2iNeg l m = lm2iNeg l' m') :
    l = l' ∧ m = m' := by
  unfold lm2iNeg at e
  rcases lt_trichotomy l l' with hl | rfl | hl
  · have := tri_mono hl
    omega
  · exact ⟨rfl, by omega⟩
  · have := tri_mono hl
    omega

theorem put_lm {α : Type} (p : ℕ → α) {l m l' m' : ℕ} (h : m ≤ l) (h' : m' ≤ l') (x : α) :
    put p (lm2i l m) x (lm2i l' m') = if l' = l ∧ m' = m then x else p (lm2i l' m') := by
  unfold put
  by_cases e : lm2i l' m' = lm2i l m
  · rw [if_pos e, if_pos (lm2i_inj h' h e)]
  · rw [if_neg e, if_neg]
    rintro ⟨rfl, rfl⟩
    exact e rfl

theorem put_neg {α : Type} (p : ℕ → α) {l m l' m' : ℕ} (h : m ≤ l) (h' : m' ≤ l') (x : α) :
    put p (lm2iNeg l m) x (lm2iNeg l' m') = if l' = l ∧ m' = m then x else p (lm2iNeg l' m') := by
  unfold put
  by_cases e : lm2iNeg l' m' = lm2iNeg l m
  · rw [if_pos e, if_pos (lm2iNeg_inj h' h e)]
  · rw [if_neg e, if_neg]
    rintro ⟨rfl, rfl⟩
    exact e rfl

/-! ## The loops over the Legendre functions -/

/-- A table that satisfies the three recurrences of the code. -/
structure Recur (t s : ℝ) (F : ℕ → ℕ → ℝ) : Prop where
  diag : ∀ l, 1 ≤ l → F (l + 1) (l + 1) = -√(1.0 + 0.5 / ((l + 1 : ℕ) : ℝ)) * s * F l l
  next : ∀ l, 1 ≤ l → F (l + 1) l = √(2.0 * (((l + 1 : ℕ) : ℝ) - 1.0) + 3.0) * t * F l l
  inner : ∀ l m, m ≤ l → F (l + 2) m =
    √((4.0 * (((l + 2 : ℕ) : ℝ) * ((l + 2 : ℕ) : ℝ)) - 1.0) /
        (((l + 2 : ℕ) : ℝ) * ((l + 2 : ℕ) : ℝ) - (m : ℝ) * m)) *
      (t * F (l + 1) m + -√(((((l + 2 : ℕ) : ℝ) - 1) * (((l + 2 : ℕ) : ℝ) - 1) - (m : ℝ) * m) /
        (4.0 * ((((l + 2 : ℕ) : ℝ) - 1) * (((l + 2 : ℕ) : ℝ) - 1)) - 1.0)) * F l m)

theorem diag_loop {t s : ℝ} {F : ℕ → ℕ → ℝ} (hF : Recur t s F) (p : ℕ → ℝ)
    (hp : ∀ l m, m ≤ l → l ≤ 1 → p (lm2i l m) = F l m) (k : ℕ) :
    ∀ l m, m ≤ l → l ≤ m + 1 → l ≤ k + 1 →
      ((List.range' 2 k).foldl (legDiag t s) p) (lm2i l m) = F l m := by
  induction k with
  | zero => intro l m h1 h2 h3; exact hp l m h1 (by omega)
  | succ k ih =>
    intro l m h1 h2 h3
    rw [List.range'_concat, List.foldl_append, List.foldl_cons, List.foldl_nil]
    generalize (List.range' 2 k).foldl (legDiag t s) p = p' at ih ⊢
    unfold legDiag
    rw [show 2 + 1 * k = (k + 1) + 1 by ring, Nat.add_sub_cancel, put_lm _ (by omega) h1,
      put_lm _ le_rfl h1, put_lm _ le_rfl (le_refl (k + 1))]
    by_cases e1 : l = k + 1 + 1 ∧ m = k + 1
    · obtain ⟨rfl, rfl⟩ := e1
      rw [if_pos ⟨rfl, rfl⟩, if_neg (by omega), ih _ _ le_rfl (by omega) le_rfl, hF.next (k + 1) (by omega)]
    · rw [if_neg e1]
      by_cases e2 : l = k + 1 + 1 ∧ m = k + 1 + 1
      · obtain ⟨rfl, rfl⟩ := e2
        rw [if_pos ⟨rfl, rfl⟩, ih _ _ le_rfl (by omega) le_rfl, hF.diag (k + 1) (by omega)]
      · rw [if_neg e2]
        exact ih l m h1 h2 (by omega)

theorem inner_loop {t s : ℝ} {F : ℕ → ℕ → ℝ} (hF : Recur t s F) (lmax k : ℕ) (p : ℕ → ℝ)
    (hp : ∀ l m, m ≤ l → l ≤ lmax → (l ≤ m + 1 ∨ l ≤ k + 1) → p (lm2i l m) = F l m)
    (hk : k + 2 ≤ lmax) (j : ℕ) (hj : j ≤ k + 1) :
    ∀ l m, m ≤ l → l ≤ lmax → (l ≤ m + 1 ∨ l ≤ k + 1 ∨ (l = k + 2 ∧ m < j)) →
      ((List.range j).foldl (legInner t (k + 2)) p) (lm2i l m) = F l m := by
  induction j with
  | zero =>
    intro l m h1 h2 h3
    exact hp l m h1 h2 (by omega)
  | succ j ih =>
    intro l m h1 h2 h3
    have ih' := ih (by omega)
    rw [List.range_succ, List.foldl_append, List.foldl_cons, List.foldl_nil]
    generalize (List.range j).foldl (legInner t (k + 2)) p = p' at ih' ⊢
    unfold legInner
    rw [show k + 2 - 1 = k + 1 from rfl, show k + 2 - 2 = k from rfl, put_lm _ (by omega) h1]
    by_cases e : l = k + 2 ∧ m = j
    · obtain ⟨rfl, rfl⟩ := e
      rw [if_pos ⟨rfl, rfl⟩, ih' (k + 1) m (by omega) (by omega) (by omega),
        ih' k m (by omega) (by omega) (by omega), hF.inner k m (by omega)]
    · rw [if_neg e]
      exact ih' l m h1 h2 (by omega)

/-- The loops fill the table. -/
theorem legLoops_eq {t s : ℝ} {F : ℕ → ℕ → ℝ} (hF : Recur t s F) (lmax : ℕ) (p : ℕ → ℝ)
    (hp : ∀ l m, m ≤ l → l ≤ 1 → p (lm2i l m) = F l m) (hl : 1 ≤ lmax) :
    ∀ l m, m ≤ l → l ≤ lmax → legLoops lmax t s p (lm2i l m) = F l m := by
  unfold legLoops
  have h1 := diag_loop hF p hp (lmax - 1)
  generalize (List.range' 2 (lmax - 1)).foldl (legDiag t s) p = p' at h1 ⊢
  have key : ∀ k, k + 1 ≤ lmax → ∀ l m, m ≤ l → l ≤ lmax → (l ≤ m + 1 ∨ l ≤ k + 1) →
      ((List.range' 2 k).foldl (fun p l => (List.range (l - 1)).foldl (legInner t l) p) p')
        (lm2i l m) = F l m := by
    intro k
    induction k with
    | zero =>
      intro _ l m a b c
      exact h1 l m a (by omega) (by omega)
    | succ k ih =>
      intro hk l m a b c
      rw [List.range'_concat, List.foldl_append, List.foldl_cons, List.foldl_nil,
        show 2 + 1 * k = k + 2 by ring]
      have := inner_loop hF lmax k _ (ih (by omega)) (by omega) (k + 1) le_rfl l m a b (by omega)
      exact this
  intro l m a b
  exact key (lmax - 1) (by omega) l m a b (by omega)

/-! ## The recurrences hold for the associated Legendre functions -/

/-- `sqrt((2l+1) (l-m)!/(l+m)!)`. -/
noncomputable def nrm (l m : ℕ) : ℝ :=
  √((2 * l + 1) * ((Nat.factorial (l - m) : ℝ) / (Nat.factorial (l + m) : ℝ)))

theorem sqrt_mul_eq {a b d x : ℝ} (ha : 0 ≤ a) (hx : 0 ≤ x) (h : a * b = x * x * d) :
    √a * √b = x * √d := by
  rw [← sqrt_mul ha, h, sqrt_mul (mul_self_nonneg x), sqrt_mul_self hx]

theorem nrm_diag (l : ℕ) (hl : 1 ≤ l) :
    √(1.0 + 0.5 / ((l + 1 : ℕ) : ℝ)) * nrm l l = (2 * l + 1) * nrm (l + 1) (l + 1) := by
  unfold nrm
  apply sqrt_mul_eq (by positivity) (by positivity)
  rw [Nat.sub_self, Nat.sub_self, show l + 1 + (l + 1) = (l + l) + 1 + 1 by ring,
    Nat.factorial_succ (l + l + 1), Nat.factorial_succ (l + l)]
  have : ((l + l).factorial : ℝ) ≠ 0 := by exact_mod_cast Nat.factorial_ne_zero _
  push_cast
  field_simp
  norm_num
  ring

theorem nrm_next (l : ℕ) :
    √(2.0 * (((l + 1 : ℕ) : ℝ) - 1.0) + 3.0) * nrm l l = (2 * l + 1) * nrm (l + 1) l := by
  unfold nrm
  apply sqrt_mul_eq (by push_cast; norm_num; positivity) (by positivity)
  rw [Nat.sub_self, show l + 1 - l = 1 by omega, show l + 1 + l = (l + l) + 1 by ring,
    Nat.factorial_succ (l + l)]
  have : ((l + l).factorial : ℝ) ≠ 0 := by exact_mod_cast Nat.factorial_ne_zero _
  push_cast
  field_simp
  norm_num
  ring

theorem fact_shift (m k : ℕ) :
    (((m + k + 2 - m).factorial : ℕ) : ℝ) = ((k : ℝ) + 2) * (k + 1) * (k.factorial : ℝ) ∧
    (((m + k + 1 - m).factorial : ℕ) : ℝ) = ((k : ℝ) + 1) * (k.factorial : ℝ) ∧
    (((m + k - m).factorial : ℕ) : ℝ) = (k.factorial : ℝ) ∧
    (((m + k + 2 + m).factorial : ℕ) : ℝ) =
      ((2 * m + k : ℕ) + 2) * ((2 * m + k : ℕ) + 1) * ((2 * m + k).factorial : ℝ) ∧
    (((m + k + 1 + m).factorial : ℕ) : ℝ) = ((2 * m + k : ℕ) + 1) * ((2 * m + k).factorial : ℝ) ∧
    (((m + k + m).factorial : ℕ) : ℝ) = ((2 * m + k).factorial : ℝ) := by
  rw [show m + k + 2 - m = k + 1 + 1 by omega, show m + k + 1 - m = k + 1 by omega,
    show m + k - m = k by omega, show m + k + 2 + m = 2 * m + k + 1 + 1 by ring,
    show m + k + 1 + m = 2 * m + k + 1 by ring, show m + k + m = 2 * m + k by ring]
  simp only [Nat.factorial_succ]
  push_cast
  refine ⟨by ring, by ring, trivial, by ring, by ring, trivial⟩

theorem nrm_a (l m : ℕ) (h : m ≤ l) :
    √((4.0 * (((l + 2 : ℕ) : ℝ) * ((l + 2 : ℕ) : ℝ)) - 1.0) /
        (((l + 2 : ℕ) : ℝ) * ((l + 2 : ℕ) : ℝ) - (m : ℝ) * m)) * nrm (l + 1) m =
      (2 * l + 3) / (l + 2 - m) * nrm (l + 2) m := by
  obtain ⟨k, rfl⟩ := Nat.exists_eq_add_of_le h
  obtain ⟨f1, f2, f3, f4, f5, f6⟩ := fact_shift m k
  have hk : (k.factorial : ℝ) ≠ 0 := by exact_mod_cast Nat.factorial_ne_zero _
  have hm : ((2 * m + k).factorial : ℝ) ≠ 0 := by exact_mod_cast Nat.factorial_ne_zero _
  unfold nrm
  have hd : (((m + k : ℕ) : ℝ) + 2 - m) = k + 2 := by push_cast; ring
  rw [hd, f1, f2, f4, f5]
  have e1 : ((m + k + 2 : ℕ) : ℝ) * ((m + k + 2 : ℕ) : ℝ) - (m : ℝ) * m = (k + 2) * (2 * m + k + 2) := by
    push_cast; ring
  have e2 : 4.0 * (((m + k + 2 : ℕ) : ℝ) * ((m + k + 2 : ℕ) : ℝ)) - 1.0 =
      (2 * m + 2 * k + 3) * (2 * m + 2 * k + 5) := by
    push_cast; norm_num; ring
  rw [e1, e2]
  apply sqrt_mul_eq (by positivity) (by positivity)
  push_cast
  field_simp
  ring

theorem nrm_b (l m : ℕ) (h : m ≤ l) :
    √((4.0 * (((l + 2 : ℕ) : ℝ) * ((l + 2 : ℕ) : ℝ)) - 1.0) /
        (((l + 2 : ℕ) : ℝ) * ((l + 2 : ℕ) : ℝ) - (m : ℝ) * m)) *
      √(((((l + 2 : ℕ) : ℝ) - 1) * (((l + 2 : ℕ) : ℝ) - 1) - (m : ℝ) * m) /
        (4.0 * ((((l + 2 : ℕ) : ℝ) - 1) * (((l + 2 : ℕ) : ℝ) - 1)) - 1.0)) * nrm l m =
      (l + 1 + m) / (l + 2 - m) * nrm (l + 2) m := by
  obtain ⟨k, rfl⟩ := Nat.exists_eq_add_of_le h
  obtain ⟨f1, f2, f3, f4, f5, f6⟩ := fact_shift m k
  have hk : (k.factorial : ℝ) ≠ 0 := by exact_mod_cast Nat.factorial_ne_zero _
  have hm : ((2 * m + k).factorial : ℝ) ≠ 0 := by exact_mod_cast Nat.factorial_ne_zero _
  unfold nrm
  have hd : (((m + k : ℕ) : ℝ) + 2 - m) = k + 2 := by push_cast; ring
  rw [hd, f1, f3, f4, f6]
  have e1 : ((m + k + 2 : ℕ) : ℝ) * ((m + k + 2 : ℕ) : ℝ) - (m : ℝ) * m = (k + 2) * (2 * m + k + 2) := by
    push_cast; ring
  have e2 : 4.0 * (((m + k + 2 : ℕ) : ℝ) * ((m + k + 2 : ℕ) : ℝ)) - 1.0 =
      (2 * m + 2 * k + 3) * (2 * m + 2 * k + 5) := by
    push_cast; norm_num; ring
  have e3 : (((m + k + 2 : ℕ) : ℝ) - 1) * (((m + k + 2 : ℕ) : ℝ) - 1) - (m : ℝ) * m =
      (k + 1) * (2 * m + k + 1) := by
    push_cast; ring
  have e4 : 4.0 * ((((m + k + 2 : ℕ) : ℝ) - 1) * (((m + k + 2 : ℕ) : ℝ) - 1)) - 1.0 =
      (2 * m + 2 * k + 1) * (2 * m + 2 * k + 3) := by
    push_cast; norm_num; ring
  rw [e1, e2, e3, e4, ← sqrt_mul (by positivity)]
  apply sqrt_mul_eq (by positivity) (by positivity)
  push_cast
  field_simp
  ring

theorem legD_diag (l : ℕ) (t : ℝ) : legendreD (l + 1) (l + 1) t = (2 * l + 1) * legendreD l l t := by
  rw [legendreD_up, legendreD_zero (Nat.lt_succ_self l)]
  ring

theorem legD_next (l : ℕ) (t : ℝ) : legendreD (l + 1) l t = (2 * l + 1) * t * legendreD l l t := by
  cases l with
  | zero =>
    simp [legendreD, legendre]
  | succ l =>
    have h := legendreD_three l (l + 1) t
    rw [legendreD_zero (Nat.lt_succ_self l)] at h
    push_cast at h ⊢
    linear_combination h

/-- `(-1)^m c sqrt(..) s^m P_l^(m)(t)`: what `p` holds. -/
noncomputable def plm (t s : ℝ) (l m : ℕ) : ℝ := (-1) ^ m * sqrtInv2Pi * nrm l m * s ^ m * legendreD l m t

/-- What `q` holds: `p` divided by `s`, and zero for `m = 0`. -/
noncomputable def qlm (t s : ℝ) (l m : ℕ) : ℝ :=
  if m = 0 then 0 else (-1) ^ m * sqrtInv2Pi * nrm l m * s ^ (m - 1) * legendreD l m t

theorem plm_recur (t s : ℝ) : Recur t s (plm t s) := by
  refine ⟨fun l hl => ?_, fun l _ => ?_, fun l m h => ?_⟩
  · have h1 := nrm_diag l hl
    have h2 := legD_diag l t
    unfold plm
    rw [h2]
    generalize √(1.0 + 0.5 / ((l + 1 : ℕ) : ℝ)) = a at h1 ⊢
    linear_combination (-1) ^ l * sqrtInv2Pi * s ^ (l + 1) * legendreD l l t * h1
  · have h1 := nrm_next l
    have h2 := legD_next l t
    unfold plm
    rw [h2]
    generalize √(2.0 * (((l + 1 : ℕ) : ℝ) - 1.0) + 3.0) = a at h1 ⊢
    linear_combination (-1) * ((-1) ^ l * sqrtInv2Pi * s ^ l * t * legendreD l l t) * h1
  · have h1 := nrm_a l m h
    have h2 := nrm_b l m h
    have h3 := legendreD_three l m t
    have h4 : (l : ℝ) + 2 - m ≠ 0 := by
      have : (m : ℝ) ≤ l := by exact_mod_cast h
      intro e
      linarith
    have h5 : legendreD (l + 2) m t = ((2 * (l : ℝ) + 3) * t * legendreD (l + 1) m t -
        ((l : ℝ) + 1 + m) * legendreD l m t) / (l + 2 - m) := by
      rw [eq_div_iff h4, ← h3]
      ring
    unfold plm
    rw [h5]
    generalize √((4.0 * (((l + 2 : ℕ) : ℝ) * ((l + 2 : ℕ) : ℝ)) - 1.0) /
        (((l + 2 : ℕ) : ℝ) * ((l + 2 : ℕ) : ℝ) - (m : ℝ) * m)) = a at h1 h2 ⊢
    generalize √(((((l + 2 : ℕ) : ℝ) - 1) * (((l + 2 : ℕ) : ℝ) - 1) - (m : ℝ) * m) /
        (4.0 * ((((l + 2 : ℕ) : ℝ) - 1) * (((l + 2 : ℕ) : ℝ) - 1)) - 1.0)) = b at h2 ⊢
    linear_combination (-1) * ((-1) ^ m * sqrtInv2Pi * s ^ m * t * legendreD (l + 1) m t) * h1 +
      ((-1) ^ m * sqrtInv2Pi * s ^ m * legendreD l m t) * h2

theorem qlm_recur (t s : ℝ) : Recur t s (qlm t s) := by
  refine ⟨fun l hl => ?_, fun l hl => ?_, fun l m h => ?_⟩
  · have h1 := nrm_diag l hl
    have h2 := legD_diag l t
    unfold qlm
    rw [h2, if_neg (by omega), if_neg (by omega)]
    obtain ⟨j, rfl⟩ := Nat.exists_eq_add_of_le hl
    rw [show 1 + j + 1 - 1 = j + 1 by omega, show 1 + j - 1 = j by omega]
    generalize √(1.0 + 0.5 / ((1 + j + 1 : ℕ) : ℝ)) = a at h1 ⊢
    linear_combination (-1) ^ (1 + j) * sqrtInv2Pi * s ^ (j + 1) * legendreD (1 + j) (1 + j) t * h1
  · have h1 := nrm_next l
    have h2 := legD_next l t
    unfold qlm
    rw [h2, if_neg (by omega), if_neg (by omega)]
    generalize √(2.0 * (((l + 1 : ℕ) : ℝ) - 1.0) + 3.0) = a at h1 ⊢
    linear_combination (-1) * ((-1) ^ l * sqrtInv2Pi * s ^ (l - 1) * t * legendreD l l t) * h1
  · by_cases hm : m = 0
    · subst hm
      simp [qlm]
    have h1 := nrm_a l m h
    have h2 := nrm_b l m h
    have h3 := legendreD_three l m t
    have h4 : (l : ℝ) + 2 - m ≠ 0 := by
      have : (m : ℝ) ≤ l := by exact_mod_cast h
      intro e
      linarith
    have h5 : legendreD (l + 2) m t = ((2 * (l : ℝ) + 3) * t * legendreD (l + 1) m t -
        ((l : ℝ) + 1 + m) * legendreD l m t) / (l + 2 - m) := by
      rw [eq_div_iff h4, ← h3]
      ring
    unfold qlm
    rw [h5, if_neg hm, if_neg hm, if_neg hm]
    generalize √((4.0 * (((l + 2 : ℕ) : ℝ) * ((l + 2 : ℕ) : ℝ)) - 1.0) /
        (((l + 2 : ℕ) : ℝ) * ((l + 2 : ℕ) : ℝ) - (m : ℝ) * m)) = a at h1 h2 ⊢
    generalize √(((((l + 2 : ℕ) : ℝ) - 1) * (((l + 2 : ℕ) : ℝ) - 1) - (m : ℝ) * m) /
        (4.0 * ((((l + 2 : ℕ) : ℝ) - 1) * (((l + 2 : ℕ) : ℝ) - 1)) - 1.0)) = b at h2 ⊢
    linear_combination (-1) * ((-1) ^ m * sqrtInv2Pi * s ^ (m - 1) * t * legendreD (l + 1) m t) * h1 +
      ((-1) ^ m * sqrtInv2Pi * s ^ (m - 1) * legendreD l m t) * h2

theorem nrm_zero (l : ℕ) : nrm l 0 = √(2 * l + 1) := by
  unfold nrm
  rw [Nat.sub_zero, Nat.add_zero, div_self (by exact_mod_cast Nat.factorial_ne_zero _), mul_one]

theorem nrm_one : nrm 1 1 = √(3 / 2) := by
  unfold nrm
  congr 1
  norm_num [Nat.factorial]

theorem lm_le_one {l m : ℕ} (h : m ≤ l) (h1 : l ≤ 1) :
    (l = 0 ∧ m = 0) ∨ (l = 1 ∧ m = 0) ∨ (l = 1 ∧ m = 1) := by omega

theorem legP_eq (lmax : ℕ) (t : ℝ) (l m : ℕ) (h : m ≤ l) (hl : l ≤ lmax) :
    legP lmax t (lm2i l m) = plm t √(1.0 - t * t) l m := by
  unfold legP
  by_cases h0 : lmax = 0
  · subst h0
    obtain ⟨rfl, rfl⟩ : l = 0 ∧ m = 0 := by omega
    rw [if_pos rfl]
    simp [plm, nrm, legendreD, legendre, put, lm2i]
  · rw [if_neg h0]
    refine legLoops_eq (plm_recur t _) lmax _ ?_ (by omega) l m h hl
    intro l m h h1
    rw [put_lm _ le_rfl h, put_lm _ (by decide) h, put_lm _ le_rfl h]
    rcases lm_le_one h h1 with ⟨rfl, rfl⟩ | ⟨rfl, rfl⟩ | ⟨rfl, rfl⟩
    · simp [plm, nrm, legendreD, legendre]
    · simp [plm, nrm_zero, legendreD, legendre]
      norm_num
      ring
    · simp [plm, nrm_one, legendreD, legendre]
      ring

theorem legQ_eq (lmax : ℕ) (t : ℝ) (l m : ℕ) (h : m ≤ l) (hl : l ≤ lmax) :
    legQ lmax t (lm2i l m) = qlm t √(1.0 - t * t) l m := by
  unfold legQ
  by_cases h0 : lmax = 0
  · subst h0
    obtain ⟨rfl, rfl⟩ : l = 0 ∧ m = 0 := by omega
    rw [if_pos rfl]
    simp [qlm, put, lm2i]
    norm_num
  · rw [if_neg h0]
    refine legLoops_eq (qlm_recur t _) lmax _ ?_ (by omega) l m h hl
    intro l m h h1
    rw [put_lm _ le_rfl h, put_lm _ (by decide) h, put_lm _ le_rfl h]
    rcases lm_le_one h h1 with ⟨rfl, rfl⟩ | ⟨rfl, rfl⟩ | ⟨rfl, rfl⟩
    · simp [qlm]
      norm_num
    · simp [qlm]
      norm_num
    · simp [qlm, nrm_one, legendreD, legendre]
      ring

/-! ## The loops over `m` and `l` -/

section
variable {σ β : Type} (f : σ → ℕ → β)

theorem row_loop (g : σ → ℕ → σ) (mp : ℕ) (v : ℕ → β)
    (hg : ∀ o l, f (g o l) = put (f o) (lm2iNeg l mp) (v l)) (L : List ℕ) (hL : ∀ l ∈ L, mp ≤ l) (o : σ)
    (l m : ℕ) (h : m ≤ l) :
    f (L.foldl g o) (lm2iNeg l m) = if m = mp ∧ l ∈ L then v l else f o (lm2iNeg l m) := by
  induction L generalizing o with
  | nil => simp
  | cons a L ih =>
    rw [List.foldl_cons, ih (fun l hl => hL l (List.mem_cons_of_mem _ hl)), hg,
      put_neg _ (hL a List.mem_cons_self) h]
    by_cases e1 : m = mp ∧ l ∈ L
    · rw [if_pos e1, if_pos ⟨e1.1, List.mem_cons_of_mem _ e1.2⟩]
    · rw [if_neg e1]
      by_cases e2 : l = a ∧ m = mp
      · rw [if_pos e2, if_pos ⟨e2.2, by rw [e2.1]; exact List.mem_cons_self⟩, e2.1]
      · rw [if_neg e2, if_neg]
        rintro ⟨e3, e4⟩
        rcases List.mem_cons.1 e4 with e4 | e4
        · exact e2 ⟨e4, e3⟩
        · exact e1 ⟨e3, e4⟩

theorem loops_get (z : σ → ℕ → σ) (g : Azim → ℕ → σ → ℕ → σ) (vz : ℕ → β) (vg : Azim → ℕ → ℕ → β)
    (hz : ∀ o l, f (z o l) = put (f o) (lm2iNeg l 0) (vz l))
    (hg : ∀ a mp o l, f (g a mp o l) = put (f o) (lm2iNeg l mp) (vg a mp l))
    (o0 : σ) (lmax : ℕ) (step flip : Azim → Azim) (s0 : Azim) (l m : ℕ) (h : m ≤ l) (hl : l ≤ lmax) :
    f ((List.range' 1 lmax).foldl
      (fun (s : Azim × σ) mp => (flip (step s.1),
        (List.range' mp (lmax + 1 - mp)).foldl (g (step s.1) mp) s.2))
      (s0, (List.range (lmax + 1)).foldl z o0)).2 (lm2iNeg l m) =
    if m = 0 then vz l else vg (step ((flip ∘ step)^[m - 1] s0)) m l := by
  have key : ∀ k, k ≤ lmax → ∀ S, S = (List.range' 1 k).foldl
      (fun (s : Azim × σ) mp => (flip (step s.1),
        (List.range' mp (lmax + 1 - mp)).foldl (g (step s.1) mp) s.2))
      (s0, (List.range (lmax + 1)).foldl z o0) →
      S.1 = (flip ∘ step)^[k] s0 ∧ ∀ l m, m ≤ l → l ≤ lmax → m ≤ k →
        f S.2 (lm2iNeg l m) = if m = 0 then vz l else vg (step ((flip ∘ step)^[m - 1] s0)) m l := by
    intro k
    induction k with
    | zero =>
      rintro _ S rfl
      refine ⟨rfl, fun l m h1 h2 h3 => ?_⟩
      obtain rfl : m = 0 := by omega
      rw [if_pos rfl, List.range'_zero, List.foldl_nil,
        row_loop f z 0 vz hz _ (fun _ _ => Nat.zero_le _) o0 l 0 h1,
        if_pos ⟨rfl, List.mem_range.2 (by omega)⟩]
    | succ k ih =>
      rintro hk S rfl
      obtain ⟨i1, i2⟩ := ih (by omega) _ rfl
      rw [List.range'_concat, List.foldl_append, List.foldl_cons, List.foldl_nil]
      generalize (List.range' 1 k).foldl
        (fun (s : Azim × σ) mp => (flip (step s.1),
          (List.range' mp (lmax + 1 - mp)).foldl (g (step s.1) mp) s.2))
        (s0, (List.range (lmax + 1)).foldl z o0) = T at i1 i2 ⊢
      refine ⟨?_, fun l m h1 h2 h3 => ?_⟩
      · rw [Function.iterate_succ_apply', ← i1]
        rfl
      · show f ((List.range' (1 + 1 * k) (lmax + 1 - (1 + 1 * k))).foldl (g (step T.1) (1 + 1 * k)) T.2)
          (lm2iNeg l m) = _
        rw [row_loop f (g (step T.1) (1 + 1 * k)) (1 + 1 * k) _ (hg _ _) _
          (fun l hl => (List.mem_range'_1.1 hl).1) T.2 l m h1]
        by_cases e : m = 1 + 1 * k
        · rw [if_pos ⟨e, List.mem_range'_1.2 (by omega)⟩, if_neg (by omega), i1, e]
          rw [show 1 + 1 * k - 1 = k by omega]
        · rw [if_neg (by tauto)]
          exact i2 l m h1 h2 (by omega)
  exact (key lmax le_rfl _ rfl).2 l m h hl (by omega)

end

/-! ## The azimuth -/

/-- The complex number of a pair. -/
def toC (a : Cx ℝ) : ℂ := ⟨a.re, a.im⟩

theorem azim_iter (c s : ℝ) (hcs : c * c + s * s = 1) (k : ℕ) :
    let a := (Azim.flip ∘ Azim.step (2.0 * c))^[k] (Azim.start c s)
    (⟨a.c1, a.s1⟩ : ℂ) = (⟨c, s⟩ : ℂ) ^ k ∧
    (⟨a.c2, a.s2⟩ : ℂ) = (⟨c, s⟩ : ℂ) ^ k * ⟨c, -s⟩ ∧ a.sign = (-1) ^ (k + 1) := by
  induction k with
  | zero =>
    refine ⟨?_, ?_, ?_⟩
    · apply Complex.ext <;> simp [Azim.start] <;> norm_num
    · apply Complex.ext <;> simp [Azim.start]
    · simp [Azim.start]
  | succ k ih =>
    obtain ⟨h1, h2, h3⟩ := ih
    rw [Function.iterate_succ_apply']
    generalize (Azim.flip ∘ Azim.step (2.0 * c))^[k] (Azim.start c s) = b at h1 h2 h3 ⊢
    intro a
    have hw : (⟨c, s⟩ : ℂ) * ⟨c, -s⟩ = 1 := by
      apply Complex.ext
      · simp; linarith
      · simp; ring
    refine ⟨?_, ?_, ?_⟩
    · have : (⟨a.c1, a.s1⟩ : ℂ) = (2 * c : ℝ) * ⟨b.c1, b.s1⟩ - ⟨b.c2, b.s2⟩ := by
        apply Complex.ext <;> simp [a, Azim.flip, Azim.step] <;> norm_num
      rw [this, h1, h2, pow_succ, mul_comm, ← mul_sub]
      congr 1
      apply Complex.ext <;> simp <;> ring
    · have : (⟨a.c2, a.s2⟩ : ℂ) = ⟨b.c1, b.s1⟩ := rfl
      rw [this, h1, pow_succ, mul_assoc, hw, mul_one]
    · have : a.sign = b.sign * -1 := rfl
      rw [this, h3, pow_succ (-1 : ℝ) (k + 1)]

theorem azim_at (c s : ℝ) (hcs : c * c + s * s = 1) (m : ℕ) (hm : m ≠ 0) :
    let a := Azim.step (2.0 * c) ((Azim.flip ∘ Azim.step (2.0 * c))^[m - 1] (Azim.start c s))
    (⟨a.c1, a.s1⟩ : ℂ) = (⟨c, s⟩ : ℂ) ^ m ∧ a.sign = (-1) ^ m := by
  obtain ⟨k, rfl⟩ := Nat.exists_eq_succ_of_ne_zero hm
  intro a
  have h := azim_iter c s hcs (k + 1)
  rw [Function.iterate_succ_apply'] at h
  obtain ⟨h1, -, h3⟩ := h
  refine ⟨h1, ?_⟩
  have h4 : a.sign * -1 = (-1) ^ (k + 1 + 1) := h3
  rw [pow_succ] at h4
  exact mul_right_cancel₀ (by norm_num) h4

/-! ## Closed forms -/

/-- `0.5 * sqrt(2) * sqrt_inv_2pi * nrm` is the normalisation of the textbook. -/
theorem norm_eq (l m : ℕ) : sqrtInv2Pi * 0.5 * √2 * nrm l m = Verif.Spec.Ylm.norm l m := by
  have h : (sqrtInv2Pi * 0.5 * √2) = √(1 / (4 * π)) := by
    unfold sqrtInv2Pi
    rw [show (0.5 : ℝ) / π = 2 / (4 * π) by field_simp; norm_num, show (1 : ℝ) / (4 * π) = (2 / (4 * π)) * (1 / 2) by field_simp,
      sqrt_mul (by positivity), mul_assoc]
    congr 1
    rw [show (1 / 2 : ℝ) = (0.5 * 0.5) * 2 by norm_num, sqrt_mul (by norm_num), sqrt_mul_self (by norm_num)]
  rw [h]
  unfold nrm Verif.Spec.Ylm.norm
  rw [← sqrt_mul (by positivity)]
  congr 1
  ring

theorem toC_smul (a : ℝ) (b : Cx ℝ) : toC (Cx.smul a b) = a * toC b := by
  apply Complex.ext <;> simp [toC]

theorem toC_mul (a b : Cx ℝ) : toC (a * b) = toC a * toC b := by
  apply Complex.ext <;> simp [toC]

theorem toC_add (a b : Cx ℝ) : toC (a + b) = toC a + toC b := by
  apply Complex.ext <;> simp [toC]

theorem toC_sub (a b : Cx ℝ) : toC (a - b) = toC a - toC b := by
  apply Complex.ext <;> simp [toC]

theorem toC_neg (a : Cx ℝ) : toC (-a) = -toC a := by
  apply Complex.ext <;> simp [toC]

theorem toC_conj (a : Cx ℝ) : toC (Cx.conj a) = (starRingEnd ℂ) (toC a) := by
  apply Complex.ext <;> simp [toC]

/-- The value of `compute_ylm` at `(l, -m)`. -/
theorem computeYlm_eq (lmax : ℕ) (t c s : ℝ) (hcs : c * c + s * s = 1) (l m : ℕ) (h : m ≤ l) (hl : l ≤ lmax) :
    toC (computeYlm lmax t c s (lm2iNeg l m)) =
      (Verif.Spec.Ylm.norm l m * √(1.0 - t * t) ^ m * legendreD l m t : ℝ) * (⟨c, -s⟩ : ℂ) ^ m := by
  have key := loops_get (fun o : ℕ → Cx ℝ => o)
    (fun y l => put y (lm2iNeg l 0) ⟨legP lmax t (lm2i l 0) * 0.5 * √2, 0⟩)
    (fun a mp y l => put y (lm2iNeg l mp)
      (Cx.smul (a.sign * legP lmax t (lm2i l mp) * 0.5 * √2) ⟨a.c1, -a.s1⟩))
    (fun l => ⟨legP lmax t (lm2i l 0) * 0.5 * √2, 0⟩)
    (fun a mp l => Cx.smul (a.sign * legP lmax t (lm2i l mp) * 0.5 * √2) ⟨a.c1, -a.s1⟩)
    (fun _ _ => rfl) (fun _ _ _ _ => rfl) (fun _ => 0) lmax (Azim.step (2.0 * c)) Azim.flip
    (Azim.start c s) l m h hl
  have e : computeYlm lmax t c s (lm2iNeg l m) = _ := key
  rw [e, legP_eq lmax t l m h hl]
  by_cases hm : m = 0
  · subst hm
    rw [if_pos rfl, legP_eq lmax t l 0 h hl, ← norm_eq]
    apply Complex.ext <;> simp [toC, plm]
    ring
  · rw [if_neg hm]
    obtain ⟨h1, h2⟩ := azim_at c s hcs m hm
    generalize Azim.step (2.0 * c) ((Azim.flip ∘ Azim.step (2.0 * c))^[m - 1] (Azim.start c s)) = a at h1 h2 ⊢
    rw [toC_smul, h2]
    have h3 : toC ⟨a.c1, -a.s1⟩ = (⟨c, -s⟩ : ℂ) ^ m := by
      have := congrArg (starRingEnd ℂ) h1
      rw [map_pow] at this
      exact this
    rw [h3, ← norm_eq]
    congr 2
    unfold plm
    have : ((-1 : ℝ) ^ m) * (-1) ^ m = 1 := by rw [← mul_pow]; norm_num
    linear_combination (sqrtInv2Pi * nrm l m * √(1.0 - t * t) ^ m * legendreD l m t * 0.5 * √2) * this

theorem nrm_up (l m : ℕ) (h : m < l) : √(((l : ℝ) - m) * (l + m + 1)) * nrm l (m + 1) = nrm l m := by
  obtain ⟨k, rfl⟩ := Nat.exists_eq_add_of_lt h
  unfold nrm
  have hk : (k.factorial : ℝ) ≠ 0 := by exact_mod_cast Nat.factorial_ne_zero _
  have hm : ((m + k + 1 + m).factorial : ℝ) ≠ 0 := by exact_mod_cast Nat.factorial_ne_zero _
  rw [show m + k + 1 - (m + 1) = k by omega, show m + k + 1 - m = k + 1 by omega,
    show m + k + 1 + (m + 1) = m + k + 1 + m + 1 by ring, Nat.factorial_succ (m + k + 1 + m),
    Nat.factorial_succ k, show ((m + k + 1 : ℕ) : ℝ) - m = k + 1 by push_cast; ring,
    ← sqrt_mul (by positivity)]
  congr 1
  push_cast
  field_simp

theorem nrm_up_zero (l : ℕ) (h : 0 < l) : √(0.5 * l * (l + 1)) * nrm l 1 = 0.5 * √2 * nrm l 0 := by
  rw [← nrm_up l 0 h]
  have : √(0.5 * (l : ℝ) * (l + 1)) = 0.5 * √2 * √(((l : ℝ) - (0 : ℕ)) * (l + (0 : ℕ) + 1)) := by
    rw [show 0.5 * (l : ℝ) * (l + 1) = (0.5 * 0.5) * 2 * (((l : ℝ) - (0 : ℕ)) * (l + (0 : ℕ) + 1)) by
      push_cast; norm_num; ring, sqrt_mul (by norm_num), sqrt_mul (by norm_num), sqrt_mul_self (by norm_num)]
  rw [this, mul_assoc]

/-- `dtheta` of the loop. -/
theorem dtheta_eq (t s : ℝ) (l m : ℕ) (h : m ≤ l) (hm : m ≠ 0) :
    (if m ≠ l then (m : ℝ) * t * qlm t s l m +
        √(((l : ℝ) - m) * (l + m + 1)) * qlm t s l (m + 1) * s else (m : ℝ) * t * qlm t s l m) =
      (-1) ^ m * sqrtInv2Pi * nrm l m * s ^ (m - 1) *
        (m * t * legendreD l m t - s * s * legendreD l (m + 1) t) := by
  obtain ⟨k, rfl⟩ := Nat.exists_eq_succ_of_ne_zero hm
  by_cases e : k.succ = l
  · rw [if_neg (by simpa using e), ← e, legendreD_zero (Nat.lt_succ_self _)]
    unfold qlm
    rw [if_neg hm]
    ring
  · rw [if_pos e]
    have h1 := nrm_up l k.succ (by omega)
    unfold qlm
    rw [if_neg hm, if_neg (by omega)]
    rw [show k.succ + 1 - 1 = k + 1 from rfl, show k.succ - 1 = k from rfl]
    generalize √(((l : ℝ) - k.succ) * (l + k.succ + 1)) = a at h1 ⊢
    generalize legendreD l (k.succ + 1) t = u'
    linear_combination (-1) * ((-1) ^ k.succ * sqrtInv2Pi * s ^ (k + 1) * u' * s) * h1

/-- The derivatives of `compute_ylm_der` at `(l, 0)`. -/
theorem computeYlmDer_zero (lmax : ℕ) (t c s r : ℝ) (l : ℕ) (hl : l ≤ lmax) :
    let o := computeYlmDer lmax t c s r
    let k := Verif.Spec.Ylm.norm l 0 * legendreD l 1 t / r
    let sT := √(1.0 - t * t)
    toC (o.y (lm2iNeg l 0)) = (Verif.Spec.Ylm.norm l 0 * legendreD l 0 t : ℝ) ∧
    toC (o.dx (lm2iNeg l 0)) = (-k * sT * t * c : ℝ) ∧
    toC (o.dy (lm2iNeg l 0)) = (-k * sT * t * s : ℝ) ∧
    toC (o.dz (lm2iNeg l 0)) = (k * sT * sT : ℝ) := by
  intro o k sT
  have hc : legQ lmax t (lm2i l 1) * √(1.0 - t * t) * (1.0 / r) * √(0.5 * l * (l + 1)) = -k * sT := by
    show _ = -(Verif.Spec.Ylm.norm l 0 * legendreD l 1 t / r) * √(1.0 - t * t)
    by_cases h0 : l = 0
    · subst h0
      rw [legendreD_zero (by decide)]
      simp
    · have h1 := nrm_up_zero l (by omega)
      rw [legQ_eq lmax t l 1 (by omega) hl, ← norm_eq]
      unfold qlm
      rw [if_neg (by decide), Nat.sub_self]
      generalize √(0.5 * (l : ℝ) * (l + 1)) = a at h1 ⊢
      rw [show (1.0 : ℝ) / r = r⁻¹ by norm_num, div_eq_mul_inv]
      linear_combination (-1) * (sqrtInv2Pi * legendreD l 1 t * √(1.0 - t * t) * r⁻¹) * h1
  have G : ∀ (β : Type) (f : Ylm → ℕ → β) (vz : ℕ → β) (vg : Azim → ℕ → ℕ → β),
      (∀ o l, f (ylmZero (legP lmax t) (legQ lmax t) t √(1.0 - t * t) c s (1.0 / r) o l) =
        put (f o) (lm2iNeg l 0) (vz l)) →
      (∀ a mp o l, f (ylmNeg (legP lmax t) (legQ lmax t) t √(1.0 - t * t) c s (1.0 / r) a mp o l) =
        put (f o) (lm2iNeg l mp) (vg a mp l)) →
      f o (lm2iNeg l 0) = vz l := by
    intro β f vz vg h1 h2
    exact loops_get f _ _ vz vg h1 h2 _ lmax (Azim.step (2.0 * c)) Azim.flip (Azim.start c s) l 0
      (Nat.zero_le _) hl
  refine ⟨?_, ?_, ?_, ?_⟩
  · rw [G _ Ylm.y _ _ (fun _ _ => rfl) (fun _ _ _ _ => rfl), legP_eq lmax t l 0 (Nat.zero_le _) hl, ← norm_eq]
    apply Complex.ext <;> simp [toC, plm]
    ring
  · rw [G _ Ylm.dx _ _ (fun _ _ => rfl) (fun _ _ _ _ => rfl), hc]
    apply Complex.ext <;> simp [toC]
  · rw [G _ Ylm.dy _ _ (fun _ _ => rfl) (fun _ _ _ _ => rfl), hc]
    apply Complex.ext <;> simp [toC]
  · rw [G _ Ylm.dz _ _ (fun _ _ => rfl) (fun _ _ _ _ => rfl), hc]
    apply Complex.ext <;> simp [toC, sT]

/-- The derivatives of `compute_ylm_der` at `(l, -m)`, `1 ≤ m`. -/
theorem computeYlmDer_neg (lmax : ℕ) (t c s r : ℝ) (hcs : c * c + s * s = 1) (l m : ℕ) (h : m ≤ l)
    (hl : l ≤ lmax) (hm : m ≠ 0) :
    let o := computeYlmDer lmax t c s r
    let sT := √(1.0 - t * t)
    let u := legendreD l m t
    let d := m * t * u - sT * sT * legendreD l (m + 1) t
    let k : ℂ := (Verif.Spec.Ylm.norm l m / r * sT ^ (m - 1) : ℝ) * (⟨c, -s⟩ : ℂ) ^ m
    toC (o.y (lm2iNeg l m)) =
      (Verif.Spec.Ylm.norm l m * √(1.0 - t * t) ^ m * legendreD l m t : ℝ) * (⟨c, -s⟩ : ℂ) ^ m ∧
    toC (o.dx (lm2iNeg l m)) = k * ⟨d * t * c, m * u * s⟩ ∧
    toC (o.dy (lm2iNeg l m)) = k * ⟨d * t * s, -(m * u * c)⟩ ∧
    toC (o.dz (lm2iNeg l m)) = k * (-(sT * d) : ℝ) := by
  intro o sT u d k
  have G : ∀ (β : Type) (f : Ylm → ℕ → β) (vz : ℕ → β) (vg : Azim → ℕ → ℕ → β),
      (∀ o l, f (ylmZero (legP lmax t) (legQ lmax t) t √(1.0 - t * t) c s (1.0 / r) o l) =
        put (f o) (lm2iNeg l 0) (vz l)) →
      (∀ a mp o l, f (ylmNeg (legP lmax t) (legQ lmax t) t √(1.0 - t * t) c s (1.0 / r) a mp o l) =
        put (f o) (lm2iNeg l mp) (vg a mp l)) →
      f o (lm2iNeg l m) = vg (Azim.step (2.0 * c)
        ((Azim.flip ∘ Azim.step (2.0 * c))^[m - 1] (Azim.start c s))) m l := by
    intro β f vz vg h1 h2
    have := loops_get f _ _ vz vg h1 h2 ⟨fun _ => 0, fun _ => 0, fun _ => 0, fun _ => 0⟩ lmax
      (Azim.step (2.0 * c)) Azim.flip (Azim.start c s) l m h hl
    rw [if_neg hm] at this
    exact this
  have gy := G _ Ylm.y _ _ (fun _ _ => rfl) (fun _ _ _ _ => rfl)
  have gx := G _ Ylm.dx _ _ (fun _ _ => rfl) (fun _ _ _ _ => rfl)
  have gz := G _ Ylm.dz _ _ (fun _ _ => rfl) (fun _ _ _ _ => rfl)
  have gw := G _ Ylm.dy _ _ (fun _ _ => rfl) (fun _ _ _ _ => rfl)
  obtain ⟨h1, h2⟩ := azim_at c s hcs m hm
  generalize Azim.step (2.0 * c) ((Azim.flip ∘ Azim.step (2.0 * c))^[m - 1] (Azim.start c s)) = a at *
  have h3 : (⟨a.c1, -a.s1⟩ : ℂ) = (⟨c, -s⟩ : ℂ) ^ m := by
    have := congrArg (starRingEnd ℂ) h1
    rw [map_pow] at this
    exact this
  have hs : ((-1 : ℝ) ^ m) * (-1) ^ m = 1 := by rw [← mul_pow]; norm_num
  have hq := legQ_eq lmax t l m h hl
  have hdt : (if m ≠ l then (m : ℝ) * t * legQ lmax t (lm2i l m) +
        √(((l : ℝ) - m) * (l + m + 1)) * legQ lmax t (lm2i l (m + 1)) * √(1.0 - t * t)
      else (m : ℝ) * t * legQ lmax t (lm2i l m)) =
      (-1) ^ m * sqrtInv2Pi * nrm l m * sT ^ (m - 1) * d := by
    rw [← dtheta_eq t sT l m h hm, hq]
    by_cases e : m = l
    · rw [if_neg (by simpa using e), if_neg (by simpa using e)]
    · rw [if_pos e, if_pos e, legQ_eq lmax t l (m + 1) (by omega) hl]
  have hq2 : qlm t √(1.0 - t * t) l m = (-1) ^ m * sqrtInv2Pi * nrm l m * sT ^ (m - 1) * u := by
    unfold qlm
    rw [if_neg hm]
  rw [hdt, hq, hq2] at gx gw
  rw [hdt] at gz
  have hn := norm_eq l m
  have hk : k = (sqrtInv2Pi * 0.5 * √2 * nrm l m / r * sT ^ (m - 1) : ℝ) * ⟨a.c1, -a.s1⟩ := by
    rw [h3, hn]
  rw [show (1.0 : ℝ) / r = r⁻¹ by norm_num] at gx gw gz
  refine ⟨?_, ?_, ?_, ?_⟩
  · rw [gy, legP_eq lmax t l m h hl, toC_smul, h2]
    show _ * (⟨a.c1, -a.s1⟩ : ℂ) = _
    rw [h3, ← norm_eq]
    congr 2
    unfold plm
    linear_combination (sqrtInv2Pi * nrm l m * √(1.0 - t * t) ^ m * legendreD l m t * 0.5 * √2) * hs
  · rw [gx, hk, h2]
    clear_value d u sT
    generalize sT ^ (m - 1) = S
    generalize (-1 : ℝ) ^ m = e at hs
    apply Complex.ext
    · simp [toC]
      norm_num
      linear_combination (sqrtInv2Pi * (1 / 2) * √2 * nrm l m * r⁻¹ * S * (a.c1 * (d * t * c) + a.s1 * (m * u * s))) * hs
    · simp [toC]
      norm_num
      linear_combination (sqrtInv2Pi * (1 / 2) * √2 * nrm l m * r⁻¹ * S * (a.c1 * (m * u * s) - a.s1 * (d * t * c))) * hs
  · rw [gw, hk, h2]
    clear_value d u sT
    generalize sT ^ (m - 1) = S
    generalize (-1 : ℝ) ^ m = e at hs
    apply Complex.ext
    · simp [toC]
      norm_num
      linear_combination (sqrtInv2Pi * (1 / 2) * √2 * nrm l m * r⁻¹ * S * (a.c1 * (d * t * s) - a.s1 * (m * u * c))) * hs
    · simp [toC]
      norm_num
      linear_combination (sqrtInv2Pi * (1 / 2) * √2 * nrm l m * r⁻¹ * S * (-a.c1 * (m * u * c) - a.s1 * (d * t * s))) * hs
  · rw [gz, hk, h2, show √(1.0 - t * t) = sT from rfl]
    clear_value d u sT
    generalize sT ^ (m - 1) = S
    generalize (-1 : ℝ) ^ m = e at hs
    apply Complex.ext
    · simp [toC]
      norm_num
      linear_combination (sqrtInv2Pi * (1 / 2) * √2 * nrm l m * r⁻¹ * S * (a.c1 * (sT * d))) * hs
    · simp [toC]
      norm_num
      linear_combination (sqrtInv2Pi * (1 / 2) * √2 * nrm l m * r⁻¹ * S * (a.s1 * (sT * d))) * hs

end Verif.Mlp
