import Verif.Props.CG
import Verif.Model.CGFit
import Verif.Props.Regression
import Mathlib.LinearAlgebra.Dimension.Constructions
import Mathlib.LinearAlgebra.FiniteDimensional.Basic
import Mathlib.Tactic.FieldSimp
import Mathlib.Tactic.LinearCombination

/-!
# C114: progress and termination of the conjugate-gradient solver
-/

namespace Verif.Regression
open Verif.Sequential Verif.LSQ
variable {p : ℕ} {K : Type}

section Algebra
variable [Field K]

theorem dot_comm' (u v : Vec p K) : dot u v = dot v u := by
  unfold dot; exact Finset.sum_congr rfl fun a _ => mul_comm _ _

theorem dot_lin (u v w : Vec p K) (r : K) : dot (fun a => u a + r * v a) w = dot u w + r * dot v w := by
  unfold dot
  rw [Finset.mul_sum, ← Finset.sum_add_distrib]
  exact Finset.sum_congr rfl fun a _ => by ring

theorem dot_linR (u v w : Vec p K) (r : K) : dot w (fun a => u a + r * v a) = dot w u + r * dot w v := by
  rw [dot_comm', dot_lin, dot_comm' u, dot_comm' v]

theorem dot_sub' (u v w : Vec p K) (r : K) : dot (fun a => u a - r * v a) w = dot u w - r * dot v w := by
  have := dot_lin u v w (-r)
  simp only [neg_mul, ← sub_eq_add_neg] at this
  exact this

theorem dot_subR (u v w : Vec p K) (r : K) : dot w (fun a => u a - r * v a) = dot w u - r * dot w v := by
  rw [dot_comm', dot_sub', dot_comm' u, dot_comm' v]

/-- `A` is symmetric. -/
theorem evalDot_symm (A : Mat p K) (hA : ∀ i j, A i j = A j i) (α : K) (u v : Vec p K) :
    dot (evalDot A α u) v = dot (evalDot A α v) u := by
  unfold dot evalDot mulVec
  simp only [add_mul, Finset.sum_add_distrib, Finset.sum_mul]
  congr 1
  · rw [Finset.sum_comm]
    refine Finset.sum_congr rfl fun i _ => Finset.sum_congr rfl fun j _ => ?_
    rw [hA j i]; ring
  · exact Finset.sum_congr rfl fun i _ => by ring

end Algebra

variable [Field K] [LinearOrder K]

/-- What one pass does. -/
theorem step_facts {A : Mat p K} {α : K} {s t : CG p K} (h : cgStep A α s = .ok t) :
    dot (evalDot A α s.directions) s.directions ≠ 0 ∧
    t.coef = (fun a => s.coef a + dot s.residuals s.residuals / dot (evalDot A α s.directions) s.directions * s.directions a) ∧
    t.residuals = (fun a => s.residuals a - dot s.residuals s.residuals / dot (evalDot A α s.directions) s.directions *
      evalDot A α s.directions a) ∧
    t.directions = (fun a => t.residuals a + dot t.residuals t.residuals / dot s.residuals s.residuals * s.directions a) := by
  unfold cgStep at h
  simp only at h
  split at h
  · cases h
  · rename_i hd
    cases h
    exact ⟨hd, rfl, rfl, rfl⟩

variable [IsStrictOrderedRing K]

theorem dot_self_nonneg (u : Vec p K) : 0 ≤ dot u u := Finset.sum_nonneg fun a _ => mul_self_nonneg (u a)

theorem dot_self_zero {u : Vec p K} (h : dot u u = 0) : u = fun _ => 0 := by
  funext a
  have := (Finset.sum_eq_zero_iff_of_nonneg (s := Finset.univ) (f := fun a => u a * u a) fun a _ => mul_self_nonneg (u a)).1 h a
    (Finset.mem_univ a)
  exact mul_self_eq_zero.1 this

theorem dot_zero (u : Vec p K) : dot u (fun _ => 0) = 0 := by simp [dot]

theorem zero_dot' (u : Vec p K) : dot (fun _ => 0) u = 0 := by simp [dot]

/-- The matrix of the ridge system. -/
structure PosSys (A : Mat p K) (α : K) : Prop where
  symm : ∀ i j, A i j = A j i
  nonneg : ∀ v : Vec p K, 0 ≤ dot (mulVec A v) v
  alpha : 0 < α

omit [IsStrictOrderedRing K] in
theorem dot_evalDot (A : Mat p K) (α : K) (v : Vec p K) : dot (evalDot A α v) v = dot (mulVec A v) v + α * dot v v := by
  unfold evalDot
  exact dot_lin _ _ _ _

theorem PosSys.pos {A : Mat p K} {α : K} (h : PosSys A α) {v : Vec p K} (hv : dot v v ≠ 0) :
    0 < dot (evalDot A α v) v := by
  rw [dot_evalDot]
  have := h.nonneg v
  have h2 : 0 < dot v v := lt_of_le_of_ne (dot_self_nonneg v) (Ne.symm hv)
  have := mul_pos h.alpha h2
  linarith [h.nonneg v]

/-- Everything that is true of the first `n` passes. -/
structure Hist (A : Mat p K) (b : Vec p K) (α : K) (c0 : Vec p K) (s : ℕ → CG p K) (n : ℕ) : Prop where
  init : s 0 = cgInit A b α c0
  step : ∀ k, k < n → cgStep A α (s k) = .ok (s (k + 1))

theorem Hist.start {A : Mat p K} {b : Vec p K} {α : K} {c0 : Vec p K} {s : ℕ → CG p K} {n : ℕ}
    (h : Hist A b α c0 s n) : (s 0).directions = (s 0).residuals := by rw [h.init]; rfl

/-- Residual and direction. -/
theorem Hist.rd {A : Mat p K} {b : Vec p K} {α : K} {c0 : Vec p K} {s : ℕ → CG p K} {n : ℕ}
    (h : Hist A b α c0 s n) (k : ℕ) (hk : k ≤ n) :
    dot (s k).residuals (s k).directions = dot (s k).residuals (s k).residuals ∧
    (dot (s k).residuals (s k).residuals = 0 → dot (evalDot A α (s k).directions) (s k).directions = 0) ∧
    (k + 1 ≤ n → dot (s (k + 1)).residuals (s k).directions = 0) := by
  induction k with
  | zero =>
    have h1 : dot (s 0).residuals (s 0).directions = dot (s 0).residuals (s 0).residuals := by rw [h.start]
    refine ⟨h1, fun h0 => ?_, fun hn => ?_⟩
    · have := dot_self_zero h0
      rw [h.start, this]; exact dot_zero _
    · obtain ⟨f1, f2, f3, f4⟩ := step_facts (h.step 0 hn)
      rw [f3, dot_sub', h1]
      field_simp
      ring
  | succ k ih =>
    obtain ⟨i1, i2, i3⟩ := ih (by omega)
    have i3 := i3 hk
    obtain ⟨f1, f2, f3, f4⟩ := step_facts (h.step k hk)
    have h1 : dot (s (k + 1)).residuals (s (k + 1)).directions = dot (s (k + 1)).residuals (s (k + 1)).residuals := by
      rw [f4, dot_linR, i3]; ring
    refine ⟨h1, fun h0 => ?_, fun hn => ?_⟩
    · have hr := dot_self_zero h0
      have : (s (k + 1)).directions = fun _ => 0 := by
        rw [f4, hr]; funext a
        simp [zero_dot']
      rw [this]; exact dot_zero _
    · obtain ⟨g1, g2, g3, g4⟩ := step_facts (h.step (k + 1) hn)
      rw [g3, dot_sub', h1]
      field_simp
      ring

/-- The residuals are orthogonal, the directions conjugate. -/
theorem Hist.orth {A : Mat p K} {b : Vec p K} {α : K} {c0 : Vec p K} {s : ℕ → CG p K} {n : ℕ}
    (hA : ∀ i j, A i j = A j i) (h : Hist A b α c0 s n) (m : ℕ) (hm : m ≤ n) :
    (∀ j, j ≤ m → ∀ i, i < j → dot (s j).residuals (s i).directions = 0) ∧
    (∀ j, j ≤ m → ∀ i, i < j → dot (evalDot A α (s i).directions) (s j).directions = 0) ∧
    (∀ j, j ≤ m → ∀ i, i < j → dot (s j).residuals (s i).residuals = 0) := by
  induction m with
  | zero => exact ⟨fun j hj i hi => by omega, fun j hj i hi => by omega, fun j hj i hi => by omega⟩
  | succ m ih =>
    obtain ⟨c, bb, a⟩ := ih (by omega)
    obtain ⟨f1, f2, f3, f4⟩ := step_facts (h.step m hm)
    -- residual and earlier directions
    have c' : ∀ i, i ≤ m → dot (s (m + 1)).residuals (s i).directions = 0 := by
      intro i hi
      rcases Nat.lt_or_ge i m with hlt | hge
      · rw [f3, dot_sub', c m (le_refl m) i hlt, evalDot_symm A hA α (s m).directions (s i).directions, bb m (le_refl m) i hlt]; ring
      · have : i = m := by omega
        subst this
        exact (h.rd i (by omega)).2.2 hm
    have a' : ∀ i, i ≤ m → dot (s (m + 1)).residuals (s i).residuals = 0 := by
      intro i hi
      cases i with
      | zero => rw [← h.start]; exact c' 0 hi
      | succ i =>
        obtain ⟨_, _, _, e4⟩ := step_facts (h.step i (by omega))
        have := c' (i + 1) hi
        rw [e4, dot_linR, c' i (by omega)] at this
        linear_combination this
    have b' : ∀ i, i ≤ m → dot (evalDot A α (s i).directions) (s (m + 1)).directions = 0 := by
      intro i hi
      obtain ⟨e1, e2, e3, e4⟩ := step_facts (h.step i (by omega))
      have hri : dot (s i).residuals (s i).residuals ≠ 0 := fun h0 => e1 ((h.rd i (by omega)).2.1 h0)
      have key : dot (s i).residuals (s i).residuals / dot (evalDot A α (s i).directions) (s i).directions *
          dot (s (m + 1)).residuals (evalDot A α (s i).directions) =
          dot (s (m + 1)).residuals (s i).residuals - dot (s (m + 1)).residuals (s (i + 1)).residuals := by
        rw [e3, dot_subR]; ring
      rw [dot_comm', f4, dot_lin]
      rcases Nat.lt_or_ge i m with hlt | hge
      · rw [a' i hi, a' (i + 1) (by omega)] at key
        have hz : dot (s (m + 1)).residuals (evalDot A α (s i).directions) = 0 := by
          have hne : dot (s i).residuals (s i).residuals / dot (evalDot A α (s i).directions) (s i).directions ≠ 0 :=
            div_ne_zero hri e1
          exact (mul_eq_zero.1 (key.trans (sub_self 0))).resolve_left hne
        rw [hz, dot_comm' (s m).directions, bb m (le_refl m) i hlt]; ring
      · have : i = m := by omega
        subst this
        rw [a' i hi] at key
        rw [dot_comm' (s i).directions]
        field_simp at key ⊢
        linear_combination key
    refine ⟨fun j hj i hi => ?_, fun j hj i hi => ?_, fun j hj i hi => ?_⟩
    · rcases Nat.lt_or_ge j (m + 1) with hlt | hge
      · exact c j (by omega) i hi
      · have : j = m + 1 := by omega
        subst this; exact c' i (by omega)
    · rcases Nat.lt_or_ge j (m + 1) with hlt | hge
      · exact bb j (by omega) i hi
      · have : j = m + 1 := by omega
        subst this; exact b' i (by omega)
    · rcases Nat.lt_or_ge j (m + 1) with hlt | hge
      · exact a j (by omega) i hi
      · have : j = m + 1 := by omega
        subst this; exact a' i (by omega)

/-- More orthogonal vectors than dimensions do not exist. -/
theorem too_many (r : ℕ → Vec p K) (ho : ∀ j, j ≤ p → ∀ i, i < j → dot (r j) (r i) = 0)
    (hr : ∀ j, j ≤ p → dot (r j) (r j) ≠ 0) : False := by
  have hli : LinearIndependent K (fun i : Fin (p + 1) => r i) := by
    rw [Fintype.linearIndependent_iff]
    intro g hg i
    have h1 : dot (∑ j : Fin (p + 1), g j • r j) (r i) = 0 := by rw [hg]; exact zero_dot' _
    have h2 : dot (∑ j : Fin (p + 1), g j • r j) (r i) = ∑ j : Fin (p + 1), g j * dot (r j) (r i) := by
      unfold dot
      simp only [Finset.sum_apply, Pi.smul_apply, smul_eq_mul, Finset.sum_mul, Finset.mul_sum]
      rw [Finset.sum_comm]
      exact Finset.sum_congr rfl fun j _ => Finset.sum_congr rfl fun a _ => by ring
    rw [h2, Finset.sum_eq_single i] at h1
    · exact (mul_eq_zero.1 h1).resolve_right (hr i (by omega))
    · intro j _ hj
      have : dot (r j) (r i) = 0 := by
        rcases Nat.lt_or_ge (i : ℕ) j with hlt | hge
        · exact ho j (by omega) i hlt
        · rw [dot_comm']
          refine ho i (by omega) j ?_
          have : (j : ℕ) ≠ i := fun h => hj (Fin.ext h)
          omega
      rw [this, mul_zero]
    · intro h; exact absurd (Finset.mem_univ i) h
  have := hli.fintype_card_le_finrank
  simp at this

/-! ## The runs of the solver -/

theorem visited_back {A : Mat p K} {b : Vec p K} {α : K} {c0 : Vec p K} {k : ℕ} {t : CG p K}
    (h : visited A b α c0 (k + 1) = .ok t) : ∃ s, visited A b α c0 k = .ok s ∧ cgStep A α s = .ok t := by
  simp only [visited] at h
  cases hv : visited A b α c0 k with
  | error e => rw [hv] at h; simp at h
  | ok s => rw [hv] at h; exact ⟨s, rfl, h⟩

theorem visited_le {A : Mat p K} {b : Vec p K} {α : K} {c0 : Vec p K} {n : ℕ} : ∀ {t : CG p K},
    visited A b α c0 n = .ok t → ∀ k, k ≤ n → ∃ s, visited A b α c0 k = .ok s := by
  induction n with
  | zero => intro t h k hk; exact ⟨t, by rw [Nat.le_zero.1 hk]; exact h⟩
  | succ n ih =>
    intro t h k hk
    obtain ⟨s, h1, _⟩ := visited_back h
    rcases Nat.lt_or_ge k (n + 1) with hlt | hge
    · exact ih h1 k (by omega)
    · have : k = n + 1 := by omega
      subst this; exact ⟨t, h⟩

/-- The sequence of states. -/
def seqOf (A : Mat p K) (b : Vec p K) (α : K) (c0 : Vec p K) (k : ℕ) : CG p K :=
  match visited A b α c0 k with
  | .ok s => s
  | .error _ => cgInit A b α c0

theorem seqOf_eq {A : Mat p K} {b : Vec p K} {α : K} {c0 : Vec p K} {k : ℕ} {s : CG p K}
    (h : visited A b α c0 k = .ok s) : seqOf A b α c0 k = s := by unfold seqOf; rw [h]

theorem hist_of {A : Mat p K} {b : Vec p K} {α : K} {c0 : Vec p K} {n : ℕ} {t : CG p K}
    (h : visited A b α c0 n = .ok t) : Hist A b α c0 (seqOf A b α c0) n := by
  refine ⟨rfl, fun k hk => ?_⟩
  obtain ⟨u, hu⟩ := visited_le h (k + 1) hk
  obtain ⟨s, hs, hst⟩ := visited_back hu
  rw [seqOf_eq hu, seqOf_eq hs]; exact hst

/-- A pass succeeds exactly when the residual is not zero. -/
theorem step_iff {A : Mat p K} {b : Vec p K} {α : K} {c0 : Vec p K} (hP : PosSys A α) {n : ℕ} {s : CG p K}
    (h : visited A b α c0 n = .ok s) :
    (dot s.residuals s.residuals ≠ 0 → ∃ t, cgStep A α s = .ok t) ∧
    (dot s.residuals s.residuals = 0 → cgStep A α s = .error .zeroDivision) := by
  have hr := (hist_of h).rd n (le_refl n)
  rw [seqOf_eq h] at hr
  constructor
  · intro h0
    have hd : dot s.directions s.directions ≠ 0 := by
      intro hz
      apply h0
      rw [← hr.1, dot_self_zero hz]; exact dot_zero _
    have := hP.pos hd
    unfold cgStep
    simp only
    rw [if_neg this.ne']
    exact ⟨_, rfl⟩
  · intro h0
    unfold cgStep
    simp only
    rw [if_pos (hr.2.1 h0)]

theorem visited_next {A : Mat p K} {b : Vec p K} {α : K} {c0 : Vec p K} {n : ℕ} {s t : CG p K}
    (h : visited A b α c0 n = .ok s) (ht : cgStep A α s = .ok t) : visited A b α c0 (n + 1) = .ok t := by
  simp only [visited, h]; exact ht

/-- Some iterate among the first `p` ones is the solution. -/
theorem solved_at {A : Mat p K} (b : Vec p K) {α : K} (c0 : Vec p K) (hP : PosSys A α) :
    ∃ k s, k ≤ p ∧ visited A b α c0 k = .ok s ∧ dot s.residuals s.residuals = 0 := by
  by_contra hno
  have hall : ∀ k, k ≤ p → ∃ s, visited A b α c0 k = .ok s := by
    intro k
    induction k with
    | zero => intro _; exact ⟨_, rfl⟩
    | succ k ih =>
      intro hk
      obtain ⟨s, hs⟩ := ih (by omega)
      obtain ⟨t, ht⟩ := (step_iff hP hs).1 fun h0 => hno ⟨k, s, by omega, hs, h0⟩
      exact ⟨t, visited_next hs ht⟩
  obtain ⟨t, ht⟩ := hall p (le_refl p)
  have horth := ((hist_of ht).orth hP.symm p (le_refl p)).2.2
  refine too_many (fun k => (seqOf A b α c0 k).residuals) horth fun j hj h0 => ?_
  obtain ⟨s, hs⟩ := hall j hj
  rw [seqOf_eq hs] at h0
  exact hno ⟨j, s, hj, hs, h0⟩

theorem residual_resSq {A : Mat p K} {b : Vec p K} {α : K} {c0 : Vec p K} {k : ℕ} {s : CG p K}
    (h : visited A b α c0 k = .ok s) : dot s.residuals s.residuals = resSq A b α s.coef := by
  unfold dot resSq
  refine Finset.sum_congr rfl fun a _ => ?_
  rw [C12_true_residual A b α c0 k s h a, pow_two]

theorem solves_iff {A : Mat p K} {b : Vec p K} {α : K} {c : Vec p K} :
    Solves (ridge A α) b c ↔ resSq A b α c = 0 := by
  unfold Solves resSq
  constructor
  · intro h
    exact Finset.sum_eq_zero fun i _ => by rw [h i]; ring
  · intro h i
    have := (Finset.sum_eq_zero_iff_of_nonneg fun i _ => sq_nonneg _).1 h i (Finset.mem_univ i)
    have := pow_eq_zero_iff (two_ne_zero) |>.1 this
    linear_combination -this

/-! ## The system of a data set -/

omit [LinearOrder K] [IsStrictOrderedRing K] in
theorem gram_quad (X : List (Vec p K × K)) (v w : Vec p K) :
    dot (mulVec (xtxOf X) v) w = (X.map fun r => predict v r.1 * predict w r.1).sum := by
  induction X with
  | nil => simp [xtxOf, mulVec, dot]
  | cons r X ih =>
    have : dot (mulVec (xtxOf (r :: X)) v) w = predict v r.1 * predict w r.1 + dot (mulVec (xtxOf X) v) w := by
      unfold dot mulVec xtxOf predict
      simp only [List.map_cons, List.sum_cons, add_mul, Finset.sum_add_distrib]
      congr 1
      rw [Finset.sum_mul_sum, Finset.sum_comm]
      simp only [Finset.sum_mul]
      exact Finset.sum_congr rfl fun i _ => Finset.sum_congr rfl fun j _ => by ring
    rw [this, ih, List.map_cons, List.sum_cons]

omit [LinearOrder K] [IsStrictOrderedRing K] in
theorem gram_xty (X : List (Vec p K × K)) (w : Vec p K) :
    dot (xtyOf X) w = (X.map fun r => r.2 * predict w r.1).sum := by
  induction X with
  | nil => simp [xtyOf, dot]
  | cons r X ih =>
    have : dot (xtyOf (r :: X)) w = r.2 * predict w r.1 + dot (xtyOf X) w := by
      unfold dot xtyOf predict
      simp only [List.map_cons, List.sum_cons, add_mul, Finset.sum_add_distrib]
      congr 1
      rw [Finset.mul_sum]
      exact Finset.sum_congr rfl fun i _ => by ring
    rw [this, ih, List.map_cons, List.sum_cons]

theorem posSys_of (X : List (Vec p K × K)) {α : K} (hα : 0 < α) : PosSys (xtxOf X) α := by
  refine ⟨fun i j => xtxOf_symm X i j, fun v => ?_, hα⟩
  rw [gram_quad]
  refine List.sum_nonneg fun x hx => ?_
  obtain ⟨r, _, rfl⟩ := List.mem_map.1 hx
  exact mul_self_nonneg _

omit [LinearOrder K] [IsStrictOrderedRing K] in
theorem sum_sq_move (X : List (Vec p K × K)) (c d : Vec p K) (l : K) :
    (X.map fun r => (r.2 - predict (fun a => c a + l * d a) r.1) ^ 2).sum =
      (X.map fun r => (r.2 - predict c r.1) ^ 2).sum
        - 2 * l * ((X.map fun r => r.2 * predict d r.1).sum - (X.map fun r => predict c r.1 * predict d r.1).sum)
        + l ^ 2 * (X.map fun r => predict d r.1 * predict d r.1).sum := by
  induction X with
  | nil => simp
  | cons r X ih =>
    have e : predict (fun a => c a + l * d a) r.1 = predict c r.1 + l * predict d r.1 := by
      unfold predict
      rw [Finset.mul_sum, ← Finset.sum_add_distrib]
      exact Finset.sum_congr rfl fun a _ => by ring
    simp only [List.map_cons, List.sum_cons, e]
    rw [ih]; ring

omit [LinearOrder K] [IsStrictOrderedRing K] in
theorem objective_move (X : List (Vec p K × K)) (α : K) (c d : Vec p K) (l : K) :
    objective X α (fun a => c a + l * d a) = objective X α c
      - 2 * l * dot (fun a => xtyOf X a - evalDot (xtxOf X) α c a) d + l ^ 2 * dot (evalDot (xtxOf X) α d) d := by
  have e1 : dot (fun a => xtyOf X a - evalDot (xtxOf X) α c a) d =
      dot (xtyOf X) d - dot (mulVec (xtxOf X) c) d - α * dot c d := by
    have := dot_sub' (xtyOf X) (evalDot (xtxOf X) α c) d 1
    simp only [one_mul] at this
    rw [this]
    have h2 : dot (evalDot (xtxOf X) α c) d = dot (mulVec (xtxOf X) c) d + α * dot c d := dot_lin _ _ _ _
    rw [h2]; ring
  have e2 : dot (evalDot (xtxOf X) α d) d = dot (mulVec (xtxOf X) d) d + α * dot d d := dot_lin _ _ _ _
  have e3 : ∑ a, (c a + l * d a) ^ 2 = ∑ a, c a ^ 2 + 2 * l * dot c d + l ^ 2 * dot d d := by
    unfold dot
    rw [Finset.mul_sum, Finset.mul_sum, ← Finset.sum_add_distrib, ← Finset.sum_add_distrib]
    exact Finset.sum_congr rfl fun a _ => by ring
  unfold objective
  rw [sum_sq_move, e1, e2, e3, gram_quad, gram_quad, gram_xty]
  ring

/-- **C114, progress.** Whatever the data, the penalty and the start: every pass of the solver makes the
penalised sum of squares strictly smaller. -/
theorem C114_decreases (X : List (Vec p K × K)) (α : K) (hα : 0 < α) (c0 : Vec p K) (k : ℕ) (s t : CG p K)
    (hs : visited (xtxOf X) (xtyOf X) α c0 k = .ok s)
    (ht : visited (xtxOf X) (xtyOf X) α c0 (k + 1) = .ok t) :
    objective X α t.coef < objective X α s.coef := by
  have hP := posSys_of X hα
  obtain ⟨s', hs', hst⟩ := visited_back ht
  rw [hs] at hs'; cases hs'
  obtain ⟨f1, f2, -, -⟩ := step_facts hst
  have hr := (hist_of hs).rd k (le_refl k)
  rw [seqOf_eq hs] at hr
  have hres : (fun a => xtyOf X a - evalDot (xtxOf X) α s.coef a) = s.residuals := by
    funext a
    rw [C12_true_residual _ _ α c0 k s hs a]
    congr 1
    unfold evalDot mulVec ridge
    simp only [add_mul, Finset.sum_add_distrib, ite_mul, zero_mul, Finset.sum_ite_eq, Finset.mem_univ, if_true]
  have hrho : dot s.residuals s.residuals ≠ 0 := fun h0 => f1 (hr.2.1 h0)
  have hdd : dot s.directions s.directions ≠ 0 := by
    intro hz; apply f1; rw [dot_self_zero hz]; exact dot_zero _
  have hq := hP.pos hdd
  rw [f2, objective_move, hres, hr.1]
  have hlt : 0 < dot s.residuals s.residuals ^ 2 / dot (evalDot (xtxOf X) α s.directions) s.directions :=
    div_pos (by positivity) hq
  have : objective X α s.coef - 2 * (dot s.residuals s.residuals / dot (evalDot (xtxOf X) α s.directions) s.directions) *
      dot s.residuals s.residuals + (dot s.residuals s.residuals / dot (evalDot (xtxOf X) α s.directions) s.directions) ^ 2 *
      dot (evalDot (xtxOf X) α s.directions) s.directions = objective X α s.coef -
      dot s.residuals s.residuals ^ 2 / dot (evalDot (xtxOf X) α s.directions) s.directions := by
    field_simp; ring
  rw [this]; linarith

/-- **C114, never worse than the start.** A returned vector has a strictly smaller penalised sum of squares
than the start. -/
theorem C114_better_than_start (X : List (Vec p K × K)) (α gtol : K) (hα : 0 < α) (maxIter : ℕ)
    (coef0 : Option (Vec p K)) (c : Vec p K)
    (h : solverCG (xtxOf X) (xtyOf X) α gtol maxIter coef0 = .ok (some c)) :
    objective X α c < objective X α (coef0.getD fun _ => 0) := by
  obtain ⟨k, s, h1, -, hv, rfl, -⟩ := C12_returns_last _ _ α gtol maxIter coef0 c h
  clear h
  induction k generalizing s with
  | zero => omega
  | succ k ih =>
    obtain ⟨u, hu, _⟩ := visited_back hv
    have hlt := C114_decreases X α hα _ k u s hu hv
    rcases Nat.eq_zero_or_pos k with rfl | hk
    · simp only [visited, Except.ok.injEq] at hu
      subst hu
      exact hlt
    · exact hlt.trans (ih u hk hu)

/-- **C114, finite termination.** For every data set and start, one of the first `p` iterates (`p`: number
of features) is the minimiser of the penalised sum of squares, and none before it is. -/
theorem C114_exact_after_p (X : List (Vec p K × K)) (α : K) (hα : 0 < α) (c0 : Vec p K) :
    ∃ k s, k ≤ p ∧ visited (xtxOf X) (xtyOf X) α c0 k = .ok s ∧
      Solves (ridge (xtxOf X) α) (xtyOf X) s.coef ∧ (∀ d, objective X α s.coef ≤ objective X α d) ∧
      ∀ j t, j < k → visited (xtxOf X) (xtyOf X) α c0 j = .ok t →
        objective X α s.coef < objective X α t.coef := by
  obtain ⟨k, s, hk, hs, h0⟩ := solved_at (xtyOf X) c0 (posSys_of X hα)
  rw [residual_resSq hs] at h0
  have hsol := solves_iff.2 h0
  refine ⟨k, s, hk, hs, hsol, fun d => C10_solution_minimises X α hα.le s.coef hsol d, ?_⟩
  clear hk h0 hsol
  induction k generalizing s with
  | zero => intro j t hj; omega
  | succ k ih =>
    intro j t hj ht
    obtain ⟨u, hu, _⟩ := visited_back hs
    have hlt := C114_decreases X α hα c0 k u s hu hs
    rcases Nat.lt_or_ge j k with hjk | hjk
    · exact hlt.trans (ih u hu j t hjk ht)
    · have : j = k := by omega
      subst this
      rw [hu] at ht; cases ht; exact hlt

/-! ## The stopping rule -/

theorem loop_zero {A : Mat p K} {b : Vec p K} {α gtol : K} {c0 : Vec p K} (hP : PosSys A α) {k : ℕ} {z : CG p K}
    (hk : k ≤ 100) (hz : visited A b α c0 k = .ok z) (h0 : dot z.residuals z.residuals = 0) :
    ∀ (fuel i : ℕ) (s : CG p K), i ≤ k → k < i + fuel → visited A b α c0 i = .ok s →
      cgLoop A α gtol fuel i s = .error .zeroDivision
  | 0, i, s, hi, hf, _ => by omega
  | fuel + 1, i, s, hi, hf, hs => by
    have hc : cgConverged gtol i s = false := by
      unfold cgConverged
      rw [decide_eq_false (by omega)]; rfl
    simp only [cgLoop, hc]
    rcases Nat.lt_or_ge i k with hlt | hge
    · obtain ⟨u, hu⟩ := visited_le hz (i + 1) hlt
      obtain ⟨s', hs', hst⟩ := visited_back hu
      rw [hs] at hs'; cases hs'
      rw [hst]
      exact loop_zero hP hk hz h0 fuel (i + 1) u hlt (by omega) hu
    · have : i = k := by omega
      subst this
      rw [hs] at hz; cases hz
      rw [(step_iff hP hs).2 h0]
      rfl

/-- **C114, small models.** The full claim is that the solver returns a solution whenever it is given enough
iterations.  It is false for every data set and every penalty when there are at most 100 features and more
iterations than features are allowed (the default allows 50000): the convergence test is skipped in the
first 100 passes, the exact solution is reached before, and the next pass divides zero by zero. -/
theorem C114_small_models_violation (X : List (Vec p K × K)) (α gtol : K) (hα : 0 < α) (maxIter : ℕ)
    (coef0 : Option (Vec p K)) (hp : p ≤ 100) (hm : p < maxIter) :
    solverCG (xtxOf X) (xtyOf X) α gtol maxIter coef0 = .error .zeroDivision := by
  have hP := posSys_of X hα
  obtain ⟨k, s, hk, hs, h0⟩ := solved_at (xtyOf X) (coef0.getD fun _ => 0) hP
  unfold solverCG
  rw [loop_zero hP (hk.trans hp) hs h0 maxIter 0 _ (Nat.zero_le k) (by omega) rfl]
  rfl

/-- The best vector is set as soon as a residual is below `1e10`. -/
theorem minSet_of {A : Mat p K} {b : Vec p K} {α : K} {c0 : Vec p K} : ∀ {k : ℕ} {s : CG p K},
    visited A b α c0 k = .ok s →
      (s.minSet = false → s.normMinSq = (10 ^ 10) * (10 ^ 10)) ∧
      (1 ≤ k → s.minSet = false → ¬ dot s.residuals s.residuals < (10 ^ 10) * (10 ^ 10)) := by
  intro k
  induction k with
  | zero =>
    intro s h
    simp only [visited, Except.ok.injEq] at h
    subst h
    exact ⟨fun _ => rfl, fun h => by omega⟩
  | succ k ih =>
    intro t h
    obtain ⟨s, hs, hst⟩ := visited_back h
    have := (ih hs).1
    unfold cgStep at hst
    simp only at hst
    split at hst
    · cases hst
    · cases hst
      simp only [Bool.or_eq_false_iff, decide_eq_false_iff_not]
      refine ⟨fun h => ?_, fun _ h => ?_⟩
      · rw [if_neg h.2]; exact this h.1
      · rw [this h.1] at h; exact h.2

theorem loop_stops {A : Mat p K} {b : Vec p K} {α gtol : K} {c0 : Vec p K} (hP : PosSys A α) (hg : 0 < gtol) {k : ℕ}
    {z : CG p K} (hk : 100 < k) (hz : visited A b α c0 k = .ok z) (h0 : dot z.residuals z.residuals = 0) :
    ∀ (fuel i : ℕ) (s : CG p K), i ≤ k → k < i + fuel → visited A b α c0 i = .ok s →
      ∃ (j : ℕ) (t : CG p K), cgLoop A α gtol fuel i s = .ok (t, true) ∧ i ≤ j ∧ visited A b α c0 j = .ok t ∧
        cgConverged gtol j t = true
  | 0, i, s, hi, hf, _ => by omega
  | fuel + 1, i, s, hi, hf, hs => by
    by_cases hc : cgConverged gtol i s = true
    · exact ⟨i, s, by simp only [cgLoop, hc, if_true], le_refl i, hs, hc⟩
    · rcases Nat.lt_or_ge i k with hlt | hge
      · obtain ⟨u, hu⟩ := visited_le hz (i + 1) hlt
        obtain ⟨s', hs', hst⟩ := visited_back hu
        rw [hs] at hs'; cases hs'
        obtain ⟨j, t, h1, h2, h3, h4⟩ := loop_stops hP hg hk hz h0 fuel (i + 1) u hlt (by omega) hu
        refine ⟨j, t, ?_, by omega, h3, h4⟩
        simp only [cgLoop, hst, h1]
        rw [if_neg hc]
      · have : i = k := by omega
        subst this
        rw [hs] at hz; cases hz
        exfalso; apply hc
        unfold cgConverged
        rw [h0, zero_div]
        simp [hk, hg]

/-- **C114, convergence (what holds).** Full statement: with more iterations than features the solver
returns a vector whose residual is below the tolerance.  Proved: this, for every data set whose exact
solution is not among the first 101 iterates, with a tolerance that is positive and not larger than `1e10`
in the norm of the residual.  Missing: solutions found within 100 passes, where it fails
(`C114_small_models_violation`, `C114_early_solution_violation`). -/
theorem C114_converges_partial (X : List (Vec p K × K)) (α gtol : K) (hα : 0 < α) (hg : 0 < gtol)
    (hg2 : gtol * gtol * p ≤ (10 ^ 10) * (10 ^ 10)) (maxIter : ℕ) (coef0 : Option (Vec p K)) (hm : p < maxIter)
    (hslow : ∀ k s, k ≤ 100 → visited (xtxOf X) (xtyOf X) α (coef0.getD fun _ => 0) k = .ok s →
      ¬ Solves (ridge (xtxOf X) α) (xtyOf X) s.coef) :
    ∃ c, solverCG (xtxOf X) (xtyOf X) α gtol maxIter coef0 = .ok (some c) ∧
      resSq (xtxOf X) (xtyOf X) α c / p < gtol * gtol := by
  have hP := posSys_of X hα
  obtain ⟨k, s, hk, hs, h0⟩ := solved_at (xtyOf X) (coef0.getD fun _ => 0) hP
  have hk100 : 100 < k := by
    by_contra hle
    refine hslow k s (by omega) hs (solves_iff.2 ?_)
    rw [← residual_resSq hs]; exact h0
  obtain ⟨j, t, h1, -, h3, h4⟩ := loop_stops hP hg hk100 hs h0 maxIter 0 _ (Nat.zero_le k) (by omega) rfl
  simp only [cgConverged, Bool.and_eq_true, decide_eq_true_eq] at h4
  have hp0 : (0 : K) < p := by
    have : 0 < p := by omega
    exact_mod_cast this
  have hset : t.minSet = true := by
    by_contra hns
    have hns : t.minSet = false := by simpa using hns
    refine (minSet_of h3).2 (by omega) hns ?_
    have := (div_lt_iff₀ hp0).1 h4.2
    exact lt_of_lt_of_le this hg2
  refine ⟨t.coef, ?_, ?_⟩
  · unfold solverCG
    simp only [h1, bind, Except.bind, pure, Except.pure, hset, if_true]
  · rw [← residual_resSq h3]; exact h4.2

/-- **C114, solution found early.** The same failure for any number of features, when the exact solution is
one of the first 101 iterates and more iterations are allowed; in particular when the start already solves
the system, as when all the target values are zero. -/
theorem C114_early_solution_violation (X : List (Vec p K × K)) (α gtol : K) (hα : 0 < α) (maxIter : ℕ)
    (coef0 : Option (Vec p K)) (k : ℕ) (s : CG p K) (hk : k ≤ 100) (hm : k < maxIter)
    (hs : visited (xtxOf X) (xtyOf X) α (coef0.getD fun _ => 0) k = .ok s)
    (hsol : Solves (ridge (xtxOf X) α) (xtyOf X) s.coef) :
    solverCG (xtxOf X) (xtyOf X) α gtol maxIter coef0 = .error .zeroDivision := by
  have hP := posSys_of X hα
  have h0 : dot s.residuals s.residuals = 0 := by rw [residual_resSq hs]; exact solves_iff.1 hsol
  unfold solverCG
  rw [loop_zero hP hk hs h0 maxIter 0 _ (Nat.zero_le k) (by omega) rfl]
  rfl

/-- **C114, zero targets.** -/
theorem C114_zero_targets_violation (X : List (Vec p K × K)) (hy : ∀ r ∈ X, r.2 = 0) (α gtol : K) (hα : 0 < α)
    (maxIter : ℕ) (hm : 0 < maxIter) :
    solverCG (xtxOf X) (xtyOf X) α gtol maxIter none = .error .zeroDivision := by
  refine C114_early_solution_violation X α gtol hα maxIter none 0 _ (by omega) hm rfl fun i => ?_
  have : xtyOf X i = 0 := by
    unfold xtyOf
    refine List.sum_eq_zero fun x hx => ?_
    obtain ⟨r, hr, rfl⟩ := List.mem_map.1 hx
    rw [hy r hr, mul_zero]
  rw [this]
  refine Finset.sum_eq_zero fun j _ => ?_
  simp [cgInit]

/-! ## All penalties -/

theorem sweep_spec {A : Mat p K} {b : Vec p K} {gtol : K} {n : ℕ} : ∀ {c0 : Option (Vec p K)} {as : List K}
    {cs : List (Option (Vec p K))}, cgSweep A b gtol n c0 as = .ok cs →
    cs.length = as.length ∧ ∀ (i : ℕ) (α : K), as[i]? = some α →
      ∃ (st c : Option (Vec p K)), cs[i]? = some c ∧ solverCG A b α gtol n st = .ok c ∧
        (i = 0 → st = c0) ∧ (∀ (j : ℕ), i = j + 1 → cs[j]? = some st) := by
  intro c0 as
  induction as generalizing c0 with
  | nil => intro cs h; cases h; exact ⟨rfl, fun i α h => by simp at h⟩
  | cons α as ih =>
    intro cs h
    simp only [cgSweep, bind, Except.bind, pure, Except.pure] at h
    cases h1 : solverCG A b α gtol n c0 with
    | error e => rw [h1] at h; simp at h
    | ok c =>
      rw [h1] at h
      simp only at h
      cases h2 : cgSweep A b gtol n c as with
      | error e => rw [h2] at h; simp at h
      | ok cs' =>
        rw [h2] at h
        cases h
        obtain ⟨hl, hi⟩ := ih h2
        refine ⟨by simp [hl], fun i β hβ => ?_⟩
        cases i with
        | zero =>
          simp only [List.getElem?_cons_zero, Option.some.injEq] at hβ
          subst hβ
          exact ⟨c0, c, rfl, h1, fun _ => rfl, fun j hj => by omega⟩
        | succ i =>
          simp only [List.getElem?_cons_succ] at hβ
          obtain ⟨st, d, e1, e2, e3, e4⟩ := hi i β hβ
          refine ⟨st, d, by simpa using e1, e2, fun h => by omega, fun j hj => ?_⟩
          have : j = i := by omega
          subst this
          cases j with
          | zero => rw [e3 rfl]; rfl
          | succ j => simpa using e4 j rfl

theorem mapM_columns {cs : List (Option (Vec p K))} {out : List (Vec p K)}
    (h : (cs.mapM fun c => match c with | some c => (.ok c : Except Err (Vec p K)) | none => .error .valueError) = .ok out) :
    cs = out.map some := by
  induction cs generalizing out with
  | nil => cases h; rfl
  | cons c cs ih =>
    simp only [List.mapM_cons, bind, Except.bind, pure, Except.pure] at h
    cases c with
    | none => simp at h
    | some c =>
      simp only at h
      split at h
      · cases h
      · rename_i o ho
        cases h
        rw [ih ho]; rfl

/-- **C114, all penalties.** When the regression returns, it has one column for each penalty, in the order in
which the penalties were given.  The column of a penalty is what the solver returned for this penalty, started
from zeros for the last penalty and from the column of the next penalty otherwise; so its penalised sum of
squares is smaller than that of the column of the next penalty. -/
theorem C114_fit_columns (X : List (Vec p K × K)) (alphas : List K) (gtol : K) (maxIter : Option ℕ)
    (hα : ∀ α ∈ alphas, 0 < α) (out : List (Vec p K))
    (h : fitCGCoefs (xtxOf X) (xtyOf X) alphas gtol maxIter = .ok out) :
    out.length = alphas.length ∧ ∀ (i : ℕ) (α : K) (c : Vec p K), alphas[i]? = some α → out[i]? = some c →
      solverCG (xtxOf X) (xtyOf X) α gtol (maxIter.getD (max (p * 3) 50000)) out[i + 1]? = .ok (some c) ∧
      objective X α c < objective X α (out[i + 1]?.getD fun _ => 0) := by
  unfold fitCGCoefs at h
  simp only [bind, Except.bind] at h
  cases h1 : cgSweep (xtxOf X) (xtyOf X) gtol (cgMaxIter p maxIter) none alphas.reverse with
  | error e => rw [h1] at h; simp at h
  | ok cs =>
    rw [h1] at h
    have hcs := mapM_columns h
    obtain ⟨hl, hi⟩ := sweep_spec h1
    have hlen : out.length = alphas.length := by
      have := congrArg List.length hcs
      simp only [List.length_reverse, List.length_map] at this hl
      omega
    have hcsr : cs = out.reverse.map some := by
      rw [List.map_reverse, ← hcs, List.reverse_reverse]
    refine ⟨hlen, fun i α c ha hc => ?_⟩
    have hilt : i < alphas.length := (List.getElem?_eq_some_iff.1 ha).1
    have hrev : ∀ (j : ℕ), j < alphas.length → cs[alphas.length - 1 - j]? = some out[j]? := by
      intro j hj
      rw [hcsr, List.getElem?_map, List.getElem?_reverse (by omega)]
      have : out.length - 1 - (alphas.length - 1 - j) = j := by omega
      rw [this]
      rw [List.getElem?_eq_getElem (by omega)]; rfl
    obtain ⟨st, d, e1, e2, e3, e4⟩ := hi (alphas.length - 1 - i) α (by
      rw [List.getElem?_reverse (by omega)]
      have : alphas.length - 1 - (alphas.length - 1 - i) = i := by omega
      rw [this]; exact ha)
    have hst : st = out[i + 1]? := by
      rcases Nat.lt_or_ge (i + 1) alphas.length with hlt | hge
      · have h5 := e4 (alphas.length - 1 - (i + 1)) (by omega)
        rw [hrev (i + 1) hlt] at h5
        exact (Option.some.inj h5).symm
      · rw [e3 (by omega), List.getElem?_eq_none (by omega)]
    have hd : d = some c := by
      rw [hrev i hilt] at e1
      rw [← Option.some.inj e1]; exact hc
    subst hd
    rw [hst] at e2
    exact ⟨e2, C114_better_than_start X α gtol (hα α (List.mem_of_getElem? ha)) _ _ c e2⟩

/-- **C114, small models, default settings.** With at most 100 features the regression by conjugate gradients
fails for every data set, whatever the penalties. -/
theorem C114_fit_small_violation (X : List (Vec p K × K)) (alphas : List K) (gtol : K) (hα : ∀ α ∈ alphas, 0 < α)
    (hne : alphas ≠ []) (hp : p ≤ 100) :
    fitCGCoefs (xtxOf X) (xtyOf X) alphas gtol none = .error .zeroDivision := by
  unfold fitCGCoefs
  have hr : alphas.reverse ≠ [] := by simpa using hne
  cases hrev : alphas.reverse with
  | nil => exact absurd hrev hr
  | cons α rest =>
    have hmem : α ∈ alphas := by rw [← List.mem_reverse, hrev]; exact List.mem_cons_self
    have : solverCG (xtxOf X) (xtyOf X) α gtol (cgMaxIter p none) none = .error .zeroDivision :=
      C114_small_models_violation X α gtol (hα α hmem) _ none hp (by unfold cgMaxIter; simp; omega)
    simp only [cgSweep, this, bind, Except.bind]

/-! ## Non-vacuity

A chain of 101 features: feature `a` occurs in the rows `a` and `a + 1`. -/

/-- The rows of the chain. -/
def chain : List (Vec 101 ℚ × ℚ) :=
  (List.finRange 101).map fun k => (fun a => if a.val = k.val ∨ a.val + 1 = k.val then 1 else 0, if k.val = 0 then 1 else 0)

theorem chain_sum (f : Fin 101 → ℚ) : ((List.finRange 101).map f).sum = ∑ k, f k := by
  rw [← List.ofFn_eq_map, List.sum_ofFn]

theorem chain_far {i j : Fin 101} (h : i.val + 1 < j.val) : xtxOf chain i j = 0 := by
  unfold xtxOf chain
  rw [List.map_map, chain_sum]
  refine Finset.sum_eq_zero fun k _ => ?_
  simp only [Function.comp_apply]
  split
  · rw [if_neg (by omega), mul_zero]
  · rw [zero_mul]

theorem chain_near {i j : Fin 101} (h : i.val + 1 = j.val) : xtxOf chain i j = 1 := by
  unfold xtxOf chain
  rw [List.map_map, chain_sum, Finset.sum_eq_single j]
  · simp only [Function.comp_apply]
    rw [if_pos (Or.inr h), if_pos (Or.inl trivial)]; ring
  · intro k _ hk
    have : k.val ≠ j.val := fun h => hk (Fin.ext h)
    simp only [Function.comp_apply]
    split
    · rw [if_neg (by omega), mul_zero]
    · rw [zero_mul]
  · intro h; exact absurd (Finset.mem_univ j) h

theorem chain_y {i : Fin 101} (h : i.val ≠ 0) : xtyOf chain i = 0 := by
  unfold xtyOf chain
  rw [List.map_map, chain_sum]
  refine Finset.sum_eq_zero fun k _ => ?_
  simp only [Function.comp_apply]
  split
  · rw [if_neg (by omega), mul_zero]
  · rw [zero_mul]

theorem chain_y0 : xtyOf chain 0 = 1 := by
  unfold xtyOf chain
  rw [List.map_map, chain_sum, Finset.sum_eq_single 0]
  · simp
  · intro k _ hk
    have : k.val ≠ 0 := fun h => hk (Fin.ext h)
    simp only [Function.comp_apply]
    rw [if_neg this, mul_zero]
  · intro h; exact absurd (Finset.mem_univ _) h

/-- The product with a vector that ends before `m` ends before `m + 1`. -/
theorem chain_reach {v : Vec 101 ℚ} {m : ℕ} (h : ∀ a : Fin 101, m ≤ a.val → v a = 0) (a : Fin 101) (ha : m + 1 ≤ a.val) :
    evalDot (xtxOf chain) 1 v a = 0 := by
  unfold evalDot mulVec
  rw [h a (by omega), mul_zero, add_zero]
  refine Finset.sum_eq_zero fun j _ => ?_
  rcases Nat.lt_or_ge j.val m with hj | hj
  · rw [xtxOf_symm, chain_far (by omega), zero_mul]
  · rw [h j hj, mul_zero]

/-- After `k` passes the coefficients reach `k` features. -/
theorem chain_support (k : ℕ) (s : CG 101 ℚ) (h : visited (xtxOf chain) (xtyOf chain) 1 (fun _ => 0) k = .ok s) :
    (∀ a : Fin 101, k ≤ a.val → s.coef a = 0) ∧ (∀ a : Fin 101, k + 1 ≤ a.val → s.residuals a = 0) ∧
    (∀ a : Fin 101, k + 1 ≤ a.val → s.directions a = 0) := by
  induction k generalizing s with
  | zero =>
    simp only [visited, Except.ok.injEq] at h
    subst h
    have : ∀ a : Fin 101, 1 ≤ a.val → xtyOf chain a - evalDot (xtxOf chain) 1 (fun _ => 0) a = 0 := by
      intro a ha
      rw [chain_y (by omega), chain_reach (m := 0) (fun _ _ => rfl) a (by omega), sub_zero]
    exact ⟨fun _ _ => rfl, fun a ha => this a (by omega), fun a ha => this a (by omega)⟩
  | succ k ih =>
    obtain ⟨u, hu, hst⟩ := visited_back h
    obtain ⟨i1, i2, i3⟩ := ih u hu
    obtain ⟨-, f2, f3, f4⟩ := step_facts hst
    have hres : ∀ a : Fin 101, k + 1 + 1 ≤ a.val → s.residuals a = 0 := by
      intro a ha
      rw [f3]
      simp only
      rw [i2 a (by omega), chain_reach i3 a (by omega), mul_zero, sub_zero]
    refine ⟨fun a ha => ?_, hres, fun a ha => ?_⟩
    · rw [f2]
      simp only
      rw [i1 a (by omega), i3 a ha, mul_zero, add_zero]
    · rw [f4]
      simp only
      rw [hres a ha, i3 a (by omega), mul_zero, add_zero]

/-- No vector without the last feature solves the system. -/
theorem chain_needs_last {c : Vec 101 ℚ} (h : Solves (ridge (xtxOf chain) 1) (xtyOf chain) c) : c 100 ≠ 0 := by
  intro h0
  have hz : ∀ n, n ≤ 100 → ∀ a : Fin 101, 100 - n ≤ a.val → c a = 0 := by
    intro n
    induction n with
    | zero =>
      intro _ a ha
      have : a = 100 := Fin.ext (by have := a.isLt; show a.val = 100; omega)
      rw [this]; exact h0
    | succ n ih =>
      intro hn a ha
      rcases Nat.lt_or_ge a.val (100 - n) with hlt | hge
      · have hb : a.val + 1 < 101 := by omega
        have hrow := h ⟨a.val + 1, hb⟩
        rw [chain_y (by simp), Finset.sum_eq_single a] at hrow
        · unfold ridge at hrow
          rw [xtxOf_symm, chain_near rfl, if_neg (by intro e; have := congrArg Fin.val e; simp at this)] at hrow
          simpa using hrow
        · intro j _ hj
          have hne : j.val ≠ a.val := fun e => hj (Fin.ext e)
          rcases Nat.lt_or_ge j.val (100 - n) with hj2 | hj2
          · unfold ridge
            rw [xtxOf_symm, chain_far (by simp only; omega),
              if_neg (by intro e; have := congrArg Fin.val e; simp only at this; omega)]
            ring
          · rw [ih (by omega) j hj2, mul_zero]
        · intro h; exact absurd (Finset.mem_univ a) h
      · exact ih (by omega) a hge
  have := h 0
  rw [chain_y0, Finset.sum_eq_zero] at this
  · exact zero_ne_one this
  · intro j _
    rw [hz 100 (le_refl _) j (by omega), mul_zero]

/-- The solver converges for the chain. -/
example : ∃ c, solverCG (xtxOf chain) (xtyOf chain) 1 (1 / 100) 50000 none = .ok (some c) ∧
    resSq (xtxOf chain) (xtyOf chain) 1 c / (101 : ℕ) < 1 / 100 * (1 / 100) := by
  refine C114_converges_partial chain 1 (1 / 100) one_pos (by norm_num) (by norm_num) 50000 none (by norm_num) ?_
  intro k s hk hs hsol
  exact chain_needs_last hsol ((chain_support k s hs).1 100 (by simpa using hk))

/-- Two features, two passes: a returned vector, better than the start. -/
example : (solverCG (p := 2) (K := ℚ) (xtxOf exRows) (xtyOf exRows) 1 (1 / 100) 2 none).toOption.map (·.isSome) = some true := by
  decide +kernel
example : (fitCGCoefs (p := 2) (K := ℚ) (xtxOf exRows) (xtyOf exRows) [1, 2] (1 / 100) (some 2)).toOption.map (·.length) = some 2 := by
  decide +kernel

end Verif.Regression
