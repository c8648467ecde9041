import Verif.Spec.Elastic
import Mathlib.Tactic.Linarith
import Mathlib.Tactic.FieldSimp
import Mathlib.Tactic.Ring
import Mathlib.Tactic.NormNum
import Mathlib.Tactic.FinCases
import Mathlib.LinearAlgebra.Matrix.Notation
import Mathlib.Algebra.BigOperators.Fin
import Mathlib.Algebra.BigOperators.Field

/-!
# C72: elastic constants
-/

namespace Verif.Elastic
open Verif.Spec

theorem raw_eq (s : Fin 6 → Fin 6 → ℝ) (a b : Fin 6) : raw s a b = s (max a b) (min a b) := by
  fin_cases a <;> fin_cases b <;> rfl

set_option maxRecDepth 4000 in
theorem fullOf_eq (c : Fin 6 → Fin 6 → ℝ) (i j k l : Fin 3) : fullOf c i j k l = c (voigtNumber i j) (voigtNumber k l) := by
  fin_cases i <;> fin_cases j <;> fin_cases k <;> fin_cases l <;> rfl

def idx (i j k l : Fin 3) : ℕ := 27 * i.val + 9 * j.val + 3 * k.val + l.val

theorem flat_idx (t : T4) (i j k l : Fin 3) : flat t (idx i j k l) = t i j k l := by
  fin_cases i <;> fin_cases j <;> fin_cases k <;> fin_cases l <;> rfl

theorem sum81 (f : ℕ → ℝ) : ((List.range 81).map f).sum = ∑ i, ∑ j, ∑ k, ∑ l, f (idx i j k l) := by
  simp only [Fin.sum_univ_three, idx]
  simp only [List.range_eq_range', List.range', List.map_cons, List.map_nil, List.sum_cons, List.sum_nil]
  norm_num
  ring

theorem kron_idx (r : Mat) (i j k l a b c d : Fin 3) :
    kron 3 (kron 3 (kron 3 (arr r) (arr r)) (arr r)) (arr r) (idx i j k l) (idx a b c d) =
      r i a * r j b * r k c * r l d := by
  have h : ∀ i j k l : Fin 3, idx i j k l / 3 / 3 / 3 = i.val ∧ idx i j k l / 3 / 3 % 3 = j.val ∧
      idx i j k l / 3 % 3 = k.val ∧ idx i j k l % 3 = l.val := by decide
  have ho : ∀ i : Fin 3, Fin.ofNat 3 i.val = i := by decide
  simp only [kron, arr, (h i j k l).1, (h i j k l).2.1, (h i j k l).2.2.1, (h i j k l).2.2.2, (h a b c d).1,
    (h a b c d).2.1, (h a b c d).2.2.1, (h a b c d).2.2.2, ho]

theorem apply_mul81 (a b : ℕ → ℕ → ℝ) (f : ℕ → ℝ) (p : ℕ) : apply81 (mul81 a b) f p = apply81 a (apply81 b f) p := by
  unfold apply81 mul81
  generalize List.range 81 = L
  generalize hM : L = M
  have : ∀ L M : List ℕ, (L.map fun q => (M.map fun s => a p s * b s q).sum * f q).sum =
      (M.map fun s => a p s * (L.map fun q => b s q * f q).sum).sum := by
    intro L M
    induction M with
    | nil => simp
    | cons x M ih =>
      simp only [List.map_cons, List.sum_cons, add_mul, List.sum_map_add, ih]
      congr 1
      rw [← List.sum_map_mul_left]
      simp only [mul_assoc]
  exact this M M

theorem sum_range_single (N a : ℕ) (ha : a < N) (x : ℝ) :
    ((List.range N).map fun q => if q = a then x else 0).sum = x := by
  induction N with
  | zero => omega
  | succ N ih =>
    rw [List.range_succ, List.map_append, List.sum_append]
    simp only [List.map_cons, List.map_nil, List.sum_cons, List.sum_nil, add_zero]
    by_cases h : N = a
    · subst h
      rw [if_pos rfl, List.sum_eq_zero, zero_add]
      intro y hy
      obtain ⟨q, hq, rfl⟩ := List.mem_map.1 hy
      rw [if_neg (List.mem_range.1 hq).ne]
    · rw [if_neg h, add_zero, ih (by omega)]

theorem sum_mem_dedup (o : List ℕ) (hn : o.Nodup) (f : ℕ → ℝ) (v : ℝ) (N : ℕ) (h : ∀ q ∈ o, q < N) :
    ((List.range N).map fun q => (if q ∈ o then v else 0) * f q).sum = v * (o.map f).sum := by
  induction o with
  | nil => simp
  | cons a o ih =>
    obtain ⟨ha, ho⟩ := List.nodup_cons.1 hn
    have h1 : ∀ q, (if q ∈ a :: o then v else 0) * f q =
        (if q = a then v * f a else 0) + (if q ∈ o then v else 0) * f q := by
      intro q
      by_cases hq : q = a
      · subst hq
        simp [ha]
      · simp [hq]
    simp only [h1, List.sum_map_add, List.map_cons, List.sum_cons, mul_add]
    rw [sum_range_single N a (h a (by simp)), ih ho fun q hq => h q (by simp [hq])]

def perms8 (i j k l : Fin 3) : List ℕ :=
  [idx i j k l, idx i j l k, idx j i k l, idx j i l k, idx k l i j, idx k l j i, idx l k i j, idx l k j i]

theorem combos_facts : ∀ c ∈ combos comb, (∀ q ∈ (cand c).dedup, q < 81) ∧ 0 < (cand c).dedup.length ∧
    (cand c).dedup.length * (8 / (cand c).dedup.length) = 8 ∧
    (cand c).Perm (List.replicate (8 / (cand c).dedup.length) (cand c).dedup).flatten := by
  decide +kernel

/-- The pair of pairs of an orbit. -/
def pick (i j k l : Fin 3) : (ℕ × ℕ) × ℕ × ℕ :=
  let p := (min i.val j.val, max i.val j.val)
  let q := (min k.val l.val, max k.val l.val)
  if p.1 < q.1 ∨ p.1 = q.1 ∧ p.2 ≤ q.2 then (p, q) else (q, p)

theorem orbit_facts' : ∀ i j k l : Fin 3, pick i j k l ∈ combos comb ∧
    (combos comb).filter (fun c => idx i j k l ∈ cand c) = [pick i j k l] ∧
    (cand (pick i j k l)).Perm (perms8 i j k l) := by
  decide +kernel

theorem orbit_facts (i j k l : Fin 3) : ∃ c ∈ combos comb,
    (combos comb).filter (fun c => idx i j k l ∈ (cand c).dedup) = [c] ∧ (cand c).Perm (perms8 i j k l) := by
  obtain ⟨h1, h2, h3⟩ := orbit_facts' i j k l
  refine ⟨_, h1, ?_, h3⟩
  simp only [List.mem_dedup]
  exact h2

theorem sum_filter_ite {α : Type} (l : List α) (p : α → Bool) (f g : α → ℝ) (h : ∀ c ∈ l, p c = false → f c = 0)
    (h' : ∀ c ∈ l, p c = true → f c = g c) : (l.map f).sum = ((l.filter p).map g).sum := by
  induction l with
  | nil => rfl
  | cons a l ih =>
    have hi := ih (fun c hc => h c (by simp [hc])) (fun c hc => h' c (by simp [hc]))
    rw [List.filter_cons]
    by_cases hp : p a = true
    · rw [if_pos hp, List.map_cons, List.sum_cons, hi, h' a (by simp) hp]
      rfl
    · rw [if_neg hp, List.map_cons, List.sum_cons, hi, h a (by simp) (by simpa using hp), zero_add]

theorem apply_permProj (f : ℕ → ℝ) (i j k l : Fin 3) :
    apply81 permProj f (idx i j k l) = ((perms8 i j k l).map f).sum / 8 := by
  have h1 : apply81 permProj f (idx i j k l) =
      ((combos comb).map fun c => permVec c (idx i j k l) * ((List.range 81).map fun q => permVec c q * f q).sum).sum := by
    unfold apply81 permProj
    generalize List.range 81 = L
    generalize combos comb = M
    induction M with
    | nil => simp
    | cons x M ih =>
      simp only [List.map_cons, List.sum_cons, add_mul, List.sum_map_add, ih]
      congr 1
      rw [← List.sum_map_mul_left]
      simp only [mul_assoc]
  obtain ⟨c, hc, hfil, hperm⟩ := orbit_facts i j k l
  rw [h1, sum_filter_ite (combos comb) (fun c => idx i j k l ∈ (cand c).dedup) _
    (fun c => ((cand c).dedup.map f).sum / (cand c).dedup.length), hfil]
  · obtain ⟨-, hpos, h8, hrep⟩ := combos_facts c hc
    have hs : ((perms8 i j k l).map f).sum =
        ((8 / (cand c).dedup.length : ℕ) : ℝ) * ((cand c).dedup.map f).sum := by
      rw [← (hperm.map f).sum_eq, (hrep.map f).sum_eq]
      generalize 8 / (cand c).dedup.length = n
      induction n with
      | zero => simp
      | succ n ih =>
        rw [List.replicate_succ, List.flatten_cons, List.map_append, List.sum_append, ih]
        push_cast
        ring
    rw [hs]
    simp only [List.map_cons, List.map_nil, List.sum_cons, List.sum_nil, add_zero]
    have h8' : ((cand c).dedup.length : ℝ) * ((8 / (cand c).dedup.length : ℕ) : ℝ) = 8 := by exact_mod_cast h8
    have hp : ((cand c).dedup.length : ℝ) ≠ 0 := by exact_mod_cast hpos.ne'
    rw [← h8']
    have hq : ((8 / (cand c).dedup.length : ℕ) : ℝ) ≠ 0 := by
      intro h0
      rw [h0, mul_zero] at h8'
      norm_num at h8'
    field_simp
  · intro c _ hp
    rw [permVec, if_neg (by simpa using hp), zero_mul]
  · intro c hc hp
    obtain ⟨hlt, hpos, -, -⟩ := combos_facts c hc
    have hv : permVec c = fun q => if q ∈ (cand c).dedup then 1 / Real.sqrt ((cand c).dedup.length : ℝ) else 0 := rfl
    rw [hv]
    simp only
    rw [sum_mem_dedup _ (List.nodup_dedup _) f _ 81 hlt, if_pos (by simpa using hp), ← mul_assoc, div_mul_div_comm,
      one_mul, Real.mul_self_sqrt (by positivity)]
    ring

/-! ### Rotations of tensors, one index at a time -/

def act1 (r : Mat) (t : T4) : T4 := fun i j k l => ∑ a, r i a * t a j k l
def act2 (r : Mat) (t : T4) : T4 := fun i j k l => ∑ a, r j a * t i a k l
def act3 (r : Mat) (t : T4) : T4 := fun i j k l => ∑ a, r k a * t i j a l
def act4 (r : Mat) (t : T4) : T4 := fun i j k l => ∑ a, r l a * t i j k a

theorem rotated_eq (r : Mat) (t : T4) : rotated r t = act1 r (act2 r (act3 r (act4 r t))) := by
  funext i j k l
  simp only [rotated, act1, act2, act3, act4, Finset.mul_sum]
  refine Finset.sum_congr rfl fun a _ => Finset.sum_congr rfl fun b _ => Finset.sum_congr rfl fun c _ =>
    Finset.sum_congr rfl fun d _ => by ring

theorem act_comm12 (r s : Mat) (t : T4) : act1 r (act2 s t) = act2 s (act1 r t) := by
  funext i j k l
  simp only [act1, act2, Finset.mul_sum]
  rw [Finset.sum_comm]
  exact Finset.sum_congr rfl fun a _ => Finset.sum_congr rfl fun b _ => by ring

theorem act_comm13 (r s : Mat) (t : T4) : act1 r (act3 s t) = act3 s (act1 r t) := by
  funext i j k l
  simp only [act1, act3, Finset.mul_sum]
  rw [Finset.sum_comm]
  exact Finset.sum_congr rfl fun a _ => Finset.sum_congr rfl fun b _ => by ring

theorem act_comm14 (r s : Mat) (t : T4) : act1 r (act4 s t) = act4 s (act1 r t) := by
  funext i j k l
  simp only [act1, act4, Finset.mul_sum]
  rw [Finset.sum_comm]
  exact Finset.sum_congr rfl fun a _ => Finset.sum_congr rfl fun b _ => by ring

theorem act_comm23 (r s : Mat) (t : T4) : act2 r (act3 s t) = act3 s (act2 r t) := by
  funext i j k l
  simp only [act2, act3, Finset.mul_sum]
  rw [Finset.sum_comm]
  exact Finset.sum_congr rfl fun a _ => Finset.sum_congr rfl fun b _ => by ring

theorem act_comm24 (r s : Mat) (t : T4) : act2 r (act4 s t) = act4 s (act2 r t) := by
  funext i j k l
  simp only [act2, act4, Finset.mul_sum]
  rw [Finset.sum_comm]
  exact Finset.sum_congr rfl fun a _ => Finset.sum_congr rfl fun b _ => by ring

theorem act_comm34 (r s : Mat) (t : T4) : act3 r (act4 s t) = act4 s (act3 r t) := by
  funext i j k l
  simp only [act3, act4, Finset.mul_sum]
  rw [Finset.sum_comm]
  exact Finset.sum_congr rfl fun a _ => Finset.sum_congr rfl fun b _ => by ring

theorem act1_mul (r s : Mat) (t : T4) : act1 r (act1 s t) = act1 (r * s) t := by
  funext i j k l
  simp only [act1, Matrix.mul_apply, Finset.mul_sum, Finset.sum_mul]
  rw [Finset.sum_comm]
  exact Finset.sum_congr rfl fun a _ => Finset.sum_congr rfl fun b _ => by ring

theorem act2_mul (r s : Mat) (t : T4) : act2 r (act2 s t) = act2 (r * s) t := by
  funext i j k l
  simp only [act2, Matrix.mul_apply, Finset.mul_sum, Finset.sum_mul]
  rw [Finset.sum_comm]
  exact Finset.sum_congr rfl fun a _ => Finset.sum_congr rfl fun b _ => by ring

theorem act3_mul (r s : Mat) (t : T4) : act3 r (act3 s t) = act3 (r * s) t := by
  funext i j k l
  simp only [act3, Matrix.mul_apply, Finset.mul_sum, Finset.sum_mul]
  rw [Finset.sum_comm]
  exact Finset.sum_congr rfl fun a _ => Finset.sum_congr rfl fun b _ => by ring

theorem act4_mul (r s : Mat) (t : T4) : act4 r (act4 s t) = act4 (r * s) t := by
  funext i j k l
  simp only [act4, Matrix.mul_apply, Finset.mul_sum, Finset.sum_mul]
  rw [Finset.sum_comm]
  exact Finset.sum_congr rfl fun a _ => Finset.sum_congr rfl fun b _ => by ring

theorem rotated_mul (r s : Mat) (t : T4) : rotated r (rotated s t) = rotated (r * s) t := by
  simp only [rotated_eq]
  rw [← act_comm14 s r, ← act_comm13 s r, ← act_comm12 s r, act1_mul, ← act_comm24 s r, ← act_comm23 s r, act2_mul,
    ← act_comm34 s r, act3_mul, act4_mul]

def sw12 (t : T4) : T4 := fun i j k l => t j i k l
def sw34 (t : T4) : T4 := fun i j k l => t i j l k
def swp (t : T4) : T4 := fun i j k l => t k l i j

theorem rotated_sw12 (r : Mat) (t : T4) : rotated r (sw12 t) = sw12 (rotated r t) := by
  rw [rotated_eq, rotated_eq, act_comm12]
  rfl

theorem rotated_sw34 (r : Mat) (t : T4) : rotated r (sw34 t) = sw34 (rotated r t) := by
  rw [rotated_eq, rotated_eq, act_comm34]
  rfl

theorem rotated_swp (r : Mat) (t : T4) : rotated r (swp t) = swp (rotated r t) := by
  rw [rotated_eq, rotated_eq, act_comm23, act_comm13, act_comm24, act_comm14]
  rfl

theorem rotated_add (r : Mat) (t u : T4) : rotated r (t + u) = rotated r t + rotated r u := by
  funext i j k l
  simp only [rotated, Pi.add_apply, mul_add, Finset.sum_add_distrib]

theorem rotated_smul (r : Mat) (c : ℝ) (t : T4) : rotated r (c • t) = c • rotated r t := by
  funext i j k l
  simp only [rotated, Pi.smul_apply, smul_eq_mul, Finset.mul_sum]
  exact Finset.sum_congr rfl fun a _ => Finset.sum_congr rfl fun b _ => Finset.sum_congr rfl fun c _ =>
    Finset.sum_congr rfl fun d _ => by ring

/-- The mean over the index permutations. -/
noncomputable def symAvg (t : T4) : T4 :=
  (1 / 8 : ℝ) • (t + sw34 t + sw12 t + sw12 (sw34 t) + swp t + swp (sw34 t) + swp (sw12 t) + swp (sw12 (sw34 t)))

theorem rotated_symAvg (r : Mat) (t : T4) : rotated r (symAvg t) = symAvg (rotated r t) := by
  simp only [symAvg, rotated_smul, rotated_add, rotated_sw12, rotated_sw34, rotated_swp]

theorem symAvg_symm (t : T4) : ElasticSymm (symAvg t) := by
  intro i j k l
  simp only [symAvg, Pi.smul_apply, Pi.add_apply, sw12, sw34, swp, smul_eq_mul]
  refine ⟨by ring, by ring, by ring⟩

theorem symAvg_of_symm (t : T4) (h : ElasticSymm t) : symAvg t = t := by
  have h12 : sw12 t = t := by
    funext i j k l
    exact (h i j k l).1.symm
  have h34 : sw34 t = t := by
    funext i j k l
    exact (h i j k l).2.1.symm
  have hp : swp t = t := by
    funext i j k l
    exact (h i j k l).2.2.symm
  simp only [symAvg, h12, h34, hp]
  funext i j k l
  simp only [Pi.smul_apply, Pi.add_apply, smul_eq_mul]
  ring

/-- The mean over the rotations. -/
noncomputable def avgRot (lattice : Mat) (rots : List (Matrix (Fin 3) (Fin 3) ℤ)) (t : T4) : T4 := fun i j k l =>
  (rots.map fun r => rotated (cartesian lattice r) t i j k l).sum / rots.length

theorem apply_spgProj (lattice : Mat) (rots : List (Matrix (Fin 3) (Fin 3) ℤ)) (t : T4) (i j k l : Fin 3) :
    apply81 (spgProj lattice rots) (flat t) (idx i j k l) = avgRot lattice rots t i j k l := by
  unfold apply81 spgProj avgRot
  rw [sum81]
  simp only [kron_idx, flat_idx, rotated]
  simp only [div_mul_eq_mul_div, ← Finset.sum_div]
  congr 1
  induction rots with
  | nil => simp
  | cons r rots ih => simp only [List.map_cons, List.sum_cons, add_mul, Finset.sum_add_distrib, ih]

theorem symmetrize_eq (lattice : Mat) (rots : List (Matrix (Fin 3) (Fin 3) ℤ)) (c : Fin 6 → Fin 6 → ℝ) :
    ∀ v1 v2, symmetrize lattice rots c v1 v2 = symAvg (avgRot lattice rots (fullOf c)) (voigt v1).1 (voigt v1).2
      (voigt v2).1 (voigt v2).2 := by
  intro v1 v2
  show apply81 (proj lattice rots) (flat (fullOf c)) (idx (voigt v1).1 (voigt v1).2 (voigt v2).1 (voigt v2).2) = _
  generalize (voigt v1).1 = i
  generalize (voigt v1).2 = j
  generalize (voigt v2).1 = k
  generalize (voigt v2).2 = l
  unfold proj
  rw [apply_mul81, apply_permProj]
  simp only [perms8, List.map_cons, List.map_nil, List.sum_cons, List.sum_nil, apply_spgProj, symAvg, Pi.smul_apply,
    Pi.add_apply, sw12, sw34, swp, smul_eq_mul]
  ring

theorem cartesian_mul (lattice : Mat) (h : lattice.det ≠ 0) (r s : Matrix (Fin 3) (Fin 3) ℤ) :
    cartesian lattice r * cartesian lattice s = cartesian lattice (r * s) := by
  have hd : IsUnit lattice.transpose.det := by
    rw [Matrix.det_transpose]
    exact h.isUnit
  have hm : (r * s).map (fun z => (z : ℝ)) = r.map (fun z => (z : ℝ)) * s.map (fun z => (z : ℝ)) := by
    ext i j
    simp [Matrix.mul_apply, Matrix.map_apply]
  unfold cartesian
  rw [hm]
  simp only [Matrix.mul_assoc]
  rw [← Matrix.mul_assoc lattice.transpose⁻¹, Matrix.nonsing_inv_mul _ hd, Matrix.one_mul]

theorem rotated_avgRot (lattice : Mat) (hdet : lattice.det ≠ 0) (rots : List (Matrix (Fin 3) (Fin 3) ℤ))
    (hg : ClosedGroup rots) (t : T4) (r : Matrix (Fin 3) (Fin 3) ℤ) (hr : r ∈ rots) :
    rotated (cartesian lattice r) (avgRot lattice rots t) = avgRot lattice rots t := by
  have hsum : ∀ L : List (Matrix (Fin 3) (Fin 3) ℤ), avgRot lattice L t =
      (1 / (L.length : ℝ)) • (L.map fun s => rotated (cartesian lattice s) t).sum := by
    intro L
    funext i j k l
    simp only [avgRot, Pi.smul_apply, smul_eq_mul]
    rw [one_div, mul_comm, ← div_eq_mul_inv]
    congr 1
    induction L with
    | nil => rfl
    | cons a L ih => simp only [List.map_cons, List.sum_cons, Pi.add_apply, ih]
  have hrot : ∀ L : List (Matrix (Fin 3) (Fin 3) ℤ), rotated (cartesian lattice r)
      (L.map fun s => rotated (cartesian lattice s) t).sum =
        ((L.map fun s => r * s).map fun s => rotated (cartesian lattice s) t).sum := by
    intro L
    induction L with
    | nil =>
      funext i j k l
      simp [rotated]
    | cons a L ih =>
      simp only [List.map_cons, List.sum_cons, rotated_add, ih, rotated_mul, cartesian_mul lattice hdet]
  rw [hsum, rotated_smul, hrot, ((hg.2 r hr).map fun s => rotated (cartesian lattice s) t).sum_eq]

theorem avgRot_of_invariant (lattice : Mat) (rots : List (Matrix (Fin 3) (Fin 3) ℤ)) (hg : rots ≠ []) (t : T4)
    (h : ∀ r ∈ rots, rotated (cartesian lattice r) t = t) : avgRot lattice rots t = t := by
  funext i j k l
  have hn : (rots.length : ℝ) ≠ 0 := by
    have := List.length_pos_of_ne_nil hg
    exact_mod_cast this.ne'
  unfold avgRot
  rw [List.map_congr_left (g := fun _ => t i j k l) fun r hr => by rw [h r hr], List.map_const', List.sum_replicate,
    nsmul_eq_mul]
  field_simp

theorem voigt_number (i j : Fin 3) : voigt (voigtNumber i j) = (i, j) ∨ voigt (voigtNumber i j) = (j, i) := by
  fin_cases i <;> fin_cases j <;> decide

theorem number_voigt (v : Fin 6) : voigtNumber (voigt v).1 (voigt v).2 = v := by
  fin_cases v <;> rfl

theorem read_voigt (t : T4) (h : ElasticSymm t) (i j k l : Fin 3) :
    t (voigt (voigtNumber i j)).1 (voigt (voigtNumber i j)).2 (voigt (voigtNumber k l)).1 (voigt (voigtNumber k l)).2 =
      t i j k l := by
  rcases voigt_number i j with h1 | h1 <;> rcases voigt_number k l with h2 | h2 <;> rw [h1, h2]
  · exact ((h i j k l).2.1).symm
  · exact ((h i j k l).1).symm
  · show t j i l k = t i j k l
    rw [(h i j k l).1, (h j i k l).2.1]

/-- **C72.**  For every potential, the elastic constants are symmetric, and the tensor they stand for has the index
symmetries of elastic constants and does not change under the rotations of the space group. -/
theorem C72_symmetric (stressOf : Mat → Fin 6 → ℝ) (axis0 : Mat) (evToGPa vol0 : ℝ)
    (rots : List (Matrix (Fin 3) (Fin 3) ℤ)) (n : ℕ) (eps : ℝ) (hdet : axis0.det ≠ 0) (hg : ClosedGroup rots) :
    let c := run stressOf axis0 evToGPa vol0 rots n eps
    let t : T4 := fun i j k l => c (voigtNumber i j) (voigtNumber k l)
    (∀ v1 v2, c v1 v2 = c v2 v1) ∧ ElasticSymm t ∧
      ∀ r ∈ rots, rotated (axis0 * r.map (fun z => (z : ℝ)) * axis0⁻¹) t = t := by
  intro c t
  set s := raw (slopeOf stressOf axis0 evToGPa vol0 (magnitudes eps n)) with hs
  set u := symAvg (avgRot axis0.transpose rots (fullOf s)) with hu
  have hc : ∀ v1 v2, c v1 v2 = u (voigt v1).1 (voigt v1).2 (voigt v2).1 (voigt v2).2 :=
    symmetrize_eq axis0.transpose rots s
  have hsym : ElasticSymm u := symAvg_symm _
  have ht : t = u := by
    funext i j k l
    show c _ _ = _
    rw [hc, read_voigt u hsym]
  refine ⟨fun v1 v2 => ?_, ht ▸ hsym, fun r hr => ?_⟩
  · rw [hc, hc]
    exact (hsym _ _ _ _).2.2
  · rw [ht, hu]
    have h1 : axis0 * r.map (fun z => (z : ℝ)) * axis0⁻¹ = cartesian axis0.transpose r := by
      unfold cartesian
      rw [Matrix.transpose_transpose]
    rw [h1, rotated_symAvg, rotated_avgRot axis0.transpose (by rw [Matrix.det_transpose]; exact hdet) rots hg _ r hr]

/-! ### Exactness -/

theorem linspace_neg (eps : ℝ) (n : ℕ) (hn : 2 ≤ n) : (linspace eps n).map (fun m => -m) = (linspace eps n).reverse := by
  unfold linspace
  apply List.ext_getElem
  · simp
  · intro k h1 h2
    simp only [List.length_map, List.length_range] at h1
    simp only [List.getElem_map, List.getElem_range, List.getElem_reverse, List.length_map, List.length_range]
    have h3 : ((n - 1 - k : ℕ) : ℝ) = (n : ℝ) - 1 - k := by
      have : n - 1 - k + k + 1 = n := by omega
      have h4 : ((n - 1 - k : ℕ) : ℝ) + k + 1 = n := by exact_mod_cast this
      linarith
    have h5 : (n : ℝ) - 1 ≠ 0 := by
      have : (2 : ℝ) ≤ n := by exact_mod_cast hn
      linarith
    rw [h3]
    field_simp
    ring

theorem magnitudes_perm (eps : ℝ) (n : ℕ) (hn : 2 ≤ n) :
    ((magnitudes eps n).map fun m => -m).Perm (magnitudes eps n) := by
  have h : (magnitudes eps n).map (fun m => -m) = (magnitudes eps n).reverse := by
    unfold magnitudes
    rw [← List.filter_reverse, ← linspace_neg eps n hn, List.filter_map]
    congr 1
    refine List.filter_congr fun m _ => ?_
    simp
  rw [h]
  exact List.reverse_perm _

theorem sum_odd (l : List ℝ) (hl : (l.map fun m => -m).Perm l) (g : ℝ → ℝ) (hg : ∀ m ∈ l, g (-m) = g m) :
    (l.map fun m => m * g m).sum = 0 := by
  have h1 : ((l.map fun m => -m).map fun m => m * g m).sum = -(l.map fun m => m * g m).sum := by
    rw [List.map_map, ← neg_one_mul, ← List.sum_map_mul_left]
    congr 1
    refine List.map_congr_left fun m hm => ?_
    simp only [Function.comp, hg m hm]
    ring
  have h2 := (hl.map fun m => m * g m).sum_eq
  linarith

/-- The strain of a deformation. -/
def strainOf (p : Fin 3 × Fin 3) (mag : ℝ) : Mat := fun a b =>
  (if a = p.1 ∧ b = p.2 then mag else 0) + (if a = p.2 ∧ b = p.1 then mag else 0)

theorem deformation_eq (p : Fin 3 × Fin 3) (mag : ℝ) : deformation p mag = 1 + strainOf p mag := by
  ext a b
  simp only [deformation, strainOf, Matrix.add_apply, Matrix.one_apply]
  ring

theorem strainOf_symm (p : Fin 3 × Fin 3) (mag : ℝ) : (strainOf p mag).transpose = strainOf p mag := by
  ext a b
  simp only [Matrix.transpose_apply, strainOf]
  rw [add_comm]
  congr 1 <;> simp only [and_comm]

theorem strainOf_neg (p : Fin 3 × Fin 3) (mag : ℝ) : strainOf p (-mag) = -strainOf p mag := by
  ext a b
  simp only [Matrix.neg_apply, strainOf]
  split_ifs <;> ring

theorem hooke_strain (t : T4) (h : ElasticSymm t) (p : Fin 3 × Fin 3) (mag : ℝ) (i j : Fin 3) :
    hooke t (strainOf p mag) i j = 2 * mag * t i j p.1 p.2 := by
  obtain ⟨k, l⟩ := p
  have h1 : ∀ x y : Fin 3, (∑ a, ∑ b, t i j a b * (if a = x ∧ b = y then mag else 0)) = mag * t i j x y := by
    intro x y
    rw [Finset.sum_eq_single x]
    · rw [Finset.sum_eq_single y]
      · simp
        ring
      · intro b _ hb
        simp [hb]
      · simp
    · intro a _ ha
      refine Finset.sum_eq_zero fun b _ => ?_
      simp [ha]
    · simp
  unfold hooke strainOf
  simp only [mul_add, Finset.sum_add_distrib, h1]
  rw [(h i j l k).2.1]
  ring

theorem slope_exact (l : List ℝ) (hl : (l.map fun m => -m).Perm l) (h0 : ∃ m ∈ l, m ≠ 0) (c : ℝ) (g : ℝ → ℝ)
    (hg : ∀ m ∈ l, g (-m) = g m) : slope (l.map fun m => (m * 2, 2 * m * c + g m)) = c := by
  have hpos : 0 < (l.map fun m => (m * 2) ^ 2).sum := by
    obtain ⟨m, hm, hm0⟩ := h0
    have hle : (m * 2) ^ 2 ≤ (l.map fun m => (m * 2) ^ 2).sum :=
      List.single_le_sum (fun x hx => by
        obtain ⟨e, -, rfl⟩ := List.mem_map.1 hx
        exact sq_nonneg _) _ (List.mem_map.2 ⟨m, hm, rfl⟩)
    have : 0 < (m * 2) ^ 2 := by positivity
    linarith
  unfold slope
  rw [List.map_map, List.map_map]
  have h1 : (l.map ((fun p : ℝ × ℝ => p.1 * p.2) ∘ fun m => (m * 2, 2 * m * c + g m))).sum =
      c * (l.map fun m => (m * 2) ^ 2).sum + 2 * (l.map fun m => m * g m).sum := by
    rw [← List.sum_map_mul_left, ← List.sum_map_mul_left, ← List.sum_map_add]
    congr 1
    refine List.map_congr_left fun m _ => ?_
    simp only [Function.comp]
    ring
  rw [h1, sum_odd l hl g hg, mul_zero, add_zero]
  exact mul_div_cancel_right₀ c hpos.ne'

theorem component_voigt (t : T4) (h : ElasticSymm t) (e : Mat) (v : Fin 6) :
    hooke t e (component (toVoigt v)).1 (component (toVoigt v)).2 = hooke t e (voigt v).1 (voigt v).2 := by
  by_cases hv : v = 4
  · rw [hv, show component (toVoigt 4) = (2, 0) by decide, show voigt 4 = (0, 2) by decide]
    unfold hooke
    exact Finset.sum_congr rfl fun k _ => Finset.sum_congr rfl fun l _ => by rw [(h 2 0 k l).1]
  · have hc : ∀ v : Fin 6, v ≠ 4 → component (toVoigt v) = voigt v := by decide
    rw [hc v hv]

theorem deformation_zero (p : Fin 3 × Fin 3) : strainOf p 0 = 0 := by
  ext a b
  simp [strainOf]

theorem slopeOf_exact (stressOf : Mat → Fin 6 → ℝ) (axis0 : Mat) (evToGPa vol0 : ℝ) (t : T4) (n : ℕ) (eps : ℝ)
    (hm : Material stressOf axis0 evToGPa vol0 t) (ht : ElasticSymm t) (hn : 2 ≤ n) (he : 1 / 10 ^ 8 < eps)
    (hu : 0 < evToGPa) (hv : 0 < vol0) (v1 v2 : Fin 6) :
    slopeOf stressOf axis0 evToGPa vol0 (magnitudes eps n) v1 v2 =
      t (voigt v2).1 (voigt v2).2 (voigt v1).1 (voigt v1).2 := by
  obtain ⟨even, hev, hst⟩ := hm
  have h0 : ∃ m ∈ magnitudes eps n, m ≠ 0 := by
    have he0 : 0 < eps := lt_trans (by norm_num) he
    refine ⟨-eps, ?_, by linarith⟩
    unfold magnitudes linspace
    rw [List.mem_filter]
    refine ⟨List.mem_map.2 ⟨0, List.mem_range.2 (by omega), by simp⟩, ?_⟩
    rw [abs_neg, abs_of_pos he0]
    simpa using he
  have hbase : ∀ v, stressOf axis0 v = even 0 v := by
    intro v
    have := hst 0 (by simp) v
    rw [add_zero, Matrix.one_mul] at this
    rw [this]
    simp [hooke]
  have hy : ∀ m : ℝ, -evalStress stressOf axis0 evToGPa vol0 (deformation (voigt v1) m * axis0) v2 =
      2 * m * t (voigt v2).1 (voigt v2).2 (voigt v1).1 (voigt v1).2 +
        -((even (strainOf (voigt v1) m) (toVoigt v2) - even 0 (toVoigt v2)) * evToGPa / vol0) := by
    intro m
    unfold evalStress
    rw [deformation_eq, hst _ (strainOf_symm _ _), hbase, component_voigt t ht, hooke_strain t ht]
    field_simp
    ring
  unfold slopeOf
  simp only [hy]
  refine slope_exact _ (magnitudes_perm eps n hn) h0 _ _ fun m _ => ?_
  rw [strainOf_neg, hev]

/-- **C72.**  The elastic constants are exact for every crystal whose stress is linear in the strain up to terms that
are even in the strain, whatever the number of samples (at least two) and the strain: component `v1 v2` is the one
of the elastic tensor in the notation of Voigt, in GPa. -/
theorem C72_exact (stressOf : Mat → Fin 6 → ℝ) (axis0 : Mat) (evToGPa vol0 : ℝ) (t : T4)
    (rots : List (Matrix (Fin 3) (Fin 3) ℤ)) (n : ℕ) (eps : ℝ) (hm : Material stressOf axis0 evToGPa vol0 t)
    (ht : ElasticSymm t) (hr : rots ≠ [])
    (hinv : ∀ r ∈ rots, rotated (axis0 * r.map (fun z => (z : ℝ)) * axis0⁻¹) t = t) (hn : 2 ≤ n)
    (he : 1 / 10 ^ 8 < eps) (hu : 0 < evToGPa) (hv : 0 < vol0) (i j k l : Fin 3) :
    run stressOf axis0 evToGPa vol0 rots n eps (voigtNumber i j) (voigtNumber k l) = t i j k l := by
  have hraw : ∀ a b, raw (slopeOf stressOf axis0 evToGPa vol0 (magnitudes eps n)) a b =
      t (voigt a).1 (voigt a).2 (voigt b).1 (voigt b).2 := by
    intro a b
    rw [raw_eq, slopeOf_exact stressOf axis0 evToGPa vol0 t n eps hm ht hn he hu hv]
    rcases le_total a b with h | h
    · rw [max_eq_right h, min_eq_left h]
    · rw [max_eq_left h, min_eq_right h]
      exact ((ht _ _ _ _).2.2).symm
  have hfull : fullOf (raw (slopeOf stressOf axis0 evToGPa vol0 (magnitudes eps n))) = t := by
    funext a b c d
    rw [fullOf_eq, hraw, read_voigt t ht]
  unfold run
  rw [symmetrize_eq, hfull, avgRot_of_invariant, symAvg_of_symm t ht, read_voigt t ht]
  · exact hr
  · intro r hrr
    have := hinv r hrr
    unfold cartesian
    rw [Matrix.transpose_transpose]
    exact this

/-! ### A crystal that meets the hypotheses -/

/-- Orthorhombic elastic constants: `c11 = 3`, `c12 = 1` and so on, with a quadratic term in the stress. -/
def exTensor : T4 := fun i j k l =>
  (if i = j ∧ k = l then (1 + i.val * k.val : ℝ) else 0) +
    (if (i = k ∧ j = l) then 1 else 0) + (if (i = l ∧ j = k) then 1 else 0)

noncomputable def exStress (m : Mat) (v : Fin 6) : ℝ :=
  -(10 / 160) * hooke exTensor (m - 1) (component v).1 (component v).2 + (m 0 0 - 1) ^ 2 + 1 / 2

def exRots : List (Matrix (Fin 3) (Fin 3) ℤ) := [1, !![-1, 0, 0; 0, -1, 0; 0, 0, 1]]

theorem exRots_closed : ClosedGroup exRots := by
  refine ⟨by simp [exRots], ?_⟩
  unfold exRots
  decide +kernel

theorem exTensor_symm : ElasticSymm exTensor := by
  intro i j k l
  refine ⟨?_, ?_, ?_⟩ <;> fin_cases i <;> fin_cases j <;> fin_cases k <;> fin_cases l <;> simp [exTensor]

theorem exTensor_inv : ∀ r ∈ exRots, rotated ((1 : Mat) * r.map (fun z => (z : ℝ)) * (1 : Mat)⁻¹) exTensor = exTensor := by
  intro r hr
  simp only [exRots, List.mem_cons, List.not_mem_nil, or_false] at hr
  funext i j k l
  have hd : ∃ d : Fin 3 → ℝ, ((1 : Mat) * r.map (fun z => (z : ℝ)) * (1 : Mat)⁻¹) = Matrix.diagonal d ∧
      (d = ![1, 1, 1] ∨ d = ![-1, -1, 1]) := by
    rcases hr with rfl | rfl
    · refine ⟨![1, 1, 1], ?_, Or.inl rfl⟩
      ext a b
      fin_cases a <;> fin_cases b <;> simp
    · refine ⟨![-1, -1, 1], ?_, Or.inr rfl⟩
      ext a b
      fin_cases a <;> fin_cases b <;> simp
  obtain ⟨d, hd1, hd2⟩ := hd
  rw [hd1]
  have hs : rotated (Matrix.diagonal d) exTensor i j k l = d i * d j * d k * d l * exTensor i j k l := by
    unfold rotated
    rw [Finset.sum_eq_single i, Finset.sum_eq_single j, Finset.sum_eq_single k, Finset.sum_eq_single l]
    · simp
    all_goals simp +contextual [Matrix.diagonal_apply, eq_comm]
  rw [hs]
  rcases hd2 with rfl | rfl <;>
    fin_cases i <;> fin_cases j <;> fin_cases k <;> fin_cases l <;> simp [exTensor]

theorem exMaterial : Material exStress 1 160 10 exTensor := by
  refine ⟨fun e _ => (e 0 0) ^ 2 + 1 / 2, fun e v => by simp, fun e _ v => ?_⟩
  unfold exStress
  rw [Matrix.mul_one, add_sub_cancel_left]
  simp [Matrix.add_apply]
  ring

/-- The hypotheses of both theorems are met, and the constants are found. -/
example : run exStress 1 160 10 exRots 7 (1 / 10000) 3 3 = 1 ∧ run exStress 1 160 10 exRots 7 (1 / 10000) 1 2 = 3 := by
  have h := C72_exact exStress 1 160 10 exTensor exRots 7 (1 / 10000) exMaterial exTensor_symm (by simp [exRots])
    exTensor_inv (by norm_num) (by norm_num) (by norm_num) (by norm_num)
  refine ⟨?_, ?_⟩
  · have e : voigtNumber 1 2 = 3 := rfl
    have := h 1 2 1 2
    rw [e] at this
    rw [this]
    simp [exTensor]
  · have e1 : voigtNumber 1 1 = 1 := rfl
    have e2 : voigtNumber 2 2 = 2 := rfl
    have := h 1 1 2 2
    rw [e1, e2] at this
    rw [this]
    simp [exTensor]
    norm_num

end Verif.Elastic
