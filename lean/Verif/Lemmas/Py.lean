import Verif.Model.Py
import Verif.Spec.Round
import Mathlib.Tactic.Linarith
import Mathlib.Tactic.NormNum
import Mathlib.Tactic.Ring
import Mathlib.Tactic.FieldSimp
import Mathlib.Tactic.Push
import Mathlib.Data.List.Nodup
import Mathlib.Algebra.Order.Group.Unbundled.Abs
import Mathlib.Algebra.Ring.Int.Parity

namespace Verif
open Spec

theorem roundHalfEven_spec (x : ℚ) : IsRoundHalfEven x (roundHalfEven x) := by
  have h1 := Int.floor_le x
  have h2 := Int.lt_floor_add_one x
  unfold IsRoundHalfEven roundHalfEven
  simp only
  split_ifs with ha hb hc
  · constructor
    · rw [abs_le]; constructor <;> linarith
    · intro h
      rw [abs_eq (by norm_num)] at h
      rcases h with h | h <;> linarith
  · push_cast
    constructor
    · rw [abs_le]; constructor <;> linarith
    · intro h
      rw [abs_eq (by norm_num)] at h
      rcases h with h | h <;> linarith
  · constructor
    · rw [abs_le]; constructor <;> linarith
    · intro _; exact Int.even_iff.mpr hc
  · push_cast
    constructor
    · rw [abs_le]; constructor <;> linarith
    · intro _
      rw [Int.even_iff]; omega

theorem roundHalfEven_unique {x : ℚ} {k : ℤ} (h : IsRoundHalfEven x k) : k = roundHalfEven x := by
  obtain ⟨h1, h1'⟩ := h
  obtain ⟨h2, h2'⟩ := roundHalfEven_spec x
  set m := roundHalfEven x
  have a1 := abs_le.mp h1
  have a2 := abs_le.mp h2
  have b1 : (k : ℚ) - m ≤ 1 := by linarith [a1.1, a1.2, a2.1, a2.2]
  have b2 : (-1 : ℚ) ≤ (k : ℚ) - m := by linarith [a1.1, a1.2, a2.1, a2.2]
  have c1 : k - m ≤ 1 := by exact_mod_cast b1
  have c2 : -1 ≤ k - m := by exact_mod_cast b2
  by_contra hne
  have : k = m + 1 ∨ m = k + 1 := by omega
  rcases this with h | h
  · have hk : (k : ℚ) = m + 1 := by exact_mod_cast h
    have e1 : |(k : ℚ) - x| = 1/2 := by
      rw [abs_eq (by norm_num)]; left; linarith [a1.1, a1.2, a2.1, a2.2]
    have e2 : |(m : ℚ) - x| = 1/2 := by
      rw [abs_eq (by norm_num)]; right; linarith [a1.1, a1.2, a2.1, a2.2]
    have p1 := Int.even_iff.mp (h1' e1)
    have p2 := Int.even_iff.mp (h2' e2)
    omega
  · have hk : (m : ℚ) = k + 1 := by exact_mod_cast h
    have e1 : |(k : ℚ) - x| = 1/2 := by
      rw [abs_eq (by norm_num)]; right; linarith [a1.1, a1.2, a2.1, a2.2]
    have e2 : |(m : ℚ) - x| = 1/2 := by
      rw [abs_eq (by norm_num)]; left; linarith [a1.1, a1.2, a2.1, a2.2]
    have p1 := Int.even_iff.mp (h1' e1)
    have p2 := Int.even_iff.mp (h2' e2)
    omega

theorem roundHalfEven_le (x : ℚ) : (roundHalfEven x : ℚ) ≤ x + 1/2 := by
  have := (abs_le.mp (roundHalfEven_spec x).1).2; linarith

theorem le_roundHalfEven (x : ℚ) : x - 1/2 ≤ (roundHalfEven x : ℚ) := by
  have := (abs_le.mp (roundHalfEven_spec x).1).1; linarith

theorem roundHalfEven_intCast (k : ℤ) : roundHalfEven (k : ℚ) = k := by
  symm; apply roundHalfEven_unique
  constructor <;> norm_num

theorem roundHalfEven_lt {x y : ℚ} (h : x + 1 < y) : roundHalfEven x < roundHalfEven y := by
  have h1 := roundHalfEven_le x
  have h2 := le_roundHalfEven y
  have : (roundHalfEven x : ℚ) < roundHalfEven y := by linarith
  exact_mod_cast this

/-- Monotone w.r.t. an integer upper bound. -/
theorem roundHalfEven_le_int {x : ℚ} {k : ℤ} (h : x ≤ k) : roundHalfEven x ≤ k := by
  by_contra hc
  have hc' : k + 1 ≤ roundHalfEven x := by omega
  have h1 := roundHalfEven_le x
  have : ((k + 1 : ℤ) : ℚ) ≤ roundHalfEven x := by exact_mod_cast hc'
  push_cast at this; linarith

theorem int_le_roundHalfEven {x : ℚ} {k : ℤ} (h : (k : ℚ) ≤ x) : k ≤ roundHalfEven x := by
  by_contra hc
  have hc' : roundHalfEven x + 1 ≤ k := by omega
  have h1 := le_roundHalfEven x
  have : ((roundHalfEven x + 1 : ℤ) : ℚ) ≤ k := by exact_mod_cast hc'
  push_cast at this; linarith

variable {α β : Type}

theorem mapM_except_ok {ε : Type} (f : α → Except ε β) (g : α → β) :
    ∀ (l : List α), (∀ a ∈ l, f a = .ok (g a)) → l.mapM f = .ok (l.map g)
  | [], _ => rfl
  | a :: l, h => by
    rw [List.mapM_cons, h a (by simp), mapM_except_ok f g l fun b hb => h b (by simp [hb])]
    rfl

theorem gather_eq (xs : List α) (ids : List ℕ) (h : ∀ i ∈ ids, i < xs.length) :
    gather xs ids = .ok (ids.filterMap (xs[·]?)) := by
  unfold gather
  induction ids with
  | nil => rfl
  | cons i ids ih =>
    have hi : i < xs.length := h i (by simp)
    rw [List.mapM_cons, ih fun j hj => h j (by simp [hj])]
    simp [List.getElem?_eq_getElem hi, orErr]
    rfl

theorem range_filterMap_get (xs : List α) :
    (List.range xs.length).filterMap (xs[·]?) = xs := by
  apply List.ext_getElem?
  intro i
  induction xs generalizing i with
  | nil => simp
  | cons x xs ih =>
    rw [List.length_cons, List.range_succ_eq_map]
    simp only [List.filterMap_cons, List.getElem?_cons_zero, List.filterMap_map]
    cases i with
    | zero => simp
    | succ i => simpa [Function.comp_def] using ih i

theorem slice_length (xs : List α) (b e : ℕ) (he : e ≤ xs.length) :
    (slice xs b e).length = e - b := by
  simp [slice, Nat.min_eq_left he]

theorem mem_whereTrue {m : List Bool} {i : ℕ} : i ∈ whereTrue m ↔ m[i]? = some true := by
  unfold whereTrue
  simp only [List.mem_filter, List.mem_range, beq_iff_eq]
  constructor
  · exact fun h => h.2
  · intro h
    refine ⟨?_, h⟩
    exact (List.getElem?_eq_some_iff.mp h).1

theorem whereTrue_sorted (m : List Bool) : (whereTrue m).Pairwise (· < ·) :=
  List.Pairwise.filter _ List.pairwise_lt_range

end Verif
