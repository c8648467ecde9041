import Verif.Model.Split
import Verif.Lemmas.Py

namespace Verif.Split
open Spec

/-- The rounded grid as an explicit function of the position. -/
def gridId (n t : ℕ) (i : ℕ) : ℤ :=
  roundHalfEven (if (t : ℤ) = 1 then 0 else 0 + (i : ℚ) * (((n : ℚ) - 1 - 0) / (((t : ℤ) : ℚ) - 1)))

theorem nTrain_bounds {n : ℕ} {r : ℚ} (h0 : 0 ≤ r) (h1 : r ≤ 1) :
    0 ≤ roundHalfEven ((n : ℚ) * r) ∧ roundHalfEven ((n : ℚ) * r) ≤ n := by
  have hn : (0 : ℚ) ≤ n := Nat.cast_nonneg n
  constructor
  · apply int_le_roundHalfEven; push_cast; positivity
  · apply roundHalfEven_le_int; push_cast; nlinarith

theorem gridId_strict {n t i j : ℕ} (ht : t ≤ n) (hij : i < j) (hj : j < t) :
    gridId n t i < gridId n t j := by
  have ht1 : (t : ℤ) ≠ 1 := by omega
  have hne : ((t : ℤ) : ℚ) - 1 > 0 := by
    have : (2 : ℤ) ≤ t := by omega
    have : ((2 : ℤ) : ℚ) ≤ ((t : ℤ) : ℚ) := by exact_mod_cast this
    push_cast at this ⊢; linarith
  unfold gridId
  rw [if_neg ht1, if_neg ht1]
  rcases Nat.lt_or_ge t n with h | h
  · apply roundHalfEven_lt
    set s := ((n : ℚ) - 1 - 0) / (((t : ℤ) : ℚ) - 1) with hs
    have hs1 : 1 < s := by
      rw [hs, lt_div_iff₀ hne]
      have : (t : ℚ) < n := by exact_mod_cast h
      push_cast; linarith
    have hij' : (i : ℚ) + 1 ≤ j := by exact_mod_cast hij
    nlinarith
  · have hnt : n = t := by omega
    subst hnt
    have hs : ((n : ℚ) - 1 - 0) / (((n : ℤ) : ℚ) - 1) = 1 := by
      rw [sub_zero]; push_cast at hne ⊢; exact div_self (ne_of_gt hne)
    rw [hs]
    have e : ∀ k : ℕ, (0 : ℚ) + (k : ℚ) * 1 = ((k : ℤ) : ℚ) := by intro k; push_cast; ring
    rw [e, e, roundHalfEven_intCast, roundHalfEven_intCast]
    exact_mod_cast hij

theorem gridId_zero (n t : ℕ) : gridId n t 0 = 0 := by
  unfold gridId
  have : (0 : ℚ) = ((0 : ℤ) : ℚ) := by norm_num
  split
  · rw [this, roundHalfEven_intCast]
  · simp only [Nat.cast_zero, zero_mul, zero_add]; rw [this, roundHalfEven_intCast]

theorem gridId_last {n t : ℕ} (ht : 2 ≤ t) : gridId n t (t - 1) = (n : ℤ) - 1 := by
  unfold gridId
  have ht1 : (t : ℤ) ≠ 1 := by omega
  have hne : (t : ℚ) - 1 ≠ 0 := by
    have : (2 : ℚ) ≤ t := by exact_mod_cast ht
    intro h; linarith
  rw [if_neg ht1]
  have : (0 : ℚ) + ((t - 1 : ℕ) : ℚ) * (((n : ℚ) - 1 - 0) / (((t : ℤ) : ℚ) - 1)) = (((n : ℤ) - 1 : ℤ) : ℚ) := by
    rw [Nat.cast_sub (by omega)]; push_cast; field_simp; ring
  rw [this, roundHalfEven_intCast]

theorem gridId_bounds {n t i : ℕ} (ht : t ≤ n) (hi : i < t) :
    0 ≤ gridId n t i ∧ gridId n t i < n := by
  constructor
  · rcases Nat.eq_zero_or_pos i with h | h
    · subst h; rw [gridId_zero]
    · have := gridId_strict ht h hi
      rw [gridId_zero] at this; omega
  · rcases Nat.lt_or_ge t 2 with h | h
    · have : i = 0 := by omega
      subst this; rw [gridId_zero]; omega
    · have hl := gridId_last (n := n) h
      rcases Nat.lt_or_ge i (t - 1) with h' | h'
      · have := gridId_strict ht h' (by omega); omega
      · have : i = t - 1 := by omega
        subst this; omega

/-- `testIds` is the rounded grid with `t` points. -/
theorem testIds_eq {n t : ℕ} {r : ℚ} (h : (n : ℤ) - roundHalfEven ((n : ℚ) * r) = t) :
    testIds n r = .ok ((List.range t).map (gridId n t)) := by
  unfold testIds linspace
  simp only [h]
  rw [if_neg (by omega)]
  simp only [bind, Except.bind, pure, Except.pure, Int.toNat_natCast]
  rw [List.map_map]
  rfl

def natId (n t i : ℕ) : ℕ := (gridId n t i).toNat

theorem splitIds_eq {n t : ℕ} {r : ℚ} (ht : t ≤ n)
    (h : (n : ℤ) - roundHalfEven ((n : ℚ) * r) = t) :
    splitIds n r = .ok (whereTrue (((List.range t).map (natId n t)).foldl
      (fun m i => m.set i false) (List.replicate n true)), (List.range t).map (natId n t)) := by
  unfold splitIds
  rw [testIds_eq h]
  simp only [bind, Except.bind, pure, Except.pure]
  have : ((List.range t).map (gridId n t)).mapM (pyIndex n)
      = .ok (((List.range t).map (gridId n t)).map Int.toNat) := by
    apply mapM_except_ok
    intro a ha
    obtain ⟨i, hi, rfl⟩ := List.mem_map.mp ha
    have hb := gridId_bounds ht (List.mem_range.mp hi)
    unfold pyIndex
    rw [if_pos hb]
  rw [this, List.map_map]
  rfl

theorem foldl_set_get (l : List ℕ) (m : List Bool) (i : ℕ) :
    (l.foldl (fun m i => m.set i false) m)[i]? = some true ↔ m[i]? = some true ∧ i ∉ l := by
  induction l generalizing m with
  | nil => simp
  | cons a l ih =>
    rw [List.foldl_cons, ih, List.getElem?_set]
    by_cases h : a = i
    · subst h
      by_cases h2 : a < m.length
      · simp [h2]
      · simp [h2]
    · have h' : i ≠ a := fun e => h e.symm
      simp [h, h']

theorem partition_length {n : ℕ} {a b : List ℕ} (h : IsPartition n a b) :
    a.length + b.length = n ∧ (a ++ b).Perm (List.range n) := by
  obtain ⟨ha, hb, hd, hc⟩ := h
  have na : a.Nodup := ha.imp (fun h => Nat.ne_of_lt h)
  have nb : b.Nodup := hb.imp (fun h => Nat.ne_of_lt h)
  have hp : (a ++ b).Perm (List.range n) := by
    rw [List.perm_ext_iff_of_nodup]
    · intro x; rw [List.mem_append, List.mem_range, hc]
    · exact List.nodup_append.mpr ⟨na, nb, fun x hx y hy e => hd x hx (e ▸ hy)⟩
    · exact List.nodup_range
  refine ⟨?_, hp⟩
  have := hp.length_eq
  simpa using this

theorem splitIds_partition {n t : ℕ} {r : ℚ} (ht : t ≤ n)
    (h : (n : ℤ) - roundHalfEven ((n : ℚ) * r) = t) :
    ∃ train, splitIds n r = .ok (train, (List.range t).map (natId n t)) ∧
      IsPartition n train ((List.range t).map (natId n t)) := by
  refine ⟨_, splitIds_eq ht h, whereTrue_sorted _, ?_, ?_, ?_⟩
  · rw [List.pairwise_map]
    refine List.Pairwise.imp_of_mem ?_ (List.pairwise_lt_range (n := t))
    intro i j hi hj hij
    have hj' := List.mem_range.mp hj
    have h1 := gridId_strict ht hij hj'
    have h2 := (gridId_bounds ht (List.mem_range.mp hi)).1
    unfold natId; omega
  · intro i hi
    rw [mem_whereTrue, foldl_set_get] at hi
    exact hi.2
  · intro i
    rw [mem_whereTrue, foldl_set_get]
    have hrep : (List.replicate n true)[i]? = some true ↔ i < n := by
      rw [List.getElem?_replicate]; split <;> simp_all
    rw [hrep]
    constructor
    · intro hi
      by_cases hm : i ∈ (List.range t).map (natId n t)
      · exact Or.inr hm
      · exact Or.inl ⟨hi, hm⟩
    · rintro (hl | hr)
      · exact hl.1
      · obtain ⟨k, hk, rfl⟩ := List.mem_map.mp hr
        have := gridId_bounds ht (List.mem_range.mp hk)
        unfold natId; omega

theorem partition_sublist {α : Type} (xs : List α) {ids : List ℕ}
    (h : ids.Pairwise (· < ·)) (hlt : ∀ i ∈ ids, i < xs.length) :
    List.Sublist (ids.filterMap (xs[·]?)) xs := by
  have hs : List.Sublist ids (List.range xs.length) := by
    have e : ids = (List.range xs.length).filter (· ∈ ids) := by
      apply List.Perm.eq_of_pairwise (le := (· < ·))
      · intro a b _ _ h1 h2; omega
      · exact h
      · exact List.Pairwise.filter _ List.pairwise_lt_range
      · rw [List.perm_ext_iff_of_nodup]
        · intro a
          simp only [List.mem_filter, List.mem_range, decide_eq_true_eq]
          exact ⟨fun ha => ⟨hlt a ha, ha⟩, fun ha => ha.2⟩
        · exact h.imp (fun h => Nat.ne_of_lt h)
        · exact List.Nodup.filter _ List.nodup_range
    rw [e]; exact List.filter_sublist
  have := hs.filterMap (xs[·]?)
  rwa [range_filterMap_get] at this

end Verif.Split
