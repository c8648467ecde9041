import Verif.Lemmas.Split

/-!
# C01, C02: train/test split
-/

namespace Verif.Split
open Spec

/-- **C01.** For every dataset size and every ratio in `[0,1]`, `split_ids_train_test` succeeds,
its two index lists are a partition of `0..n-1` (both strictly increasing), the number of
training indices is `n*r` rounded half-to-even, and as soon as there are two test indices the
first and the last index of the data set are test indices. -/
theorem C01_split_partition (n : ℕ) (r : ℚ) (h0 : 0 ≤ r) (h1 : r ≤ 1) :
    ∃ train test, splitIds n r = .ok (train, test) ∧ IsPartition n train test ∧
      IsRoundHalfEven ((n : ℚ) * r) (train.length : ℤ) ∧
      (2 ≤ test.length → test.head? = some 0 ∧ test.getLast? = some (n - 1)) := by
  obtain ⟨b0, b1⟩ := nTrain_bounds (n := n) h0 h1
  obtain ⟨t, ht⟩ : ∃ t : ℕ, (n : ℤ) - roundHalfEven ((n : ℚ) * r) = t :=
    ⟨((n : ℤ) - roundHalfEven ((n : ℚ) * r)).toNat, by omega⟩
  have htn : t ≤ n := by omega
  obtain ⟨train, e, p⟩ := splitIds_partition htn ht
  refine ⟨train, _, e, p, ?_, ?_⟩
  · have hl := (partition_length p).1
    rw [List.length_map, List.length_range] at hl
    have : (train.length : ℤ) = roundHalfEven ((n : ℚ) * r) := by omega
    rw [this]; exact roundHalfEven_spec _
  · intro h2
    rw [List.length_map, List.length_range] at h2
    obtain ⟨k, rfl⟩ : ∃ k, t = k + 1 := ⟨t - 1, by omega⟩
    constructor
    · rw [List.range_succ_eq_map]; simp [natId, gridId_zero]
    · rw [List.range_succ, List.map_append]
      have := gridId_last (n := n) h2
      simp only [Nat.add_sub_cancel] at this
      simp [natId, this]

example : splitIds 10 (9/10) = .ok ([1, 2, 3, 4, 5, 6, 7, 8, 9], [0]) := by decide +kernel
example : splitIds 7 (1/2) = .ok ([1, 2, 4, 5], [0, 3, 6]) := by decide +kernel

/-- Outside `[0,1]` the guarantee is really lost: a ratio above one asks numpy for a negative
number of grid points. -/
theorem C01_ratio_above_one_raises : splitIds 10 2 = .error .valueError := by decide +kernel

/-- **C02.** `split_train_test` returns two sublists (same relative order) which together are a
permutation of the input, with repetitions kept. -/
theorem C02_split_files {α : Type} (files : List α) (r : ℚ) (h0 : 0 ≤ r) (h1 : r ≤ 1) :
    ∃ train test, splitTrainTest files r = .ok (train, test) ∧
      train.Sublist files ∧ test.Sublist files ∧ (train ++ test).Perm files ∧
      IsRoundHalfEven ((files.length : ℚ) * r) (train.length : ℤ) := by
  obtain ⟨a, b, e, p, hr, -⟩ := C01_split_partition files.length r h0 h1
  have hl : ∀ i, i ∈ a ∨ i ∈ b → i < files.length := fun i hi => (p.2.2.2 i).mpr hi
  refine ⟨a.filterMap (files[·]?), b.filterMap (files[·]?), ?_, ?_, ?_, ?_, ?_⟩
  · unfold splitTrainTest
    rw [e]
    simp only [bind, Except.bind, pure, Except.pure]
    rw [gather_eq files a fun i hi => hl i (.inl hi), gather_eq files b fun i hi => hl i (.inr hi)]
  · exact partition_sublist files p.1 fun i hi => hl i (.inl hi)
  · exact partition_sublist files p.2.1 fun i hi => hl i (.inr hi)
  · rw [← List.filterMap_append]
    have := (partition_length p).2.filterMap (files[·]?)
    rwa [range_filterMap_get] at this
  · have : (a.filterMap (files[·]?)).length = a.length := by
      have h : ∀ l : List ℕ, (∀ i ∈ l, i < files.length) →
          (l.filterMap (files[·]?)).length = l.length := by
        intro l
        induction l with
        | nil => simp
        | cons i l ih =>
          intro hi
          have hi' : i < files.length := hi i (by simp)
          simp [List.getElem?_eq_getElem hi', ih fun j hj => hi j (by simp [hj])]
      exact h a fun i hi => hl i (.inl hi)
    rwa [this]

example : splitTrainTest ["a", "b", "c", "b", "d"] (3/5) = .ok (["b", "c", "b"], ["a", "d"]) := by
  decide +kernel

end Verif.Split
