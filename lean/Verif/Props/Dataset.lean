import Verif.Lemmas.Dataset
import Verif.Props.Split
import Verif.Props.AtomOrder

/-! # C03, C04, C05: splitting, batching and sorting a DFT data set -/

namespace Verif.Dataset
open Spec
variable {K : Type}

/-! ## A concrete data set used for the non-vacuity examples -/

def exA : Structure ℚ := AtomOrder.exStr
def exB : Structure ℚ :=
  { exA with positions := [⟨0, 0, 0⟩], nAtoms := [0, 1], elements := ["O"], types := [0] }
def exC : Structure ℚ :=
  { exA with positions := [⟨0, 0, 0⟩, ⟨1/2, 1/2, 1/2⟩], nAtoms := [1, 1],
             elements := ["Mg", "O"], types := [0, 1] }

def exRecs : List (Rec ℚ) :=
  [⟨exA, -3, [1, 2, 3, 4, 5, 6, 7, 8, 9], [1, 2, 3, 4, 5, 6]⟩,
   ⟨exB, -1, [10, 11, 12], [7, 8, 9, 10, 11, 12]⟩,
   ⟨exC, -2, [13, 14, 15, 16, 17, 18], [13, 14, 15, 16, 17, 18]⟩]

def exDFT : DFT ℚ where
  structures := exRecs.map (·.st)
  energies := exRecs.map (·.energy)
  forces := exRecs.flatMap (·.forces)
  stresses := exRecs.flatMap (·.stress)
  volumes := exRecs.map (·.st.volume)
  totalNAtoms := exRecs.map (·.natoms)
  elements := ["Mg", "O"]
  files := exRecs.map (·.st.name)
  existForce := true
  existStress := true

theorem exDFT_represents : Represents exDFT exRecs :=
  ⟨rfl, rfl, rfl, rfl, rfl, rfl, rfl, by decide +kernel⟩

/-- A list of records and an optional data set say the same thing (`None` = no record). -/
def OptRepresents (d : Option (DFT K)) (rs : List (Rec K)) : Prop :=
  match d with
  | none => rs = []
  | some d => Represents d rs

/-- **C03.** `DatasetDFT.split`: the records (structure with its own energy, force rows and stress
rows) are divided between train and test; each side keeps the original order, nothing is lost or
duplicated, and the training side has `n*r` (rounded half to even) records. -/
theorem C03_split_aligned (d : DFT K) (rs : List (Rec K)) (h : Represents d rs)
    (hpos : ∀ r ∈ rs, 0 < r.natoms) (r : ℚ) (h0 : 0 ≤ r) (h1 : r ≤ 1) :
    ∃ train test rsTrain rsTest, splitDFT d r = .ok (train, test) ∧
      OptRepresents train rsTrain ∧ OptRepresents test rsTest ∧
      rsTrain.Sublist rs ∧ rsTest.Sublist rs ∧ (rsTrain ++ rsTest).Perm rs ∧
      IsRoundHalfEven ((rs.length : ℚ) * r) (rsTrain.length : ℤ) := by
  have hlen : d.energies.length = rs.length := by rw [h.2.1]; simp
  obtain ⟨a, b, e, p, hr, -⟩ := Split.C01_split_partition rs.length r h0 h1
  have hl : ∀ i, i ∈ a ∨ i ∈ b → i < rs.length := fun i hi => (p.2.2.2 i).mpr hi
  have key : ∀ ids : List ℕ, (∀ i ∈ ids, i < rs.length) →
      ∃ o, selectOpt d ids = .ok o ∧
        OptRepresents o (ids.filterMap (rs[·]?)) ∧
        (ids.filterMap (rs[·]?)).length = ids.length := by
    intro ids hlt
    have hlen' : (ids.filterMap (rs[·]?)).length = ids.length := by
      induction ids with
      | nil => simp
      | cons i l ih =>
        have hi' : i < rs.length := hlt i (by simp)
        simp [List.getElem?_eq_getElem hi', ih fun j hj => hlt j (by simp [hj])]
    unfold selectOpt
    by_cases hne : ids.length > 0
    · rw [if_pos hne]
      have : ∃ r ∈ ids.filterMap (rs[·]?), 0 < r.natoms := by
        obtain ⟨x, hx⟩ := List.exists_mem_of_length_pos (hlen' ▸ hne)
        refine ⟨x, hx, hpos x ?_⟩
        obtain ⟨i, -, hi⟩ := List.mem_filterMap.mp hx
        exact List.mem_of_getElem? hi
      obtain ⟨d', e', hr', -⟩ := select_represents h hlt this
      exact ⟨some d', by rw [e']; rfl, hr', hlen'⟩
    · rw [if_neg hne]
      have : ids = [] := by
        cases ids with
        | nil => rfl
        | cons i l => simp at hne
      subst this
      exact ⟨none, rfl, rfl, hlen'⟩
  obtain ⟨oa, ea, ra, la⟩ := key a fun i hi => hl i (.inl hi)
  obtain ⟨ob, eb, rb, lb⟩ := key b fun i hi => hl i (.inr hi)
  refine ⟨oa, ob, a.filterMap (rs[·]?), b.filterMap (rs[·]?), ?_, ra, rb,
    Split.partition_sublist rs p.1 fun i hi => hl i (.inl hi),
    Split.partition_sublist rs p.2.1 fun i hi => hl i (.inr hi), ?_, ?_⟩
  · unfold splitDFT
    rw [hlen, e]
    simp only [bind, Except.bind, pure, Except.pure]
    rw [ea]
    simp only
    rw [eb]
  · rw [← List.filterMap_append]
    have := (Split.partition_length p).2.filterMap (rs[·]?)
    rwa [range_filterMap_get] at this
  · rwa [la]

example : ∀ r ∈ exRecs, 0 < r.natoms := by decide +kernel
example : (splitDFT exDFT (1/3)).toOption.map (fun p => (p.1.map (·.forces), p.2.map (·.energies)))
    = some (some [10, 11, 12], some [-3, -2]) := by decide +kernel

/-- **C04 (ranges).** For every batch size `b ≥ 1` the ranges of `get_batch_slice` list
`0, …, n-1` consecutively, none is empty and none is longer than `b`. -/
theorem C04_batches_tile (n b : ℕ) (hb : 0 < b) :
    ∃ begins ends, batchSlice n b = .ok (begins, ends) ∧
      ((begins.zip ends).flatMap fun p => List.range' p.1 (p.2 - p.1)) = List.range n ∧
      ∀ p ∈ begins.zip ends, p.1 < p.2 ∧ p.2 - p.1 ≤ b := by
  obtain ⟨m, hm, hm0, hmb⟩ := rangeStep_tile b hb n
  obtain ⟨begins, ends, e, hz⟩ := batchSlice_zip n b hb
  rw [← hm] at hz
  refine ⟨begins, ends, e, ?_, ?_⟩
  · rw [hz, List.flatMap_map]
    have step : ∀ k, k ≤ m → ((List.range k).flatMap fun i =>
        List.range' (i * b) (min ((i + 1) * b) n - i * b)) = List.range (min (k * b) n) := by
      intro k
      induction k with
      | zero => intro _; simp
      | succ k ih =>
        intro hk
        rw [List.range_succ, List.flatMap_append, ih (by omega)]
        simp only [List.flatMap_cons, List.flatMap_nil, List.append_nil]
        have hkb : k * b ≤ n := by
          have := (hmb (by omega)).1
          have h2 : k * b ≤ (m - 1) * b := Nat.mul_le_mul_right b (by omega)
          omega
        rw [Nat.min_eq_left hkb]
        have hle : k * b ≤ min ((k + 1) * b) n := by
          rw [Nat.le_min]; exact ⟨Nat.mul_le_mul_right b (by omega), hkb⟩
        generalize min ((k + 1) * b) n = M at hle ⊢
        obtain ⟨j, rfl⟩ := Nat.exists_eq_add_of_le hle
        rw [Nat.add_sub_cancel_left, List.range_add, List.range'_eq_map_range]
    rw [step m (le_refl m)]
    rcases Nat.eq_zero_or_pos m with h0 | h0
    · have := hm0.mpr h0; simp [this]
    · rw [Nat.min_eq_right (hmb h0).2]
  · intro p hp
    rw [hz] at hp
    obtain ⟨i, hi, rfl⟩ := List.mem_map.mp hp
    have hi := List.mem_range.mp hi
    obtain ⟨hlo, hhi⟩ := hmb (by omega)
    have h2 : i * b ≤ (m - 1) * b := Nat.mul_le_mul_right b (by omega)
    have h3 : (i + 1) * b = i * b + b := by ring
    simp only [h3]
    omega

/-- A batch size of zero is rejected (Python `range` with step 0). -/
theorem C04_batch_size_zero (n : ℕ) : batchSlice n 0 = .error .valueError := rfl

/-- **C04 (slices).** For every batch size `b ≥ 1`, slicing a data set over the batch ranges gives
data sets that represent consecutive groups of records (every structure with its own energy, force
and stress rows), and these groups concatenate to the original record list. -/
theorem C04_batches_of_dataset (d : DFT K) (rs : List (Rec K)) (h : Represents d rs) (b : ℕ)
    (hb : 0 < b) :
    ∃ begins ends groups, batchSlice d.energies.length b = .ok (begins, ends) ∧
      List.Forall₂ Represents ((begins.zip ends).map fun p => sliceDFT d p.1 p.2) groups ∧
      groups.flatten = rs ∧ (∀ g ∈ groups, g ≠ [] ∧ g.length ≤ b) := by
  have hlen : d.energies.length = rs.length := by rw [h.2.1]; simp
  obtain ⟨begins, ends, e, ht, hs⟩ := C04_batches_tile rs.length b hb
  have hle : ∀ p ∈ begins.zip ends, p.2 ≤ rs.length := by
    intro p hp
    obtain ⟨h1, h2⟩ := hs p hp
    have : p.2 - 1 ∈ ((begins.zip ends).flatMap fun p => List.range' p.1 (p.2 - p.1)) := by
      rw [List.mem_flatMap]
      exact ⟨p, hp, by rw [List.mem_range'_1]; omega⟩
    rw [ht, List.mem_range] at this
    omega
  refine ⟨begins, ends, (begins.zip ends).map fun p => slice rs p.1 p.2, by rw [hlen, e], ?_, ?_, ?_⟩
  · rw [List.forall₂_map_left_iff, List.forall₂_map_right_iff, List.forall₂_same]
    intro p hp
    obtain ⟨h1, h2, h3, h4, h5, h6, h7, hw⟩ := h
    have hp2 := hle p hp
    have hp1 := (hs p hp).1
    refine ⟨?_, ?_, ?_, ?_, ?_, ?_, ?_, ?_⟩
    · simp only [sliceDFT, h1, slice_map]
    · simp only [sliceDFT, h2, slice_map]
    · simp only [sliceDFT, h3, h6]
      rw [natoms_offs hw, natoms_offs hw, slice_offs]
    · simp only [sliceDFT, h4]
      rw [stress_offs hw _ hp2, stress_offs hw _ (by omega), slice_offs]
    · simp only [sliceDFT, h5, slice_map]
    · simp only [sliceDFT, h6, slice_map]
    · simp only [sliceDFT, h7, slice_map]
    · intro r hr
      exact hw r (List.mem_of_mem_take (List.mem_of_mem_drop hr))
  · rw [← List.flatMap_def]
    have : ((begins.zip ends).flatMap fun p => slice rs p.1 p.2)
        = (begins.zip ends).flatMap fun p => (List.range' p.1 (p.2 - p.1)).filterMap (rs[·]?) := by
      rw [List.flatMap_def, List.flatMap_def]; congr 1
      apply List.map_congr_left
      intro p hp
      rw [range'_filterMap_get]
      unfold slice
      rw [List.drop_take]
    rw [this, ← List.filterMap_flatMap, ht, range_filterMap_get]
  · intro g hg
    obtain ⟨p, hp, rfl⟩ := List.mem_map.mp hg
    have := slice_length rs p.1 p.2 (hle p hp)
    have h2 := hs p hp
    constructor
    · intro hnil; rw [hnil] at this; simp at this; omega
    · omega

example : batchSlice 7 3 = .ok ([0, 3, 6], [3, 6, 7]) := by decide +kernel
example : (sliceDFT exDFT 1 3).forces = [10, 11, 12, 13, 14, 15, 16, 17, 18] := by decide +kernel

/-- **C05.** `DatasetDFT.sort`: for every sorting permutation `np.argsort` may return, the result
is the same collection of records, in non-decreasing number of atoms. -/
theorem C05_sort (argsort : List ℕ → List ℕ) (d : DFT K) (rs : List (Rec K))
    (h : Represents d rs) (ha : IsArgsort d.totalNAtoms (argsort d.totalNAtoms))
    (hpos : ∃ r ∈ rs, 0 < r.natoms) :
    ∃ d' rs', sortDFT argsort d = .ok d' ∧ Represents d' rs' ∧ rs'.Perm rs ∧
      (rs'.map (·.natoms)).Pairwise (· ≤ ·) ∧ d'.elements = d.elements ∧
      d'.existForce = d.existForce ∧ d'.existStress = d.existStress := by
  have h6 : d.totalNAtoms = rs.map (·.natoms) := h.2.2.2.2.2.1
  obtain ⟨hp, hsorted⟩ := ha
  set ids := argsort d.totalNAtoms with hids
  have hl : d.totalNAtoms.length = rs.length := by rw [h6]; simp
  rw [hl] at hp
  have hlt : ∀ i ∈ ids, i < rs.length := fun i hi => List.mem_range.mp (hp.mem_iff.mp hi)
  have hperm : (ids.filterMap (rs[·]?)).Perm rs := by
    have := hp.filterMap (rs[·]?)
    rwa [range_filterMap_get] at this
  obtain ⟨r, hr, hr0⟩ := hpos
  obtain ⟨d', e, hr', x1, x2, x3⟩ := select_represents h hlt ⟨r, hperm.mem_iff.mpr hr, hr0⟩
  refine ⟨d', ids.filterMap (rs[·]?), e, hr', hperm, ?_, x1, x2, x3⟩
  rw [h6, filterMap_get_map] at hsorted
  exact hsorted

/-- Insertion sort of the positions by key: an `argsort`. -/
def insArgsort (keys : List ℕ) : List ℕ :=
  ((List.range keys.length).insertionSort fun i j => keys[i]?.getD 0 ≤ keys[j]?.getD 0)

example : IsArgsort exDFT.totalNAtoms (insArgsort exDFT.totalNAtoms) := by
  constructor
  · exact List.perm_insertionSort _ _
  · decide +kernel
example : (sortDFT insArgsort exDFT).toOption.map (fun d => (d.energies, d.forces.take 4))
    = some ([-1, -2, -3], [10, 11, 12, 13]) := by decide +kernel

/-- The exclusion in C05 is real: sorting a data set without any atom (for instance an empty data
set) raises, because the force index array is an empty Python list. -/
theorem C05_sort_empty_raises (argsort : List ℕ → List ℕ)
    (ha : IsArgsort [] (argsort [])) :
    sortDFT argsort (⟨[], [], [], [], [], [], [], [], true, true⟩ : DFT K) = .error .indexError := by
  have : argsort [] = [] := by
    have := ha.1; simpa using this
  unfold sortDFT
  simp only [this]
  rfl

end Verif.Dataset
