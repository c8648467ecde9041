import Verif.Model.GridOptimal
import Verif.Lemmas.Py
import Mathlib.Order.Basic
import Mathlib.Data.List.Nodup
import Mathlib.Data.Finset.Max
import Mathlib.Algebra.Order.Field.Rat

/-!
C43: the models kept by the grid search.
-/

namespace Verif.GridOptimal
variable {K α : Type}

/-- `b` is strictly better than `a` in cost and in both errors. -/
def Dominates [LT K] (b a : Entry K α) : Prop :=
  b.time < a.time ∧ b.rmseE < a.rmseE ∧ b.rmseF < a.rmseF

theorem better_iff [LT K] [DecidableLT K] (b a : Entry K α) :
    better b a = true ↔ Dominates b a := by
  simp [better, Dominates, and_assoc]

theorem mem_findLowerConvex [Preorder K] [DecidableLT K] (data : List (Entry K α)) (i : ℕ) :
    i ∈ findLowerConvex data ↔
      ∃ a, data[i]? = some a ∧ ∀ b ∈ data, ¬ Dominates b a := by
  unfold findLowerConvex
  simp only [List.mem_map, List.mem_filter, Bool.not_eq_true', Prod.exists,
    exists_eq_right]
  constructor
  · rintro ⟨a, hm, hn⟩
    refine ⟨a, by simpa [List.mem_zipIdx_iff_getElem?] using hm, fun b hb hd => ?_⟩
    rw [List.any_eq_false] at hn
    obtain ⟨j, hj⟩ := List.getElem?_of_mem hb
    have := hn (b, j) (by simpa [List.mem_zipIdx_iff_getElem?] using hj)
    rw [Bool.and_eq_true, better_iff] at this
    apply this
    refine ⟨?_, hd⟩
    rw [decide_eq_true_eq]
    rintro rfl
    have ha : data[i]? = some a := by simpa [List.mem_zipIdx_iff_getElem?] using hm
    rw [ha] at hj
    cases hj
    exact lt_irrefl _ hd.1
  · rintro ⟨a, ha, hn⟩
    refine ⟨a, by simpa [List.mem_zipIdx_iff_getElem?] using ha, ?_⟩
    rw [List.any_eq_false]
    rintro ⟨b, j⟩ hb hc
    rw [Bool.and_eq_true, better_iff] at hc
    have hb' : data[j]? = some b := by simpa [List.mem_zipIdx_iff_getElem?] using hb
    exact hn b (List.mem_of_getElem? hb') hc.2

theorem findLowerConvex_sorted [LT K] [DecidableLT K] (data : List (Entry K α)) :
    (findLowerConvex data).Pairwise (· < ·) := by
  unfold findLowerConvex
  have h : (data.zipIdx.map (·.2)).Pairwise (· < ·) := by
    rw [List.zipIdx_map_snd]
    exact List.pairwise_lt_range' 
  exact h.sublist ((List.filter_sublist).map _)

/-- **C43.** The filter returns the positions of the entries that no entry beats in all of cost,
energy error and force error, each once and in the original order. -/
theorem C43_pareto [Preorder K] [DecidableLT K] (data : List (Entry K α)) :
    (∀ i, i ∈ findLowerConvex data ↔
      ∃ a, data[i]? = some a ∧ ∀ b ∈ data, ¬ (b.time < a.time ∧ b.rmseE < a.rmseE ∧ b.rmseF < a.rmseF)) ∧
    (findLowerConvex data).Pairwise (· < ·) :=
  ⟨mem_findLowerConvex data, findLowerConvex_sorted data⟩

/-- **C43.** Every entry that is dropped is beaten by an entry that is kept. -/
theorem C43_dropped_beaten_by_kept [LinearOrder K] (data : List (Entry K α)) (i : ℕ) (a : Entry K α)
    (ha : data[i]? = some a) (hd : i ∉ findLowerConvex data) :
    ∃ j b, j ∈ findLowerConvex data ∧ data[j]? = some b ∧
      b.time < a.time ∧ b.rmseE < a.rmseE ∧ b.rmseF < a.rmseF := by
  classical
  -- among the entries beating `a`, take one of least cost
  have hne : ∃ b ∈ data, Dominates b a := by
    by_contra h
    push Not at h
    exact hd ((mem_findLowerConvex data i).2 ⟨a, ha, h⟩)
  let S : Finset ℕ := (Finset.range data.length).filter fun j => ∃ b, data[j]? = some b ∧ Dominates b a
  have hS : S.Nonempty := by
    obtain ⟨b, hb, hba⟩ := hne
    obtain ⟨j, hj⟩ := List.getElem?_of_mem hb
    exact ⟨j, by simp only [S, Finset.mem_filter, Finset.mem_range]
                 exact ⟨(List.getElem?_eq_some_iff.mp hj).1, b, hj, hba⟩⟩
  obtain ⟨j, hj, hmin⟩ := S.exists_min_image (fun j => (data[j]?.map fun b => b.time).getD a.time) hS
  simp only [S, Finset.mem_filter, Finset.mem_range] at hj
  obtain ⟨hjl, b, hb, hba⟩ := hj
  refine ⟨j, b, (mem_findLowerConvex data j).2 ⟨b, hb, fun c hc hcb => ?_⟩, hb, hba⟩
  obtain ⟨k, hk⟩ := List.getElem?_of_mem hc
  have hkS : k ∈ S := by
    simp only [S, Finset.mem_filter, Finset.mem_range]
    exact ⟨(List.getElem?_eq_some_iff.mp hk).1, c, hk, hcb.1.trans hba.1, hcb.2.1.trans hba.2.1,
      hcb.2.2.trans hba.2.2⟩
  have := hmin k hkS
  simp only [hb, hk, Option.map_some, Option.getD_some] at this
  exact absurd hcb.1 (not_lt.mpr this)

/-- **C43.** At least one model survives the filter. -/
theorem C43_survivor [LinearOrder K] (data : List (Entry K α)) (h : data ≠ []) :
    findLowerConvex data ≠ [] := by
  intro he
  obtain ⟨a, l, rfl⟩ := List.exists_cons_of_ne_nil h
  obtain ⟨j, b, hj, -⟩ := C43_dropped_beaten_by_kept (a :: l) 0 a rfl (by rw [he]; simp)
  rw [he] at hj
  simp at hj

/-- **C43.** The reported optimal potentials are the hull vertices below the threshold that no hull
vertex beats. -/
theorem C43_optimal [LinearOrder K] (hull : List (Entry K α) → List ℕ) (threshold : K)
    (data : List (Entry K α)) (hh : ∀ i ∈ hull data, i < data.length) :
    ∃ out, findConvexMlps hull threshold data = .ok out ∧
      ∀ a, a ∈ out ↔ (∃ i ∈ hull data, data[i]? = some a) ∧ a.rmseE < threshold ∧
        ∀ i ∈ hull data, ∀ b, data[i]? = some b →
          ¬ (b.time < a.time ∧ b.rmseE < a.rmseE ∧ b.rmseF < a.rmseF) := by
  unfold findConvexMlps
  rw [gather_eq _ _ hh]
  simp only [bind, Except.bind, pure, Except.pure]
  set values := (hull data).filterMap (data[·]?) with hv
  rw [gather_eq _ _ fun i hi => by
    obtain ⟨a, ha, -⟩ := (mem_findLowerConvex values i).1 hi
    exact (List.getElem?_eq_some_iff.mp ha).1]
  refine ⟨_, rfl, fun a => ?_⟩
  have hmv : ∀ a, a ∈ values ↔ ∃ i ∈ hull data, data[i]? = some a := by
    intro a; rw [hv, List.mem_filterMap]
  simp only [List.mem_filter, List.mem_filterMap, decide_eq_true_eq]
  constructor
  · rintro ⟨⟨i, hi, hia⟩, hlt⟩
    refine ⟨(hmv a).1 (List.mem_of_getElem? hia), hlt, fun j hj b hb => ?_⟩
    obtain ⟨a', ha', hn⟩ := (mem_findLowerConvex values i).1 hi
    rw [hia] at ha'
    cases ha'
    exact hn b ((hmv b).2 ⟨j, hj, hb⟩)
  · rintro ⟨hm, hlt, hn⟩
    obtain ⟨i, hi⟩ := List.getElem?_of_mem ((hmv a).2 hm)
    refine ⟨⟨i, (mem_findLowerConvex values i).2 ⟨a, hi, fun b hb => ?_⟩, hi⟩, hlt⟩
    obtain ⟨j, hj, hjb⟩ := (hmv b).1 hb
    exact hn j hj b hjb

/-- Four models: the third is beaten by the first, the fourth only in two of the three values. -/
example : findLowerConvex ([⟨1, 1, 5, 5, "a"⟩, ⟨2, 1, 3, 3, "b"⟩, ⟨2, 1, 6, 6, "c"⟩,
    ⟨1, 1, 7, 7, "d"⟩] : List (Entry ℚ String)) = [0, 1, 3] := by decide +kernel

example : findConvexMlps (fun _ => [0, 1, 2]) 4
    ([⟨1, 1, 5, 5, "a"⟩, ⟨2, 1, 3, 3, "b"⟩, ⟨2, 1, 6, 6, "c"⟩, ⟨1, 1, 7, 7, "d"⟩] : List (Entry ℚ String))
      = .ok [⟨2, 1, 3, 3, "b"⟩] := by decide +kernel

end Verif.GridOptimal
