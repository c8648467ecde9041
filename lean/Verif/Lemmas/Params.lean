import Verif.Spec.Params
import Verif.Lemmas.Dict
import Mathlib.Data.List.Induction
import Mathlib.Data.List.Range
import Mathlib.Tactic.Ring

namespace Verif.Params
open Verif.Spec.Params
variable {K V : Type}

/-! ## Dictionaries whose entries for a key agree -/

theorem get?_setAll_some {κ β : Type} [DecidableEq κ] {items : List (κ × β)} {k : κ} {v : β}
    (hex : (k, v) ∈ items) (hall : ∀ w, (k, w) ∈ items → w = v) :
    (Dict.setAll [] items).get? k = some v := by
  rw [Dict.get?_setAll]
  cases h : items.reverse.find? (fun p => decide (p.1 = k)) with
  | none =>
    rw [List.find?_eq_none] at h
    exact absurd (by simp) (h (k, v) (by simpa using hex))
  | some q =>
    have h1 := List.find?_some h
    have h2 := List.mem_of_find?_eq_some h
    simp only [decide_eq_true_eq] at h1
    have h3 : (k, q.2) ∈ items := by rw [← h1]; simpa using h2
    simp [hall _ h3]

theorem get?_setAll_none {κ β : Type} [DecidableEq κ] {items : List (κ × β)} {k : κ}
    (hall : ∀ w, (k, w) ∉ items) : (Dict.setAll [] items).get? k = none := by
  rw [Dict.get?_eq_none, Dict.mem_keys_setAll]
  rintro (h | ⟨v, h⟩)
  · simp [Dict.keys] at h
  · exact hall v h

theorem get?_of_mem {κ β : Type} [DecidableEq κ] {d : Dict κ β} (hd : d.keys.Nodup) {k : κ} {v : β}
    (h : (k, v) ∈ d) : d.get? k = some v := by
  have hk : k ∈ d.keys := List.mem_map.2 ⟨(k, v), h, rfl⟩
  obtain ⟨w, hw⟩ := Option.isSome_iff_exists.1 ((Dict.mem_keys_iff d k).1 hk)
  rw [hw]
  have hm := Dict.mem_of_get? hw
  by_contra hne
  have hvw : (k, w) ≠ (k, v) := fun e => hne (by rw [Prod.mk.injEq] at e; rw [e.2])
  have := List.inj_on_of_nodup_map hd hm h rfl
  exact hvw this

/-! ## Spins -/

/-- Positions of `i` in `o`. -/
def posOf (o : List ℕ) (i : ℕ) : List ℕ := (List.range o.length).filter fun t => o[t]? = some i

theorem mem_posOf (o : List ℕ) (i t : ℕ) : t ∈ posOf o i ↔ o[t]? = some i := by
  unfold posOf
  rw [List.mem_filter, List.mem_range]
  simp only [decide_eq_true_eq]
  constructor
  · exact fun h => h.2
  · intro h
    exact ⟨(List.getElem?_eq_some_iff.1 h).1, h⟩

theorem posOf_snoc (o : List ℕ) (j i : ℕ) :
    posOf (o ++ [j]) i = if i = j then posOf o i ++ [o.length] else posOf o i := by
  unfold posOf
  rw [List.length_append, List.length_singleton, List.range_succ, List.filter_append]
  have h1 : (List.range o.length).filter (fun t => decide ((o ++ [j])[t]? = some i)) =
      (List.range o.length).filter fun t => decide (o[t]? = some i) := by
    apply List.filter_congr
    intro t ht
    rw [List.getElem?_append_left (List.mem_range.1 ht)]
  rw [h1]
  by_cases e : i = j
  · subst e
    rw [if_pos rfl, List.filter_cons_of_pos (by simp)]; simp
  · rw [if_neg e, List.filter_cons_of_neg (by simpa using fun h => e h.symm)]; simp

/-- One type added for element `i`. -/
def push (acc : SpinAcc K) (i : ℕ) (ele : String) (e : K) (s : Bool) : SpinAcc K :=
  ⟨acc.nType + 1, acc.elements ++ [ele], acc.atomicEnergy ++ [e], acc.enableSpins ++ [s],
    acc.mapTypes.set i (((acc.mapTypes.get? i).getD []) ++ [acc.nType])⟩

theorem set_set {κ β : Type} [DecidableEq κ] (d : Dict κ β) (k : κ) (v w : β) :
    ∀ k', ((d.set k v).set k w).get? k' = (d.set k w).get? k' := by
  intro k'
  rw [Dict.get?_set, Dict.get?_set, Dict.get?_set]
  split <;> rfl

/-- What the loop has built, for the origins `o` of the types so far. -/
structure SpinInv (elements : List String) (energy : List K) (spins : List Bool)
    (acc : SpinAcc K) (o : List ℕ) : Prop where
  nType : acc.nType = o.length
  elems : acc.elements.map some = o.map (elements[·]?)
  ener : acc.atomicEnergy.map some = o.map (energy[·]?)
  spin : acc.enableSpins.map some = o.map (spins[·]?)
  map : ∀ i, (acc.mapTypes.get? i).getD [] = posOf o i

theorem SpinInv.push {elements : List String} {energy : List K} {spins : List Bool}
    {acc : SpinAcc K} {o : List ℕ} (h : SpinInv elements energy spins acc o) {i : ℕ}
    {ele : String} {e : K} {s : Bool} (h1 : elements[i]? = some ele) (h2 : energy[i]? = some e)
    (h3 : spins[i]? = some s) :
    SpinInv elements energy spins (push acc i ele e s) (o ++ [i]) := by
  refine ⟨?_, ?_, ?_, ?_, ?_⟩
  · simp [Params.push, h.nType]
  · simp [Params.push, h.elems, h1]
  · simp [Params.push, h.ener, h2]
  · simp [Params.push, h.spin, h3]
  · intro j
    simp only [Params.push]
    rw [Dict.get?_set, posOf_snoc]
    split
    · rename_i e
      subst e
      simp [h.map, h.nType]
    · exact h.map j

/-- The invariant only looks at lookups of the type map. -/
theorem SpinInv.congr {elements : List String} {energy : List K} {spins : List Bool}
    {acc acc' : SpinAcc K} {o : List ℕ} (h : SpinInv elements energy spins acc o)
    (h1 : acc'.nType = acc.nType) (h2 : acc'.elements = acc.elements)
    (h3 : acc'.atomicEnergy = acc.atomicEnergy) (h4 : acc'.enableSpins = acc.enableSpins)
    (h5 : ∀ i, acc'.mapTypes.get? i = acc.mapTypes.get? i) :
    SpinInv elements energy spins acc' o :=
  ⟨h1 ▸ h.nType, h2 ▸ h.elems, h3 ▸ h.ener, h4 ▸ h.spin, fun i => by rw [h5]; exact h.map i⟩

theorem SpinInv.step {elements : List String} {energy : List K} {spins : List Bool}
    {acc : SpinAcc K} {o : List ℕ} (h : SpinInv elements energy spins acc o) {i : ℕ}
    {ele : String} {e : K} {s : Bool} (h1 : elements[i]? = some ele) (h2 : energy[i]? = some e)
    (h3 : spins[i]? = some s) :
    SpinInv elements energy spins (spinStep acc (i, ele, e, s))
      (o ++ if s then [i, i] else [i]) := by
  cases s with
  | false =>
    exact h.push h1 h2 h3
  | true =>
    have hp := (h.push h1 h2 h3).push h1 h2 h3
    rw [List.append_assoc] at hp
    refine hp.congr rfl rfl rfl rfl ?_
    intro j
    simp only [spinStep, Params.push, if_true]
    rw [Dict.get?_set, Dict.get?_set, Dict.get?_set, Dict.get?_set]
    split
    · simp
    · rename_i hj
      rw [Dict.get?_set, if_neg hj]

theorem zipIdx_snoc {α : Type} (xs : List α) (x : α) :
    (xs ++ [x]).zipIdx = xs.zipIdx ++ [(x, xs.length)] := by
  rw [List.zipIdx_append]; simp

theorem origin_snoc (spins : List Bool) (s : Bool) :
    origin (spins ++ [s]) =
      origin spins ++ if s then [spins.length, spins.length] else [spins.length] := by
  unfold origin
  rw [zipIdx_snoc, List.flatMap_append]; simp

theorem spin_loop (elements : List String) (energy : List K) (spins : List Bool)
    (h1 : elements.length = spins.length) (h2 : energy.length = spins.length) :
    SpinInv elements energy spins
      (((elements.zip (energy.zip spins)).zipIdx.map fun x => (x.2, x.1)).foldl spinStep {})
      (origin spins) := by
  -- the first `n` items
  have key : ∀ n, n ≤ spins.length → SpinInv elements energy spins
      ((((elements.zip (energy.zip spins)).take n).zipIdx.map fun x => (x.2, x.1)).foldl
        spinStep {}) (origin (spins.take n)) := by
    intro n
    induction n with
    | zero =>
      intro _
      refine ⟨rfl, rfl, rfl, rfl, ?_⟩
      intro i; rfl
    | succ n ih =>
      intro hn
      have i1 := ih (by omega)
      obtain ⟨ele, he⟩ : ∃ ele, elements[n]? = some ele :=
        ⟨elements[n]'(by omega), List.getElem?_eq_getElem _⟩
      obtain ⟨e, hee⟩ : ∃ e, energy[n]? = some e :=
        ⟨energy[n]'(by omega), List.getElem?_eq_getElem _⟩
      obtain ⟨s, hs⟩ : ∃ s, spins[n]? = some s :=
        ⟨spins[n]'(by omega), List.getElem?_eq_getElem _⟩
      have hz : (elements.zip (energy.zip spins))[n]? = some (ele, e, s) := by
        rw [List.getElem?_zip_eq_some]
        exact ⟨he, by rw [List.getElem?_zip_eq_some]; exact ⟨hee, hs⟩⟩
      have ht : (elements.zip (energy.zip spins)).take (n + 1) =
          (elements.zip (energy.zip spins)).take n ++ [(ele, e, s)] := by
        rw [List.take_succ, hz]; rfl
      have hts : spins.take (n + 1) = spins.take n ++ [s] := by rw [List.take_succ, hs]; rfl
      rw [ht, hts, zipIdx_snoc, List.map_append, List.foldl_append, origin_snoc]
      have hl : ((elements.zip (energy.zip spins)).take n).length = n := by
        rw [List.length_take, List.length_zip, List.length_zip]; omega
      have hl' : (spins.take n).length = n := by rw [List.length_take]; omega
      rw [hl, hl']
      exact i1.step he hee hs
  have := key spins.length le_rfl
  rw [List.take_length, List.take_of_length_le] at this
  · exact this
  · rw [List.length_zip, List.length_zip]; omega

/-- Types of later elements come later. -/
theorem origin_sorted (spins : List Bool) : (origin spins).Pairwise (· ≤ ·) ∧
    ∀ i ∈ origin spins, i < spins.length := by
  induction spins using List.reverseRecOn with
  | nil => simp [origin]
  | append_singleton xs s ih =>
    rw [origin_snoc]
    constructor
    · rw [List.pairwise_append]
      refine ⟨ih.1, by split <;> simp, ?_⟩
      intro a ha b hb
      have := ih.2 a ha
      have hb' : b = xs.length := by split at hb <;> simp at hb <;> exact hb
      omega
    · intro i hi
      rw [List.length_append, List.length_singleton]
      rcases List.mem_append.1 hi with h | h
      · have := ih.2 i h; omega
      · have : i = xs.length := by split at h <;> simp at h <;> exact h
        omega

theorem origin_mono (spins : List Bool) {t1 t2 i1 i2 : ℕ} (h : t1 ≤ t2)
    (h1 : (origin spins)[t1]? = some i1) (h2 : (origin spins)[t2]? = some i2) : i1 ≤ i2 := by
  rcases Nat.lt_or_ge t1 t2 with hlt | hge
  · have := (List.pairwise_iff_getElem.1 (origin_sorted spins).1)
    obtain ⟨a1, rfl⟩ := List.getElem?_eq_some_iff.1 h1
    obtain ⟨a2, rfl⟩ := List.getElem?_eq_some_iff.1 h2
    exact this t1 t2 a1 a2 hlt
  · have : t1 = t2 := by omega
    subst this
    rw [h1] at h2
    simp only [Option.some.injEq] at h2
    omega

theorem sortedPair_eq {a b t1 t2 : ℕ} (h : sortedPair a b = (t1, t2)) :
    t1 ≤ t2 ∧ ((a = t1 ∧ b = t2) ∨ (a = t2 ∧ b = t1)) := by
  unfold sortedPair at h
  split at h <;> rw [Prod.mk.injEq] at h <;> omega

/-! ## Gaussians -/

theorem mem_pairsWithReplacement {α : Type} (l : List α) (a b : α) :
    (a, b) ∈ pairsWithReplacement l ↔
      ∃ i j : ℕ, i ≤ j ∧ l[i]? = some a ∧ l[j]? = some b := by
  induction l with
  | nil => simp [pairsWithReplacement]
  | cons x l ih =>
    rw [pairsWithReplacement, List.mem_append, ih]
    constructor
    · rintro (h | ⟨i, j, h1, h2, h3⟩)
      · rw [List.mem_map] at h
        obtain ⟨y, hy, e⟩ := h
        rw [Prod.mk.injEq] at e
        obtain ⟨rfl, rfl⟩ := e
        obtain ⟨j, hj⟩ := List.mem_iff_getElem?.1 hy
        exact ⟨0, j, Nat.zero_le _, rfl, hj⟩
      · exact ⟨i + 1, j + 1, by omega, by simpa using h2, by simpa using h3⟩
    · rintro ⟨i, j, h1, h2, h3⟩
      cases i with
      | zero =>
        left
        simp only [List.getElem?_cons_zero, Option.some.injEq] at h2
        subst h2
        exact List.mem_map.2 ⟨b, List.mem_of_getElem? h3, rfl⟩
      | succ i =>
        right
        cases j with
        | zero => omega
        | succ j =>
          exact ⟨i, j, by omega, by simpa using h2, by simpa using h3⟩

theorem atomType_eq (elements : List String) (hn : elements.Nodup) {i : ℕ} {e : String}
    (h : elements[i]? = some e) : atomType elements e = i := by
  unfold atomType
  rw [get?_setAll_some (v := i)]
  · rfl
  · rw [List.mk_mem_zipIdx_iff_getElem?]; exact h
  · intro w hw
    rw [List.mk_mem_zipIdx_iff_getElem?] at hw
    obtain ⟨a1, e1⟩ := List.getElem?_eq_some_iff.1 h
    obtain ⟨a2, e2⟩ := List.getElem?_eq_some_iff.1 hw
    exact (List.Nodup.getElem_inj_iff hn).1 (e2.trans e1.symm)

end Verif.Params
