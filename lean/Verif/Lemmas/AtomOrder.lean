import Verif.Model.AtomOrder
import Verif.Lemmas.Py
import Mathlib.Data.List.Basic
import Mathlib.Data.List.Perm.Basic
import Mathlib.Data.List.Dedup

namespace Verif.AtomOrder
variable {K : Type}

theorem flatMap_filter_perm {α κ : Type} [DecidableEq κ] (f : α → κ) :
    ∀ (keys : List κ) (l : List α), keys.Nodup → (∀ a ∈ l, f a ∈ keys) →
      (keys.flatMap fun k => l.filter fun a => f a = k).Perm l
  | [], l, _, h => by
    cases l with
    | nil => simp
    | cons a l => exact absurd (h a (by simp)) (by simp)
  | k :: ks, l, hn, h => by
    have hk : k ∉ ks := (List.nodup_cons.mp hn).1
    have e : (ks.flatMap fun k' => l.filter fun a => f a = k') =
        ks.flatMap fun k' => (l.filter fun a => ¬ f a = k).filter fun a => f a = k' := by
      rw [List.flatMap_def, List.flatMap_def]
      congr 1
      apply List.map_congr_left
      intro k' hk'
      rw [List.filter_filter]
      apply List.filter_congr
      intro a _
      have : k' ≠ k := fun e => hk (e ▸ hk')
      by_cases hfa : f a = k'
      · simp [hfa, this]
      · simp [hfa]
    rw [List.flatMap_cons, e]
    have ih := flatMap_filter_perm f ks (l.filter fun a => ¬ f a = k) (List.nodup_cons.mp hn).2 (by
      intro a ha
      have ha' := List.mem_filter.mp ha
      have := h a ha'.1
      rcases List.mem_cons.mp this with h1 | h1
      · simp [h1] at ha'
      · exact h1)
    refine (List.Perm.append_left _ ih).trans ?_
    have := List.filter_append_perm (fun a => decide (f a = k)) l
    simpa using this

theorem maskSelect_eq {α β : Type} (g : β → α) : ∀ (elements : List String) (e : String)
    (ys : List β), elements.length = ys.length →
    maskSelect elements e (ys.map g) =
      ((elements.zip ys).filter fun p => p.1 = e).map fun p => g p.2
  | [], _, [], _ => rfl
  | a :: l, e, y :: ys, h => by
    have ih := maskSelect_eq g l e ys (by simpa using h)
    unfold maskSelect at ih ⊢
    by_cases hae : a = e
    · simp [hae, ih]
    · simp [hae, ih]

theorem count_eq_filter_length {β : Type} : ∀ (elements : List String) (e : String)
    (ys : List β), elements.length = ys.length →
    elements.count e = ((elements.zip ys).filter fun p => p.1 = e).length
  | [], _, [], _ => rfl
  | a :: l, e, y :: ys, h => by
    have ih := count_eq_filter_length l e ys (by simpa using h)
    by_cases hae : a = e
    · simp [hae, ih]
    · simp [hae, ih]

/-- The accumulator after processing a list of `(type, element)` pairs. -/
theorem foldl_permuteStep (st : Structure K) (force : List (V3 K)) :
    ∀ (l : List (ℕ × String)) (acc : Acc K),
      l.foldl (permuteStep st force) acc =
        { positions := acc.positions ++ l.flatMap fun p => maskSelect st.elements p.2 st.positions
          types := acc.types ++ l.flatMap fun p => List.replicate (st.elements.count p.2) p.1
          elements := acc.elements ++ l.flatMap fun p => List.replicate (st.elements.count p.2) p.2
          nAtoms := acc.nAtoms ++ l.map fun p => st.elements.count p.2
          forces := acc.forces ++ l.flatMap fun p => maskSelect st.elements p.2 force }
  | [], acc => by simp
  | p :: l, acc => by
    rw [List.foldl_cons, foldl_permuteStep st force l]
    simp [permuteStep, countEle, List.append_assoc]

theorem zipIdx_flatMap_snd {α β : Type} (f : α → List β) (l : List α) (k : ℕ) :
    ((l.zipIdx k).map fun p => (p.2, p.1)).flatMap (fun p => f p.2) = l.flatMap f := by
  induction l generalizing k with
  | nil => rfl
  | cons a l ih => simp [List.zipIdx_cons, ih]

theorem zipIdx_types (elems : List String) (hn : elems.Nodup) (cnt : String → ℕ) :
    ((elems.zipIdx).map fun p => (p.2, p.1)).flatMap (fun p => List.replicate (cnt p.2) p.1) =
      elems.flatMap fun e => List.replicate (cnt e) (elems.idxOf e) := by
  have : ((elems.zipIdx).map fun p => (p.2, p.1)) = elems.map fun e => (elems.idxOf e, e) := by
    apply List.ext_getElem
    · simp
    · intro i h1 h2
      simp only [List.length_map] at h2
      have := hn.idxOf_getElem i h2
      simp [this]
  rw [this, List.flatMap_map]

theorem fillTo_full {α : Type} (n : ℕ) (z : α) (xs : List α) (h : xs.length = n) :
    fillTo n z xs = xs := by
  unfold fillTo; simp [h]

/-- Generic form of the "replace by index" loop: pointwise in the atoms. -/
theorem foldl_replaceStep (elements : List String) :
    ∀ (l : List (String × ℕ)) (types : List ℕ) (c : ℕ), types.length = elements.length →
      l.foldl (replaceStep elements) (types, c) =
        ((elements.zip types).map fun q => l.foldl (fun t p => if q.1 = p.1 then p.2 else t) q.2,
          c + (l.map fun p => elements.count p.1).sum)
  | [], types, c, h => by
    simp only [List.foldl_nil, List.map_nil, List.sum_nil, Nat.add_zero, Prod.mk.injEq, and_true]
    symm
    exact List.map_snd_zip (by omega)
  | p :: l, types, c, h => by
    rw [List.foldl_cons]
    have e : replaceStep elements (types, c) p =
      ((elements.zip types).map fun q => if q.1 = p.1 then p.2 else q.2,
        c + elements.count p.1) := rfl
    rw [e, foldl_replaceStep elements l _ _ (by simp [h])]
    refine Prod.ext ?_ ?_
    · simp only [List.foldl_cons]
      apply List.ext_getElem
      · simp [h]
      · intro i h1 h2
        simp
    · simp only [List.map_cons, List.sum_cons]; omega

theorem foldl_idx_notMem (e : String) : ∀ (l : List String) (k t : ℕ), e ∉ l →
    (l.zipIdx k).foldl (fun t p => if e = p.1 then p.2 else t) t = t
  | [], _, _, _ => rfl
  | a :: l, k, t, h => by
    have h1 : e ≠ a := fun c => h (by simp [c])
    have h2 : e ∉ l := fun c => h (by simp [c])
    rw [List.zipIdx_cons, List.foldl_cons]
    simp only [h1, if_false]
    exact foldl_idx_notMem e l _ _ h2

theorem foldl_idx_mem (e : String) : ∀ (l : List String) (k t : ℕ), l.Nodup → e ∈ l →
    (l.zipIdx k).foldl (fun t p => if e = p.1 then p.2 else t) t = k + l.idxOf e
  | [], _, _, _, h => absurd h (by simp)
  | a :: l, k, t, hn, h => by
    rw [List.zipIdx_cons, List.foldl_cons]
    by_cases hae : e = a
    · subst hae
      simp only [if_true]
      rw [foldl_idx_notMem e l _ _ (List.nodup_cons.mp hn).1]
      simp
    · have h2 : e ∈ l := by simpa [hae] using h
      simp only [hae, if_false]
      rw [foldl_idx_mem e l _ _ (List.nodup_cons.mp hn).2 h2]
      rw [List.idxOf_cons_ne _ (fun c => hae c.symm)]
      omega

theorem sum_count_eq (elems elements : List String) (hn : elems.Nodup) :
    (elems.map fun e => elements.count e).sum = (elements.filter (· ∈ elems)).length := by
  have hp := flatMap_filter_perm (fun a : String => a) elems (elements.filter (· ∈ elems)) hn
    (by intro a ha; simpa using (List.mem_filter.mp ha).2)
  have hl := hp.length_eq
  rw [List.length_flatMap] at hl
  rw [← hl]
  congr 1
  apply List.map_congr_left
  intro e he
  rw [List.filter_filter, List.count_eq_length_filter]
  congr 1
  apply List.filter_congr
  intro a _
  by_cases h : a = e
  · subst h; simp [he]
  · simp [h]

/-! ### reorder -/

theorem uniqSorted_perm (xs : List ℕ) : (uniqSorted xs).Perm xs.dedup := List.perm_insertionSort _ _

theorem mem_uniqSorted {xs : List ℕ} {t : ℕ} : t ∈ uniqSorted xs ↔ t ∈ xs := by
  rw [(uniqSorted_perm xs).mem_iff, List.mem_dedup]

theorem uniqSorted_nodup (xs : List ℕ) : (uniqSorted xs).Nodup :=
  (uniqSorted_perm xs).nodup_iff.mpr (List.nodup_dedup xs)

theorem uniqSorted_sorted (xs : List ℕ) : (uniqSorted xs).Pairwise (· < ·) := by
  have h1 : (uniqSorted xs).Pairwise (· ≤ ·) := List.pairwise_insertionSort _ _
  have h2 := uniqSorted_nodup xs
  exact (h1.and h2).imp fun h => by omega

theorem typeSelect_eq {α β : Type} (g : β → α) : ∀ (types : List ℕ) (t : ℕ)
    (ys : List β), types.length = ys.length →
    typeSelect types t (ys.map g) =
      ((types.zip ys).filter fun p => p.1 = t).map fun p => g p.2
  | [], _, [], _ => rfl
  | a :: l, e, y :: ys, h => by
    have ih := typeSelect_eq g l e ys (by simpa using h)
    unfold typeSelect at ih ⊢
    by_cases hae : a = e
    · simp [hae, ih]
    · simp [hae, ih]

theorem mapElements_of_det {types : List ℕ} {elements : List String} {t : ℕ} {e : String}
    (hdet : ∀ p ∈ types.zip elements, ∀ q ∈ types.zip elements, p.1 = q.1 → p.2 = q.2)
    (hm : (t, e) ∈ types.zip elements) : mapElements types elements t = some e := by
  unfold mapElements
  cases hf : (types.zip elements).reverse.find? (fun p => p.1 = t) with
  | none =>
    rw [List.find?_eq_none] at hf
    exact absurd (hf (t, e) (by simpa using hm)) (by simp)
  | some p =>
    have h1 := List.find?_some hf
    have h2 := List.mem_of_find?_eq_some hf
    rw [List.mem_reverse] at h2
    simp only [decide_eq_true_eq] at h1
    have := hdet p h2 (t, e) hm h1
    simp [this]

end Verif.AtomOrder
