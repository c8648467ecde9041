import Verif.Lemmas.StrUtils
import Verif.Props.Spins

/-!
C42: structure utilities keep the arrays consistent.
C47: conversion from phonopy cells.
-/

namespace Verif.StrUtils
open Verif.AtomOrder Verif.Spec
variable {K : Type}

instance (nAtoms types : List ℕ) : Decidable (Blocks nAtoms types) :=
  decidable_of_iff _ (blocks_iff nAtoms types).symm

instance (st : Structure K) : Decidable (Consistent st) := by unfold Consistent; infer_instance

/-- **C42.** `reset_types` makes the types follow the counts. -/
theorem C42_reset_types (st : Structure K) (h1 : st.positions.length = st.elements.length)
    (h2 : st.elements.length = st.nAtoms.sum) :
    Consistent (resetTypes st) ∧ (resetTypes st).elements = st.elements ∧
      (resetTypes st).positions = st.positions ∧ (resetTypes st).nAtoms = st.nAtoms := by
  refine ⟨⟨⟨h1, ?_, h2⟩, blocks_expand _⟩, rfl, rfl, rfl⟩
  show st.elements.length = (expand st.nAtoms).length
  rw [expand_eq, length_expandFrom, h2]

theorem pyIndex_ok {n : ℕ} {i : ℤ} (h : -(n : ℤ) ≤ i ∧ i < n) :
    ∃ k, pyIndex n i = .ok k ∧ k < n ∧ ((k : ℤ) = i ∨ (k : ℤ) = i + n) := by
  unfold pyIndex
  by_cases h0 : 0 ≤ i
  · rw [if_pos ⟨h0, h.2⟩]; exact ⟨_, rfl, by omega, by omega⟩
  · rw [if_neg (by omega), if_pos (by omega)]; exact ⟨_, rfl, by omega, by omega⟩

theorem filter_delete {α : Type} (f : α → ℕ) (l : List α) (a : List ℕ) (n : ℕ) (b : List ℕ)
    (h : l.map f = expandFrom 0 a ++ (List.replicate n a.length ++ expandFrom (a.length + 1) b)) :
    deleteRange l a.sum (a.sum + n) = l.filter fun x => f x ≠ a.length := by
  have h1 : (l.take a.sum).map f = expandFrom 0 a := by
    rw [List.map_take, h, List.take_left' (by simp)]
  have h2 : ((l.drop a.sum).take n).map f = List.replicate n a.length := by
    rw [List.map_take, List.map_drop, h, List.drop_left' (by simp), List.take_left' (by simp)]
  have h3 : ((l.drop a.sum).drop n).map f = expandFrom (a.length + 1) b := by
    rw [List.map_drop, List.map_drop, h, List.drop_left' (by simp), List.drop_left' (by simp)]
  have hl : l = l.take a.sum ++ ((l.drop a.sum).take n ++ (l.drop a.sum).drop n) := by simp
  conv_rhs => rw [hl]
  rw [List.filter_append, List.filter_append]
  have e1 : (l.take a.sum).filter (fun x => f x ≠ a.length) = l.take a.sum := by
    rw [List.filter_eq_self]
    intro x hx
    have : f x ∈ expandFrom 0 a := by rw [← h1]; exact List.mem_map_of_mem hx
    have := mem_expandFrom this
    simp only [ne_eq, decide_not, Bool.not_eq_true', decide_eq_false_iff_not]; omega
  have e2 : ((l.drop a.sum).take n).filter (fun x => f x ≠ a.length) = [] := by
    rw [List.filter_eq_nil_iff]
    intro x hx
    have : f x ∈ List.replicate n a.length := by rw [← h2]; exact List.mem_map_of_mem hx
    have := (List.mem_replicate.mp this).2
    simp [this]
  have e3 : ((l.drop a.sum).drop n).filter (fun x => f x ≠ a.length) = (l.drop a.sum).drop n := by
    rw [List.filter_eq_self]
    intro x hx
    have : f x ∈ expandFrom (a.length + 1) b := by rw [← h3]; exact List.mem_map_of_mem hx
    have := mem_expandFrom this
    simp only [ne_eq, decide_not, Bool.not_eq_true', decide_eq_false_iff_not]; omega
  rw [e1, e2, e3, List.nil_append, List.drop_drop]
  rfl

theorem typedAtoms_types (st : Structure K) (h : st.WF) : (typedAtoms st).map (·.1) = st.types := by
  obtain ⟨h1, h2, -⟩ := h
  unfold typedAtoms
  exact List.map_fst_zip (by simp; omega)

theorem expandFrom_shift (k : ℕ) (b : List ℕ) :
    (expandFrom (k + 1) b).map (fun t => t - 1) = expandFrom k b := by
  induction b generalizing k with
  | nil => rfl
  | cons n b ih => rw [expandFrom_cons, expandFrom_cons, List.map_append, ih]; simp

/-- **C42 (partial).** `remove(st, idx)` (also for negative `idx`) takes away exactly the atoms of
one type, with their positions and elements, and its count.  The types of the other atoms are not
renumbered, so that the result is consistent only after `reset_types`, which lowers the types above
the removed one by one.  Missing: consistency of the result itself, which is false
(`C42_remove_violation`). -/
theorem C42_remove_partial (st : Structure K) (h : Consistent st) (idx : ℤ)
    (hi : -(st.nAtoms.length : ℤ) ≤ idx ∧ idx < st.nAtoms.length) :
    ∃ (t : ℕ) (st' : Structure K), remove st idx = .ok st' ∧ ((t : ℤ) = idx ∨ (t : ℤ) = idx + st.nAtoms.length) ∧
      typedAtoms st' = (typedAtoms st).filter (fun a => a.1 ≠ t) ∧
      st'.nAtoms = st.nAtoms.eraseIdx t ∧ st'.WF ∧
      Consistent (resetTypes st') ∧
      (resetTypes st').types = st'.types.map (fun s => if t < s then s - 1 else s) := by
  obtain ⟨hwf, hb⟩ := h
  obtain ⟨t, ht, htl, hti⟩ := pyIndex_ok hi
  obtain ⟨a, n, b, hs, hal⟩ := exists_split_idx st.nAtoms t htl
  have hty : st.types = expandFrom 0 a ++ (List.replicate n a.length ++ expandFrom (a.length + 1) b) := by
    rw [(blocks_iff _ _).1 hb, hs, expand_split]
  have hget : st.nAtoms[t]? = some n := by rw [hs, ← hal]; simp
  have htake : (st.nAtoms.take t).sum = a.sum := by rw [hs, ← hal]; simp
  have hsum : st.types.length = a.sum + (n + b.sum) := by rw [hty]; simp
  obtain ⟨w1, w2, w3⟩ := hwf
  have hdl : ∀ {α : Type} (l : List α), l.length = a.sum + (n + b.sum) →
      (deleteRange l a.sum (a.sum + n)).length = a.sum + b.sum := by
    intro α l hl; unfold deleteRange; simp [hl]; omega
  have htypes' : deleteRange st.types a.sum (a.sum + n) =
      expandFrom 0 a ++ expandFrom (a.length + 1) b := by
    unfold deleteRange
    rw [hty, List.take_left' (by simp), ← List.append_assoc, List.drop_left' (by simp)]
  have herase : st.nAtoms.eraseIdx t = a ++ b := by
    rw [hs, ← hal, List.eraseIdx_append_of_length_le (le_refl _)]; simp
  let st' : Structure K := { st with
    positions := deleteRange st.positions a.sum (a.sum + n)
    nAtoms := st.nAtoms.eraseIdx t
    elements := deleteRange st.elements a.sum (a.sum + n)
    types := deleteRange st.types a.sum (a.sum + n) }
  have hw' : st'.WF := by
    refine ⟨?_, ?_, ?_⟩
    · show (deleteRange st.positions _ _).length = (deleteRange st.elements _ _).length
      rw [hdl _ (by omega), hdl _ (by omega)]
    · show (deleteRange st.elements _ _).length = (deleteRange st.types _ _).length
      rw [hdl _ (by omega), hdl _ (by omega)]
    · show (deleteRange st.elements _ _).length = (st.nAtoms.eraseIdx t).sum
      rw [hdl _ (by omega), herase]; simp
  refine ⟨t, st', ?_, hti, ?_, rfl, hw', ?_, ?_⟩
  · unfold remove
    rw [ht]
    simp only [bind, Except.bind, pure, Except.pure, hget, orErr, htake]
    rfl
  · have hm : (typedAtoms st).map (·.1) =
        expandFrom 0 a ++ (List.replicate n a.length ++ expandFrom (a.length + 1) b) := by
      rw [typedAtoms_types st ⟨w1, w2, w3⟩, hty]
    rw [← hal, ← filter_delete (·.1) (typedAtoms st) a n b hm]
    show (deleteRange st.types _ _).zip ((deleteRange st.elements _ _).zip (deleteRange st.positions _ _)) = _
    rw [zip_deleteRange _ _ (by omega), zip_deleteRange _ _ (by simp; omega)]
    rfl
  · exact (C42_reset_types st' hw'.1 hw'.2.2).1
  · show expand (st.nAtoms.eraseIdx t) = (deleteRange st.types _ _).map _
    rw [herase, htypes', expand_eq, expandFrom_append, List.map_append]
    congr 1
    · symm
      conv_rhs => rw [← List.map_id (expandFrom 0 a)]
      apply List.map_congr_left
      intro s hs'
      have := mem_expandFrom hs'
      rw [if_neg (by omega)]; rfl
    · rw [Nat.zero_add, ← expandFrom_shift]
      apply List.map_congr_left
      intro s hs'
      have := mem_expandFrom hs'
      rw [if_pos (by omega)]

/-- Removing the second of three types: types `0` and `2` remain while there are two counts. -/
theorem C42_remove_violation :
    let z : V3 ℤ := ⟨0, 0, 0⟩
    let st : Structure ℤ := ⟨⟨⟨1, 0, 0⟩, ⟨0, 1, 0⟩, ⟨0, 0, 1⟩⟩, [z, z, z], [1, 1, 1], ["A", "B", "C"],
      [0, 1, 2], 1, none⟩
    Consistent st ∧ (remove st 1).map (fun s => (s.nAtoms, s.types)) = .ok ([1, 1], [0, 2]) ∧
      ¬ Blocks [1, 1] [0, 2] := by decide +kernel

/-- **C42.** `remove(st, idx)` with an index out of range raises. -/
theorem C42_remove_range (st : Structure K) (idx : ℤ)
    (hi : ¬ (-(st.nAtoms.length : ℤ) ≤ idx ∧ idx < st.nAtoms.length)) :
    remove st idx = .error .indexError := by
  unfold remove pyIndex
  rw [if_neg (by omega), if_neg (by omega)]; rfl

theorem cumsum_findIdx (a : List ℕ) (n : ℕ) (b : List ℕ) (i : ℕ) (h1 : a.sum ≤ i) (h2 : i < a.sum + n) :
    (cumsum (a ++ n :: b)).findIdx? (fun (s : ℕ) => decide ((i : ℤ) < (s : ℤ))) = some a.length := by
  rw [List.findIdx?_eq_some_iff_getElem]
  refine ⟨by simp [cumsum], ?_, ?_⟩
  · simp only [cumsum, List.getElem_map, List.getElem_range, decide_eq_true_eq]
    rw [show a ++ n :: b = (a ++ [n]) ++ b by simp, List.take_left' (by simp)]
    simp; omega
  · intro j hj
    simp only [cumsum, List.getElem_map, List.getElem_range, decide_eq_true_eq, not_lt]
    have : ((a ++ n :: b).take (j + 1)).sum ≤ a.sum := by
      rw [List.take_append_of_le_length (by omega)]
      have := sum_take_mono a (s := j + 1) (t := a.length) (by omega)
      simpa using this
    omega

/-- **C42.** `remove_atom(st, idx)` with a non-negative index removes exactly that atom and keeps the
structure consistent. -/
theorem C42_remove_atom (st : Structure K) (h : Consistent st) (idx : ℕ) (hi : idx < st.elements.length) :
    ∃ st', removeAtom st idx = .ok st' ∧ typedAtoms st' = (typedAtoms st).eraseIdx idx ∧
      Consistent st' ∧ st'.nAtoms.length = st.nAtoms.length := by
  obtain ⟨⟨w1, w2, w3⟩, hb⟩ := h
  obtain ⟨a, n, b, hs, h1, h2⟩ := exists_split_sum st.nAtoms idx (by omega)
  have hty : st.types = expandFrom 0 a ++ (List.replicate n a.length ++ expandFrom (a.length + 1) b) := by
    rw [(blocks_iff _ _).1 hb, hs, expand_split]
  have hget : st.nAtoms[a.length]? = some n := by rw [hs]; simp
  have hset : st.nAtoms.set a.length (n - 1) = a ++ (n - 1) :: b := by
    rw [hs, List.set_append_right _ _ (le_refl _)]; simp
  let st' : Structure K := { st with
      positions := st.positions.eraseIdx idx
      elements := st.elements.eraseIdx idx
      types := st.types.eraseIdx idx
      nAtoms := st.nAtoms.set a.length (n - 1) }
  refine ⟨st', ?_, ?_, ?_, ?_⟩
  rotate_left
  · show (st.types.eraseIdx idx).zip ((st.elements.eraseIdx idx).zip (st.positions.eraseIdx idx)) = _
    rw [zip_eraseIdx _ _ _ (by omega), zip_eraseIdx _ _ _ (by simp; omega)]
    rfl
  · refine ⟨⟨?_, ?_, ?_⟩, ?_⟩
    · show (st.positions.eraseIdx idx).length = (st.elements.eraseIdx idx).length
      rw [List.length_eraseIdx_of_lt (by omega), List.length_eraseIdx_of_lt hi]; omega
    · show (st.elements.eraseIdx idx).length = (st.types.eraseIdx idx).length
      rw [List.length_eraseIdx_of_lt hi, List.length_eraseIdx_of_lt (by omega)]; omega
    · have : st.elements.length = a.sum + (n + b.sum) := by rw [w3, hs]; simp
      show (st.elements.eraseIdx idx).length = (st.nAtoms.set a.length (n - 1)).sum
      rw [List.length_eraseIdx_of_lt hi, hset]; simp; omega
    · rw [blocks_iff]
      show st.types.eraseIdx idx = expand (st.nAtoms.set a.length (n - 1))
      rw [hset, expand_split, hty, eraseIdx_middle _ _ _ _ _ (by simpa using h1) (by simpa using h2)]
  · show (st.nAtoms.set a.length (n - 1)).length = _
    simp
  · unfold removeAtom
    have hp : pyIndex st.positions.length (idx : ℤ) = .ok idx := by
      unfold pyIndex; rw [if_pos (by omega)]; simp
    rw [hp]
    simp only [bind, Except.bind]
    rw [hs, cumsum_findIdx a n b idx h1 h2, ← hs]
    simp only [orErr, hget]
    rw [if_neg (by omega)]

/-- A negative index (Python's last atom) lowers the count of the first type instead. -/
theorem C42_remove_atom_negative :
    let z : V3 ℤ := ⟨0, 0, 0⟩
    let st : Structure ℤ := ⟨⟨⟨1, 0, 0⟩, ⟨0, 1, 0⟩, ⟨0, 0, 1⟩⟩, [z, z, z], [2, 1], ["A", "A", "B"],
      [0, 0, 1], 1, none⟩
    Consistent st ∧ (removeAtom st (-1)).map (fun s => (s.nAtoms, s.types)) = .ok ([1, 1], [0, 0]) ∧
      ¬ Blocks [1, 1] [0, 0] := by decide +kernel

/-- **C42.** `remove_atom` with an index beyond the last atom raises. -/
theorem C42_remove_atom_range (st : Structure K) (idx : ℤ) (h : (st.positions.length : ℤ) ≤ idx) :
    removeAtom st idx = .error .indexError := by
  unfold removeAtom pyIndex
  rw [if_neg (by omega), if_neg (by omega)]; rfl

/-! ## Swapping elements -/

theorem uniqEle_eq (st : Structure K) (h : Consistent st) (hpos : ∀ n ∈ st.nAtoms, 0 < n) :
    ∃ ue : List String, uniqEle st = .ok ue ∧ ue.length = st.nAtoms.length ∧
      ∀ t < st.nAtoms.length, ue[t]? = st.elements[(st.nAtoms.take t).sum]? := by
  obtain ⟨⟨w1, w2, w3⟩, hb⟩ := h
  have hlt : ∀ t < st.nAtoms.length, (st.nAtoms.take t).sum < st.elements.length := by
    intro t ht
    obtain ⟨a, n, b, hs, hal⟩ := exists_split_idx st.nAtoms t ht
    have hn : 0 < n := hpos n (by rw [hs]; simp)
    rw [w3, hs, ← hal]; simp; omega
  refine ⟨(List.range st.nAtoms.length).map fun i => (st.elements[(st.nAtoms.take i).sum]?).getD "", ?_, by simp, ?_⟩
  · unfold uniqEle
    apply mapM_except_ok
    intro i hi
    rw [List.getElem?_eq_getElem (hlt i (List.mem_range.mp hi))]; rfl
  · intro t ht
    rw [List.getElem?_map, List.getElem?_range ht, Option.map_some, List.getElem?_eq_getElem (hlt t ht)]
    rfl

theorem swapStep_eq (st : Structure K) (ue : List String) (i t : ℕ) (n : ℕ) (e : String)
    (h1 : st.nAtoms[i]? = some n) (h2 : ue[t]? = some e) :
    swapStep st ue i t = .ok (n, slice st.positions (st.nAtoms.take i).sum ((st.nAtoms.take i).sum + n),
      List.replicate n e, List.replicate n t) := by
  unfold swapStep
  simp only [h1, h2, orErr, bind, Except.bind, pure, Except.pure]

theorem flatMap_zipIdx_expand (f : ℕ → ℕ) (order : List ℕ) (k : ℕ) :
    (order.zipIdx k).flatMap (fun p => List.replicate (f p.1) p.2) = expandFrom k (order.map f) := by
  induction order generalizing k with
  | nil => rfl
  | cons i order ih => rw [List.zipIdx_cons, List.flatMap_cons, ih, List.map_cons, expandFrom_cons]

theorem filterMap_zip_replicate {α : Type} (n t s : ℕ) (xs : List α) (h : xs.length = n) :
    ((List.replicate n t).zip xs).filterMap (fun p => if p.1 = s then some p.2 else none) =
      if t = s then xs else [] := by
  subst h
  induction xs with
  | nil => simp
  | cons x xs ih =>
    rw [List.length_cons, List.replicate_succ, List.zip_cons_cons, List.filterMap_cons]
    by_cases hts : t = s
    · simp only [hts, if_true] at ih ⊢; rw [ih]
    · simp only [hts, if_false] at ih ⊢; exact ih

/-- Selecting by type from blocks. -/
theorem select_blocks {α : Type} (parts : List (ℕ × List α)) (hl : ∀ p ∈ parts, p.2.length = p.1) (k s : ℕ) :
    ((expandFrom k (parts.map (·.1))).zip (parts.flatMap (·.2))).filterMap
      (fun p => if p.1 = s then some p.2 else none) =
    if k ≤ s then ((parts[s - k]?).map (·.2)).getD [] else [] := by
  induction parts generalizing k with
  | nil => simp
  | cons p parts ih =>
    rw [List.map_cons, expandFrom_cons, List.flatMap_cons, List.zip_append (by simp [hl p (by simp)]),
      List.filterMap_append, filterMap_zip_replicate _ _ _ _ (hl p (by simp)),
      ih (fun q hq => hl q (by simp [hq]))]
    by_cases h1 : k = s
    · subst h1; simp
    · by_cases h2 : k < s
      · rw [if_neg h1, if_pos (by omega), if_pos (by omega)]
        obtain ⟨d, rfl⟩ : ∃ d, s = k + 1 + d := ⟨s - (k + 1), by omega⟩
        rw [show k + 1 + d - k = d + 1 by omega, show k + 1 + d - (k + 1) = d by omega]
        simp
      · rw [if_neg h1, if_neg (by omega), if_neg (by omega)]; rfl

/-- The blocks of a consistent structure. -/
theorem positionsOf_block (st : Structure K) (h : Consistent st) (t : ℕ) (n : ℕ)
    (ht : st.nAtoms[t]? = some n) :
    positionsOf st t = slice st.positions (st.nAtoms.take t).sum ((st.nAtoms.take t).sum + n) ∧
      (positionsOf st t).length = n := by
  obtain ⟨⟨w1, w2, w3⟩, hb⟩ := h
  have htl : t < st.nAtoms.length := (List.getElem?_eq_some_iff.mp ht).1
  obtain ⟨a, n', b, hs, hal⟩ := exists_split_idx st.nAtoms t htl
  have hn : n' = n := by rw [hs, ← hal] at ht; simpa using ht
  subst hn
  have hty : st.types = expandFrom 0 a ++ (List.replicate n' a.length ++ expandFrom (a.length + 1) b) := by
    rw [(blocks_iff _ _).1 hb, hs, expand_split]
  have hpl : st.positions.length = a.sum + (n' + b.sum) := by rw [w1, w3, hs]; simp
  have htake : (st.nAtoms.take t).sum = a.sum := by rw [hs, ← hal]; simp
  have hp : st.positions = st.positions.take a.sum ++
      ((st.positions.drop a.sum).take n' ++ (st.positions.drop a.sum).drop n') := by simp
  have hsl : slice st.positions a.sum (a.sum + n') = (st.positions.drop a.sum).take n' := by
    unfold slice; rw [List.drop_take]; congr 1; omega
  have hA : ∀ (k s : ℕ) (c : List ℕ) (xs : List (V3 K)), (s < k ∨ k + c.length ≤ s) → 
      ((expandFrom k c).zip xs).filterMap (fun p => if p.1 = s then some p.2 else none) = [] := by
    intro k s c xs hks
    rw [List.filterMap_eq_nil_iff]
    rintro ⟨u, v⟩ hu
    have := mem_expandFrom (List.of_mem_zip hu).1
    simp only; rw [if_neg (by omega)]
  have key : positionsOf st t = (st.positions.drop a.sum).take n' := by
    unfold positionsOf
    rw [hty]
    conv_lhs => rw [hp]
    rw [List.zip_append (by simp; omega), List.zip_append (by simp; omega), List.filterMap_append,
      List.filterMap_append, hA _ _ _ _ (by omega), hA _ _ _ _ (by omega),
      filterMap_zip_replicate _ _ _ _ (by simp; omega), if_pos hal]
    simp
  rw [htake, hsl, key]
  exact ⟨rfl, by simp; omega⟩

/-- **C42.** `swap_elements(st, order)` for a structure without empty blocks: block `t` of the
result consists of the atoms of block `order[t]`, carries the element and type of block `t`, and the
structure stays consistent. -/
theorem C42_swap (st : Structure K) (h : Consistent st) (hpos : ∀ n ∈ st.nAtoms, 0 < n)
    (order : List ℕ) (ho : ∀ i ∈ order, i < st.nAtoms.length)
    (hol : order.length ≤ st.nAtoms.length) :
    ∃ st', swapElements st order = .ok st' ∧ Consistent st' ∧
      (∀ t i : ℕ, order[t]? = some i → st'.nAtoms[t]? = st.nAtoms[i]? ∧
        positionsOf st' t = positionsOf st i) ∧
      (∀ k t : ℕ, st'.types[k]? = some t →
        st'.elements[k]? = st.elements[(st.nAtoms.take t).sum]?) ∧
      (order.Perm (List.range st.nAtoms.length) → st'.positions.Perm st.positions) := by
  obtain ⟨ue, hue, hul, hug⟩ := uniqEle_eq st h hpos
  let f : ℕ → ℕ := fun i => (st.nAtoms[i]?).getD 0
  let g : ℕ → String := fun t => (ue[t]?).getD ""
  have hf : ∀ i < st.nAtoms.length, st.nAtoms[i]? = some (f i) := by
    intro i hi; simp only [f, List.getElem?_eq_getElem hi, Option.getD_some]
  have hg : ∀ t < ue.length, ue[t]? = some (g t) := by
    intro i hi; simp only [g, List.getElem?_eq_getElem hi, Option.getD_some]
  have hparts : (order.zipIdx.mapM fun p => swapStep st ue p.1 p.2) =
      .ok (order.zipIdx.map fun p => (f p.1, positionsOf st p.1, List.replicate (f p.1) (g p.2),
        List.replicate (f p.1) p.2)) := by
    apply mapM_except_ok
    rintro ⟨i, t⟩ hp
    have hit : order[t]? = some i := by simpa [List.mem_zipIdx_iff_getElem?] using hp
    have h1 := hf i (ho i (List.mem_of_getElem? hit))
    have h2 := hg t (by have := (List.getElem?_eq_some_iff.mp hit).1; omega)
    simp only
    rw [swapStep_eq st ue i t (f i) (g t) h1 h2, (positionsOf_block st h i (f i) h1).1]
  have hzmap : ∀ {β : Type} (u : ℕ → β), (order.zipIdx.map fun p => u p.1) = order.map u := by
    intro β u
    rw [show (fun p : ℕ × ℕ => u p.1) = u ∘ Prod.fst from rfl, ← List.map_map, List.zipIdx_map_fst]
  let st' : Structure K := { st with
    nAtoms := order.map f
    positions := order.flatMap (positionsOf st)
    elements := order.zipIdx.flatMap fun p => List.replicate (f p.1) (g p.2)
    types := expand (order.map f) }
  have hres : swapElements st order = .ok st' := by
    unfold swapElements
    rw [hue]
    simp only [bind, Except.bind, pure, Except.pure, hparts]
    congr 1
    simp only [st', List.map_map, List.flatMap_map, Function.comp_def]
    congr 1
    · rw [List.flatMap_def, List.flatMap_def, hzmap]
    · exact hzmap f
    · rw [flatMap_zipIdx_expand]; rfl
  have hlenp : ∀ i ∈ order, (positionsOf st i).length = f i := fun i hi =>
    (positionsOf_block st h i (f i) (hf i (ho i hi))).2
  have htl : (expand (order.map f)).length = (order.map f).sum := (blocks_expand _).1
  have hpl : (order.flatMap (positionsOf st)).length = (order.map f).sum := by
    rw [List.length_flatMap]
    congr 1
    exact List.map_congr_left hlenp
  have hel : st'.elements = st'.types.map g := by
    show (order.zipIdx.flatMap fun p => List.replicate (f p.1) (g p.2)) = (expand (order.map f)).map g
    rw [expand_eq, ← flatMap_zipIdx_expand, List.map_flatMap]
    congr 1
    funext p
    rw [List.map_replicate]
  have hell : st'.elements.length = (order.map f).sum := by
    rw [hel, List.length_map]; exact htl
  refine ⟨st', hres, ⟨⟨?_, ?_, hell⟩, blocks_expand _⟩, ?_, ?_, ?_⟩
  · rw [hell]; exact hpl
  · rw [hel, List.length_map]
  · intro t i hti
    refine ⟨?_, ?_⟩
    · show (order.map f)[t]? = _
      rw [List.getElem?_map, hti, Option.map_some, hf i (ho i (List.mem_of_getElem? hti))]
    · have := select_blocks (order.map fun i => (f i, positionsOf st i))
        (by simp only [List.mem_map, forall_exists_index, and_imp]
            rintro p i hi rfl; exact hlenp i hi) 0 t
      rw [List.map_map, List.flatMap_map] at this
      simp only [Function.comp_def, Nat.zero_le, if_true, Nat.sub_zero, List.getElem?_map, hti,
        Option.map_some, Option.getD_some] at this
      exact this
  · intro k t hk
    rw [hel, List.getElem?_map, hk, Option.map_some]
    have ht := ((blocks_expand _).2 k t hk).1
    rw [List.length_map] at ht
    rw [← hug t (by omega), hg t (by omega)]
  · intro hperm
    show (order.flatMap (positionsOf st)).Perm st.positions
    refine (hperm.flatMap_right _).trans ?_
    have hz := flatMap_filter_perm (fun p : ℕ × V3 K => p.1) (List.range st.nAtoms.length)
      (st.types.zip st.positions) List.nodup_range (by
        rintro ⟨u, v⟩ hu
        obtain ⟨k, hk⟩ := List.getElem?_of_mem (List.of_mem_zip hu).1
        exact List.mem_range.2 (h.2.2 k u hk).1)
    have hm := hz.map Prod.snd
    rw [List.map_flatMap, List.map_snd_zip (by have := h.1.1; have := h.1.2.1; omega)] at hm
    refine List.Perm.trans (List.Perm.of_eq ?_) hm
    congr 1
    funext t
    unfold positionsOf
    generalize st.types.zip st.positions = l
    induction l with
    | nil => rfl
    | cons p l ih =>
      by_cases hp : p.1 = t <;> simp [hp, ih]

/-- **C42.** Swapping two blocks with `index1`, `index2`. -/
theorem C42_swap_order (n i1 i2 : ℕ) (h1 : i1 < n) (h2 : i2 < n) :
    ∃ order : List ℕ, swapOrder n i1 i2 = .ok order ∧ order.Perm (List.range n) ∧
      order[i1]? = some i2 ∧ order[i2]? = some i1 ∧
      ∀ j : ℕ, j < n → j ≠ i1 → j ≠ i2 → order[j]? = some j := by
  refine ⟨((List.range n).set i1 i2).set i2 i1, by unfold swapOrder; rw [if_pos ⟨h1, h2⟩], ?_, ?_, ?_, ?_⟩
  · have hlen : (((List.range n).set i1 i2).set i2 i1).length = n := by simp
    have hget : ∀ j : ℕ, j < n → (((List.range n).set i1 i2).set i2 i1)[j]? =
        some (if j = i2 then i1 else if j = i1 then i2 else j) := by
      intro j hj
      rw [List.getElem?_set, List.getElem?_set, List.length_set, List.length_range,
        List.getElem?_range hj]
      by_cases e2 : i2 = j
      · rw [if_pos e2, if_pos h2, if_pos e2.symm]
      · rw [if_neg e2, if_neg (Ne.symm e2)]
        by_cases e1 : i1 = j
        · rw [if_pos e1, if_pos h1, if_pos e1.symm]
        · rw [if_neg e1, if_neg (Ne.symm e1)]
    refine (List.perm_ext_iff_of_nodup ?_ List.nodup_range).2 ?_
    · rw [List.nodup_iff_injective_getElem]
      rintro ⟨a, ha⟩ ⟨b, hb⟩ hab
      simp only [Fin.mk.injEq]
      rw [hlen] at ha hb
      have ha' := hget a ha
      have hb' := hget b hb
      rw [List.getElem?_eq_getElem (by omega)] at ha' hb'
      simp only [Option.some.injEq] at ha' hb'
      simp only [ha', hb'] at hab
      split_ifs at hab <;> omega
    · intro v
      rw [List.mem_iff_getElem?, List.mem_range]
      constructor
      · rintro ⟨j, hj⟩
        have hjn : j < n := by have := (List.getElem?_eq_some_iff.mp hj).1; omega
        rw [hget j hjn] at hj
        simp only [Option.some.injEq] at hj
        split_ifs at hj <;> omega
      · intro hv
        by_cases e2 : v = i2
        · exact ⟨i1, by rw [hget i1 h1]; split_ifs <;> simp_all⟩
        · by_cases e1 : v = i1
          · exact ⟨i2, by rw [hget i2 h2]; simp [e1]⟩
          · exact ⟨v, by rw [hget v hv]; simp [e1, e2]⟩
  · rw [List.getElem?_set, List.getElem?_set, List.length_set, List.length_range]
    by_cases e : i2 = i1
    · rw [if_pos e, if_pos h2, e]
    · rw [if_neg e, if_pos rfl, if_pos h1]
  · simp [h2]
  · intro j hj e1 e2
    simp [List.getElem?_set, Ne.symm e1, Ne.symm e2, hj]

/-- An empty last block makes `swap_elements` raise `IndexError`. -/
theorem C42_swap_empty_block :
    let z : V3 ℤ := ⟨0, 0, 0⟩
    let st : Structure ℤ := ⟨⟨⟨1, 0, 0⟩, ⟨0, 1, 0⟩, ⟨0, 0, 1⟩⟩, [z], [1, 0], ["A"], [0], 1, none⟩
    Consistent st ∧ swapElements st [1, 0] = .error .indexError := by decide +kernel

example :
    let p : ℤ → V3 ℤ := fun k => ⟨k, 0, 0⟩
    let st : Structure ℤ := ⟨⟨⟨1, 0, 0⟩, ⟨0, 1, 0⟩, ⟨0, 0, 1⟩⟩, [p 1, p 2, p 3], [2, 1], ["A", "A", "B"],
      [0, 0, 1], 1, none⟩
    Consistent st ∧ swapOrder 2 0 1 = .ok [1, 0] ∧
      (swapElements st [1, 0]).map (fun s => (s.positions, s.elements, s.types, s.nAtoms)) =
        .ok ([p 3, p 1, p 2], ["A", "B", "B"], [0, 1, 1], [1, 2]) := by decide +kernel

end Verif.StrUtils
