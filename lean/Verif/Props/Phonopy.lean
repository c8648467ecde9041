import Verif.Props.StrUtils
import Verif.Props.AtomOrder
import Mathlib.Data.List.TakeWhile
import Mathlib.Data.Finset.Card
import Mathlib.Tactic.Ring

/-!
C47: conversion between structures and phonopy cells.
C42: sorting atoms by type.
-/

namespace Verif.StrUtils
open Verif.AtomOrder Verif.Spec
variable {K : Type}

/-! ## Distinct elements in order of first occurrence -/

theorem foldl_fromkeys (xs acc : List String) (hn : acc.Nodup) :
    (xs.foldl (fun acc e => if e ∈ acc then acc else acc ++ [e]) acc).Nodup ∧
    ∀ e, e ∈ xs.foldl (fun acc e => if e ∈ acc then acc else acc ++ [e]) acc ↔ e ∈ acc ∨ e ∈ xs := by
  induction xs generalizing acc with
  | nil => simp [hn]
  | cons x xs ih =>
    rw [List.foldl_cons]
    by_cases hx : x ∈ acc
    · rw [if_pos hx]
      refine ⟨(ih acc hn).1, fun e => ?_⟩
      rw [(ih acc hn).2 e, List.mem_cons]
      constructor
      · rintro (h | h) <;> simp [h]
      · rintro (h | rfl | h)
        · exact .inl h
        · exact .inl hx
        · exact .inr h
    · rw [if_neg hx]
      have hn' : (acc ++ [x]).Nodup := by
        rw [List.nodup_append]
        exact ⟨hn, by simp, by intro a ha b hb; simp at hb; subst hb; exact fun e => hx (e ▸ ha)⟩
      refine ⟨(ih _ hn').1, fun e => ?_⟩
      rw [(ih _ hn').2 e]; simp [or_assoc]

theorem fromkeys_nodup (xs : List String) : (fromkeys xs).Nodup := (foldl_fromkeys xs [] (by simp)).1

theorem mem_fromkeys (xs : List String) (e : String) : e ∈ fromkeys xs ↔ e ∈ xs := by
  have := (foldl_fromkeys xs [] (by simp)).2 e
  simpa [fromkeys] using this

theorem fromkeys_count_sum (xs : List String) : ((fromkeys xs).map fun e => xs.count e).sum = xs.length := by
  rw [sum_count_eq _ _ (fromkeys_nodup xs), List.filter_eq_self.mpr]
  intro a ha; simpa using (mem_fromkeys xs a).2 ha

/-- **C47.** `phonopy_cell_to_structure` always succeeds for a cell with as many positions as
symbols, keeps positions, symbols, cell and volume, and gives consistent counts and types. -/
theorem C47_fields (c : PhCell K) (h : c.scaledPositions.length = c.symbols.length) :
    ∃ st, fromPhonopy c = .ok st ∧ Consistent st ∧ st.positions = c.scaledPositions ∧
      st.elements = c.symbols ∧ st.axis = transpose c.cell ∧ st.volume = c.volume ∧
      st.types = expand ((fromkeys c.symbols).map fun e => c.symbols.count e) := by
  have hs := fromkeys_count_sum c.symbols
  have hl : (expand ((fromkeys c.symbols).map fun e => c.symbols.count e)).length = c.symbols.length := by
    rw [(blocks_expand _).1, hs]
  refine ⟨⟨transpose c.cell, c.scaledPositions, (fromkeys c.symbols).map fun e => c.symbols.count e,
    c.symbols, expand ((fromkeys c.symbols).map fun e => c.symbols.count e), c.volume, none⟩, ?_,
    ⟨⟨h, hl.symm, hs.symm⟩, blocks_expand _⟩, rfl, rfl, rfl, rfl, rfl⟩
  unfold fromPhonopy Structure.check
  simp only
  rw [if_pos ⟨h, hl.symm, hs.symm⟩]

/-- A list of symbols with adjacent equal entries is a concatenation of blocks. -/
theorem contiguous_blocks (xs : List String) (h : Contiguous xs) :
    ∃ (u : List String) (m : String → ℕ), u.Nodup ∧ (∀ e ∈ u, 1 ≤ m e) ∧ xs = channels u m := by
  induction hn : xs.length using Nat.strong_induction_on generalizing xs with
  | _ n ih =>
  cases xs with
  | nil => exact ⟨[], fun _ => 0, by simp, by simp, rfl⟩
  | cons e l =>
    -- the first block
    have hsplit := List.takeWhile_append_dropWhile (p := fun x => decide (x = e)) (l := e :: l)
    set A := (e :: l).takeWhile fun x => decide (x = e) with hA
    set B := (e :: l).dropWhile fun x => decide (x = e) with hB
    have hAe : A = List.replicate A.length e := by
      rw [List.eq_replicate_iff]
      refine ⟨rfl, fun x hx => ?_⟩
      simpa using List.mem_takeWhile_imp hx
    have hApos : 1 ≤ A.length := by
      rw [hA, List.takeWhile_cons, if_pos (by simp)]; simp
    have hget0 : (e :: l)[0]? = some e := rfl
    have hBe : e ∉ B := by
      intro hm
      obtain ⟨k, hk⟩ := List.getElem?_of_mem hm
      have hkl := (List.getElem?_eq_some_iff.mp hk).1
      have hfull : (e :: l)[A.length + k]? = some e := by
        rw [← hsplit, List.getElem?_append_right (by omega)]
        simpa using hk
      have hlen : A.length + k < (e :: l).length := (List.getElem?_eq_some_iff.mp hfull).1
      have hj := h 0 A.length (A.length + k) (by omega) (by omega) hlen (by rw [hget0, hfull])
      rw [hget0, ← hsplit, List.getElem?_append_right (le_refl _), Nat.sub_self] at hj
      have hne : B ≠ [] := by intro hc; rw [hc] at hm; simp at hm
      have hh := List.head_dropWhile_not (fun x => decide (x = e)) (l := e :: l) hne
      rw [← List.head?_eq_getElem?, List.head?_eq_some_head hne] at hj
      simp only [Option.some.injEq] at hj
      rw [show ((e :: l).dropWhile fun x => decide (x = e)).head hne = e from hj] at hh
      simp at hh
    have hBc : Contiguous B := by
      intro i j k hij hjk hk hik
      have key : ∀ i : ℕ, (e :: l)[A.length + i]? = B[i]? := by
        intro i
        conv_lhs => rw [← hsplit]
        rw [List.getElem?_append_right (by omega)]; simp
      have hlen : A.length + k < (e :: l).length := by
        conv_rhs => rw [← hsplit]
        rw [List.length_append]; omega
      have := h (A.length + i) (A.length + j) (A.length + k) (by omega) (by omega) hlen
        (by rw [key, key, hik])
      rwa [key, key] at this
    have hBl : B.length < n := by
      have : (A ++ B).length = (e :: l).length := by rw [hsplit]
      rw [List.length_append] at this; omega
    obtain ⟨u, m, hu, hm, hBu⟩ := ih B.length hBl B hBc rfl
    have heu : e ∉ u := by
      intro he
      apply hBe
      rw [hBu]
      unfold channels
      rw [List.mem_flatMap]
      exact ⟨e, he, List.mem_replicate.2 ⟨by have := hm e he; omega, rfl⟩⟩
    refine ⟨e :: u, fun x => if x = e then A.length else m x, by simp [heu, hu], ?_, ?_⟩
    · intro x hx
      by_cases hxe : x = e
      · simp only [hxe, if_true]; exact hApos
      · simp only [hxe, if_false]
        exact hm x (by simpa [hxe] using hx)
    · rw [← hsplit]
      unfold channels
      rw [List.flatMap_cons]
      simp only [if_true]
      rw [← hAe]
      congr 1
      rw [hBu]
      unfold channels
      rw [List.flatMap_def, List.flatMap_def]
      congr 1
      apply List.map_congr_left
      intro x hx
      have hxe : x ≠ e := by rintro rfl; exact heu hx
      rw [if_neg hxe]

theorem count_channels (u : List String) (m : String → ℕ) (hu : u.Nodup) (e : String) (he : e ∈ u) :
    (channels u m).count e = m e := by
  induction u with
  | nil => simp at he
  | cons x u ih =>
    unfold channels
    rw [List.flatMap_cons, List.count_append]
    rw [List.nodup_cons] at hu
    by_cases hx : x = e
    · subst hx
      rw [List.count_replicate_self, List.count_eq_zero.mpr]
      · rfl
      · rw [List.mem_flatMap]
        rintro ⟨y, hy, hxy⟩
        exact hu.1 ((List.mem_replicate.mp hxy).2 ▸ hy)
    · rw [List.count_replicate, if_neg (by simpa using hx), Nat.zero_add]
      exact ih hu.2 (by simpa [Ne.symm hx] using he)

theorem channels_getD (u : List String) (m : String → ℕ) (k : ℕ) (g : ℕ → String)
    (hg : ∀ i, i < u.length → u[i]? = some (g (k + i))) :
    channels u m = (expandFrom k (u.map m)).map g := by
  induction u generalizing k with
  | nil => rfl
  | cons x u ih =>
    have h0 := hg 0 (by simp)
    simp only [List.getElem?_cons_zero, Option.some.injEq, Nat.add_zero] at h0
    unfold channels
    rw [List.flatMap_cons, List.map_cons, expandFrom_cons, List.map_append, List.map_replicate, ← h0]
    congr 1
    exact ih (k + 1) (fun i hi => by
      have := hg (i + 1) (by simpa using hi)
      rw [List.getElem?_cons_succ] at this
      rw [this]; congr 2; omega)

/-- **C47 (partial).** For a cell whose equal symbols are adjacent, the types of the converted
structure identify the elements.  Missing: cells with interleaved symbols, for which it is false
(`C47_iff`, `C47_interleaved`). -/
theorem C47_types_partial (c : PhCell K) (h : c.scaledPositions.length = c.symbols.length)
    (hc : Contiguous c.symbols) :
    ∃ st, fromPhonopy c = .ok st ∧ ∀ i j : ℕ, i < st.types.length → j < st.types.length →
      (st.types[i]? = st.types[j]? ↔ st.elements[i]? = st.elements[j]?) := by
  obtain ⟨st, hst, hcons, -, hel, -, -, hty⟩ := C47_fields c h
  refine ⟨st, hst, fun i j hi hj => ?_⟩
  obtain ⟨u, m, hu, hm, hx⟩ := contiguous_blocks c.symbols hc
  have hfk : fromkeys c.symbols = u := by rw [hx]; exact fromkeys_channels u m hm hu
  have hcnt : (u.map fun e => c.symbols.count e) = u.map m := by
    apply List.map_congr_left; intro e he; rw [hx]; exact count_channels u m hu e he
  let g : ℕ → String := fun t => (u[t]?).getD ""
  have hel' : st.elements = st.types.map g := by
    rw [hel, hty, hfk, hcnt, expand_eq, hx]
    exact channels_getD u m 0 g (fun i hi => by simp [g, List.getElem?_eq_getElem hi])
  have hlt : ∀ (i t : ℕ), st.types[i]? = some t → t < u.length := by
    intro i t hit
    have := (hcons.2.2 i t hit).1
    have hna : st.nAtoms.length = u.length := by
      have hb := (blocks_iff _ _).1 hcons.2
      have : fromPhonopy c = .ok st := hst
      unfold fromPhonopy Structure.check at this
      simp only at this
      split_ifs at this
      cases this
      simp [hfk]
    omega
  rw [hel', List.getElem?_map, List.getElem?_map, List.getElem?_eq_getElem hi, List.getElem?_eq_getElem hj]
  simp only [Option.map_some, Option.some.injEq]
  constructor
  · intro h; rw [h]
  · intro hgg
    have h1 := hlt i _ (List.getElem?_eq_getElem hi)
    have h2 := hlt j _ (List.getElem?_eq_getElem hj)
    simp only [g, List.getElem?_eq_getElem h1, List.getElem?_eq_getElem h2, Option.getD_some] at hgg
    exact (List.Nodup.getElem_inj_iff hu).1 hgg

theorem expandFrom_sorted (k : ℕ) (xs : List ℕ) : (expandFrom k xs).Pairwise (· ≤ ·) := by
  induction xs generalizing k with
  | nil => simp
  | cons n xs ih =>
    rw [expandFrom_cons, List.pairwise_append]
    refine ⟨?_, ih _, ?_⟩
    · exact List.pairwise_replicate.2 (.inr (le_refl _))
    · intro a ha b hb
      have h1 := (List.mem_replicate.mp ha).2
      have h2 := mem_expandFrom hb
      omega

theorem mem_expand_of_pos (xs : List ℕ) (hpos : ∀ n ∈ xs, 0 < n) (t : ℕ) (ht : t < xs.length) :
    t ∈ expand xs := by
  obtain ⟨a, n, b, rfl, hal⟩ := exists_split_idx xs t ht
  rw [expand_split, List.mem_append, List.mem_append]
  refine .inr (.inl (List.mem_replicate.2 ⟨?_, hal.symm⟩))
  have := hpos n (by simp); omega

/-- **C47.** The types identify the elements exactly when equal symbols are adjacent. -/
theorem C47_iff (c : PhCell K) (h : c.scaledPositions.length = c.symbols.length) (st : Structure K)
    (hst : fromPhonopy c = .ok st) :
    (∀ i j : ℕ, i < st.types.length → j < st.types.length → st.types[i]? = st.types[j]? →
      st.elements[i]? = st.elements[j]?) ↔ Contiguous c.symbols := by
  obtain ⟨st', hst', hcons, -, hel, -, -, hty⟩ := C47_fields c h
  rw [hst] at hst'
  cases hst'
  constructor
  · intro hfun
    have hlen : st.types.length = c.symbols.length := by rw [← hel]; exact hcons.1.2.1.symm
    set u := fromkeys c.symbols with hu
    set cnt := u.map fun e => c.symbols.count e with hcnt
    have hpos : ∀ n ∈ cnt, 0 < n := by
      intro n hn
      rw [hcnt, List.mem_map] at hn
      obtain ⟨e, he, rfl⟩ := hn
      exact List.count_pos_iff.2 ((mem_fromkeys _ _).1 he)
    -- a function from types to elements
    have hfirst : ∀ t, t < u.length → ∃ i : ℕ, st.types[i]? = some t := fun t ht =>
      List.getElem?_of_mem (hty ▸ mem_expand_of_pos cnt hpos t (by simpa [hcnt] using ht))
    classical
    let g : ℕ → String := fun t => if ht : t < u.length then
      (st.elements[(hfirst t ht).choose]?).getD "" else ""
    have hg : ∀ i t : ℕ, st.types[i]? = some t → t < u.length → st.elements[i]? = some (g t) := by
      intro i t hit ht
      have hs := (hfirst t ht).choose_spec
      have hi := (List.getElem?_eq_some_iff.mp hit).1
      have hi' := (List.getElem?_eq_some_iff.mp hs).1
      have he := hfun i _ hi hi' (hit.trans hs.symm)
      have hel' : i < st.elements.length := by rw [hcons.1.2.1]; exact hi
      simp only [g, dif_pos ht, ← he, List.getElem?_eq_getElem hel', Option.getD_some]
    have htlt : ∀ i t : ℕ, st.types[i]? = some t → t < u.length := by
      intro i t hit
      have : t ∈ expand cnt := hty ▸ List.mem_of_getElem? hit
      have := mem_expandFrom (k := 0) (xs := cnt) this
      simpa [hcnt] using this.2
    -- surjective onto the distinct elements, hence injective
    have hsurj : ∀ e ∈ u.toFinset, ∃ t ∈ Finset.range u.length, g t = e := by
      intro e he
      have he' : e ∈ st.elements := by
        rw [hel]; exact (mem_fromkeys _ _).1 (by simpa using he)
      obtain ⟨i, hi⟩ := List.getElem?_of_mem he'
      have hil : i < st.types.length := by
        rw [← hcons.1.2.1]; exact (List.getElem?_eq_some_iff.mp hi).1
      have ht := htlt i _ (List.getElem?_eq_getElem hil)
      have := hg i _ (List.getElem?_eq_getElem hil) ht
      refine ⟨st.types[i], Finset.mem_range.2 ht, ?_⟩
      rw [hi] at this; exact (Option.some.inj this).symm
    have himg : ∀ t ∈ Finset.range u.length, g t ∈ u.toFinset := by
      intro t ht
      obtain ⟨i, hi⟩ := hfirst t (Finset.mem_range.1 ht)
      have := List.mem_of_getElem? (hg i t hi (Finset.mem_range.1 ht))
      rw [hel] at this
      simpa using (mem_fromkeys _ _).2 this
    have hinj := Finset.inj_on_of_surj_on_of_card_le (s := Finset.range u.length) (t := u.toFinset)
      (fun t _ => g t) himg (fun e he => by obtain ⟨t, h1, h2⟩ := hsurj e he; exact ⟨t, h1, h2⟩)
      (by rw [List.toFinset_card_of_nodup (fromkeys_nodup _), Finset.card_range])
    intro i j k hij hjk hk hik
    have hkl : k < st.types.length := by omega
    have hjl : j < st.types.length := by omega
    have hil : i < st.types.length := by omega
    have gi := hg i _ (List.getElem?_eq_getElem hil) (htlt i _ (List.getElem?_eq_getElem hil))
    have gj := hg j _ (List.getElem?_eq_getElem hjl) (htlt j _ (List.getElem?_eq_getElem hjl))
    have gk := hg k _ (List.getElem?_eq_getElem hkl) (htlt k _ (List.getElem?_eq_getElem hkl))
    rw [← hel] at hik ⊢
    have heq : g st.types[i] = g st.types[k] := by
      rw [gi, gk] at hik; exact Option.some.inj hik
    have htt : st.types[i] = st.types[k] := hinj
      (Finset.mem_range.2 (htlt i _ (List.getElem?_eq_getElem hil)))
      (Finset.mem_range.2 (htlt k _ (List.getElem?_eq_getElem hkl))) heq
    have hsort : st.types.Pairwise (· ≤ ·) := hty ▸ expandFrom_sorted 0 cnt
    have hmono : ∀ (a b : ℕ) (ha : a < st.types.length) (hb : b < st.types.length), a ≤ b →
        st.types[a] ≤ st.types[b] := by
      intro a b ha hb hab
      rcases Nat.eq_or_lt_of_le hab with rfl | hlt
      · exact le_refl _
      · exact List.pairwise_iff_getElem.1 hsort a b ha hb hlt
    have h1 := hmono i j hil hjl hij
    have h2 := hmono j k hjl hkl hjk
    have : st.types[j] = st.types[i] := by omega
    rw [gj, gi, this]
  · intro hc
    obtain ⟨st', hst', hiff⟩ := C47_types_partial c h hc
    rw [hst] at hst'
    cases hst'
    intro i j hi hj
    exact (hiff i j hi hj).1

/-- Interleaved symbols: atom 1 is O but has the type of Mg, atom 2 is Mg with the type of O. -/
theorem C47_interleaved :
    let z : V3 ℤ := ⟨0, 0, 0⟩
    (fromPhonopy (⟨["Mg", "O", "Mg", "O"], ⟨⟨1, 0, 0⟩, ⟨0, 1, 0⟩, ⟨0, 0, 1⟩⟩, [z, z, z, z], 1⟩ : PhCell ℤ)).map
      (fun s => (s.elements, s.types)) = .ok (["Mg", "O", "Mg", "O"], [0, 0, 1, 1]) := by decide +kernel

theorem transpose_transpose (a : M3 K) : transpose (transpose a) = a := rfl

/-- **C47.** A structure with one block per element survives the round trip through a phonopy cell. -/
theorem C47_round_trip [CommRing K] (st : Structure K) (u : List String) (m : String → ℕ)
    (hu : u.Nodup) (hm : ∀ e ∈ u, 1 ≤ m e) (hel : st.elements = channels u m)
    (hna : st.nAtoms = u.map m) (hc : Consistent st) (hv : st.volume = st.axis.det)
    (hname : st.name = none) :
    fromPhonopy (toPhonopy st) = .ok st := by
  have hfk : fromkeys st.elements = u := by rw [hel]; exact fromkeys_channels u m hm hu
  have hcnt : (u.map fun e => st.elements.count e) = st.nAtoms := by
    rw [hna]
    apply List.map_congr_left; intro e he; rw [hel]; exact count_channels u m hu e he
  have hty := (blocks_iff _ _).1 hc.2
  have hdet : (transpose st.axis).det = st.axis.det := by
    simp only [transpose, M3.det]; ring
  unfold fromPhonopy toPhonopy Structure.check
  simp only [transpose_transpose, hfk, hcnt, hdet, ← hty]
  have hw := hc.1
  unfold Structure.WF at hw
  rw [if_pos hw, ← hv]
  cases st
  simp only at hname
  subst hname
  rfl

example :
    let z : V3 ℤ := ⟨0, 0, 0⟩
    let st : Structure ℤ := ⟨⟨⟨1, 2, 0⟩, ⟨0, 1, 0⟩, ⟨0, 0, 1⟩⟩, [z, ⟨1, 2, 3⟩, z], [2, 1], ["Mg", "Mg", "O"],
      [0, 0, 1], 1, none⟩
    Consistent st ∧ st.elements = channels ["Mg", "O"] (fun e => if e = "Mg" then 2 else 1) ∧
      st.volume = st.axis.det ∧ fromPhonopy (toPhonopy st) = .ok st := by decide +kernel

/-! ## Sorting by type -/

theorem typeSelect_where {α : Type} (types : List ℕ) (t : ℕ) (xs : List α) (h : types.length = xs.length) :
    typeSelect types t xs =
      (whereTrue (types.map fun s => decide (s = t))).filterMap (xs[·]?) := by
  unfold typeSelect whereTrue
  rw [List.length_map]
  induction types using List.reverseRecOn generalizing xs with
  | nil => rfl
  | append_singleton types s ih =>
    obtain ⟨ys, y, rfl⟩ : ∃ ys y, xs = ys ++ [y] := by
      cases xs using List.reverseRecOn with
      | nil => simp at h
      | append_singleton ys y => exact ⟨ys, y, rfl⟩
    have hl : types.length = ys.length := by simpa using h
    rw [List.zip_append hl, List.filterMap_append, ih ys hl, List.length_append, List.length_singleton,
      List.range_succ, List.filter_append, List.filterMap_append]
    congr 1
    · have : (List.range types.length).filter (fun i => (types.map fun s => decide (s = t))[i]? == some true) =
          (List.range types.length).filter (fun i => ((types ++ [s]).map fun s => decide (s = t))[i]? == some true) := by
        apply List.filter_congr
        intro i hi
        rw [List.map_append, List.getElem?_append_left (by simpa using hi)]
      rw [this]
      apply List.filterMap_congr
      intro i hi
      have := List.mem_range.1 (List.mem_filter.1 hi).1
      rw [List.getElem?_append_left (by omega)]
    · have hlast : ((types ++ [s]).map fun s => decide (s = t))[types.length]? = some (decide (s = t)) := by
        rw [List.map_append, List.getElem?_append_right (by simp)]; simp
      rw [List.filter_singleton, hlast]
      by_cases hst : s = t
      · simp [hst, hl]
      · simp [hst]

/-- **C42.** `sort_wrt_types` with ids: the ids are a permutation of the atoms, the sorted arrays are
the original ones read at the ids, and the types are in order. -/
theorem C42_sort_wrt_types (st : Structure K) (hwf : st.WF)
    (hdet : ∀ p ∈ st.types.zip st.elements, ∀ q ∈ st.types.zip st.elements, p.1 = q.1 → p.2 = q.2) :
    ∃ (st' : Structure K) (ids : List ℕ), sortWrtTypes st = .ok (st', ids) ∧
      ids.Perm (List.range st.types.length) ∧
      st'.positions = ids.filterMap (st.positions[·]?) ∧
      st'.types = ids.filterMap (st.types[·]?) ∧
      st'.elements = ids.filterMap (st.elements[·]?) ∧
      st'.types.Pairwise (· ≤ ·) ∧ st'.WF := by
  obtain ⟨st', hst', -, hsort, -, hwf', -⟩ := C18_reorder st hwf hdet
  obtain ⟨w1, w2, w3⟩ := hwf
  set ids := (uniqSorted st.types).flatMap fun i => whereTrue (st.types.map fun t => decide (t = i)) with hids
  have hmem : ∀ (t i : ℕ), i ∈ whereTrue (st.types.map fun s => decide (s = t)) ↔ st.types[i]? = some t := by
    intro t i
    rw [mem_whereTrue, List.getElem?_map]
    cases st.types[i]? <;> simp
  have hperm : ids.Perm (List.range st.types.length) := by
    rw [List.perm_ext_iff_of_nodup ?_ List.nodup_range]
    · intro i
      rw [hids, List.mem_flatMap, List.mem_range]
      constructor
      · rintro ⟨t, -, ht⟩
        exact (List.getElem?_eq_some_iff.mp ((hmem t i).1 ht)).1
      · intro hi
        refine ⟨st.types[i], mem_uniqSorted.2 (List.getElem_mem hi), ?_⟩
        rw [hmem, List.getElem?_eq_getElem hi]
    · rw [hids, List.nodup_flatMap]
      refine ⟨fun t _ => (whereTrue_sorted _).imp fun h => Nat.ne_of_lt h, ?_⟩
      refine (uniqSorted_nodup st.types).imp ?_
      intro a b hab
      intro i hi hj
      rw [hmem] at hi hj
      rw [hi] at hj; exact hab (Option.some.inj hj)
  have hr : ∀ {α : Type} (xs : List α), st.types.length = xs.length →
      ((uniqSorted st.types).flatMap fun t => typeSelect st.types t xs) = ids.filterMap (xs[·]?) := by
    intro α xs hl
    rw [hids, List.filterMap_flatMap]
    congr 1
    funext t
    exact typeSelect_where st.types t xs hl
  have htypes : st'.types = ids.filterMap (st.types[·]?) ∧ st'.positions = ids.filterMap (st.positions[·]?) ∧
      ∃ els, (ids.filterMap (st.types[·]?)).mapM
        (fun t => orErr Err.keyError (mapElements st.types st.elements t)) = Except.ok els ∧
        st'.elements = els := by
    have := hst'
    unfold reorder at this
    simp only [bind, Except.bind, pure, Except.pure] at this
    rw [hr st.types rfl, hr st.positions (by omega)] at this
    cases hm : (ids.filterMap (st.types[·]?)).mapM
        (fun t => orErr Err.keyError (mapElements st.types st.elements t)) with
    | error e => rw [hm] at this; simp at this
    | ok els =>
      rw [hm] at this
      simp only [Except.ok.injEq] at this
      subst this
      exact ⟨rfl, rfl, els, rfl, rfl⟩
  obtain ⟨ht, hp, els, hm, he⟩ := htypes
  refine ⟨st', ids, ?_, hperm, hp, ht, ?_, hsort, hwf'⟩
  · unfold sortWrtTypes
    rw [hst']; rfl
  · have hlt : ∀ i ∈ ids, i < st.types.length := fun i hi => List.mem_range.1 (hperm.mem_iff.1 hi)
    have h2 : (ids.filterMap (st.types[·]?)).mapM
        (fun t => orErr Err.keyError (mapElements st.types st.elements t)) =
        .ok (ids.filterMap (st.elements[·]?)) := by
      clear hm hp ht he hst' hsort hperm
      generalize ids = l at hlt
      induction l with
      | nil => rfl
      | cons i l ih =>
        have hi := hlt i (by simp)
        have hie : i < st.elements.length := by omega
        rw [List.filterMap_cons, List.getElem?_eq_getElem hi, List.filterMap_cons,
          List.getElem?_eq_getElem hie]
        simp only
        rw [List.mapM_cons, ih fun j hj => hlt j (by simp [hj])]
        rw [mapElements_of_det (e := st.elements[i]) hdet]
        · rfl
        · rw [List.mem_iff_getElem]
          exact ⟨i, by simp; omega, by simp⟩
    rw [hm] at h2
    rw [he]
    exact Except.ok.inj h2

example :
    let p : ℤ → V3 ℤ := fun k => ⟨k, 0, 0⟩
    let st : Structure ℤ := ⟨⟨⟨1, 0, 0⟩, ⟨0, 1, 0⟩, ⟨0, 0, 1⟩⟩, [p 1, p 2, p 3], [2, 1], ["B", "A", "B"],
      [1, 0, 1], 1, none⟩
    (sortWrtTypes st).map (fun r => (r.1.positions, r.1.elements, r.1.nAtoms, r.2)) =
      .ok ([p 2, p 1, p 3], ["A", "B", "B"], [1, 2], [1, 0, 2]) := by decide +kernel

end Verif.StrUtils
