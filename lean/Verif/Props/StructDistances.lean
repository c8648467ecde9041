import Verif.Props.StructNeighbor
import Mathlib.Tactic.IntervalCases

/-!
# C94: distances by elements, orthogonal cells and what goes wrong
-/

namespace Verif.StructNeighbor

open Verif.Spec Verif.Neighbor Matrix

/-- **C94 (orthogonal cells).** The conditions on the cell hold for orthogonal axes and every cutoff. -/
theorem C94_orthogonal (a : Matrix (Fin 3) (Fin 3) ℝ) (hd : a.det ≠ 0) (h : ∀ p q, p ≠ q → ∑ r, a r p * a r q = 0) :
    PairReduced a ∧ ∀ cutoff, 0 < cutoff → NotFlat a cutoff := by
  refine ⟨fun p q hpq => ?_, fun cutoff hc k => ?_⟩
  · rw [h p q hpq, abs_zero]
    have : 0 ≤ ∑ r, a r p * a r p := Finset.sum_nonneg fun r _ => mul_self_nonneg _
    linarith
  · have hz : ∀ p q, p ≠ q → dotc a p q = 0 := by
      intro p q hpq
      have := h p q hpq
      rw [Fin.sum_univ_three] at this
      exact this
    have ho := ortho_ratio a hd (hz 0 1 (by decide)) (hz 0 2 (by decide)) (hz 1 2 (by decide)) k
    have e1 : norm3 (invRow a k) = lengthOf (a⁻¹ k) := by
      rw [lengthOf_eq, ← axisInv_eq a hd]
      rfl
    have e2 : norm3 (toCartesian a (Pi.single k 1)) = lengthOf fun r => a r k := by
      rw [lengthOf_eq, toCartesian_eq]
      congr 1
      funext c
      simp
    have hpos : 0 < norm3 (toCartesian a (Pi.single k 1)) := by
      rcases (norm3_nonneg (toCartesian a (Pi.single k 1))).lt_or_eq with hh | hh
      · exact hh
      · rw [← hh, mul_zero] at ho
        norm_num at ho
    have := covers_of a cutoff 1 hc k hpos ho.le (by rw [sub_self, zero_mul]; exact hpos.le)
    unfold covers at this
    rw [e1, e2] at this
    exact this

/-! ### Dictionaries -/

theorem extend_keys (d : List ((ℕ × ℕ) × List ℝ)) (k : ℕ × ℕ) (v : List ℝ) :
    (extend d k v).map (·.1) = if k ∈ d.map (·.1) then d.map (·.1) else d.map (·.1) ++ [k] := by
  induction d with
  | nil => simp [extend]
  | cons x d ih =>
    unfold extend
    by_cases hx : x.1 = k
    · simp [hx]
    · have hx' : ¬ k = x.1 := fun h => hx h.symm
      rw [if_neg hx, List.map_cons, ih]
      by_cases hk : k ∈ d.map (·.1)
      · rw [if_pos hk, if_pos (by simp only [List.map_cons, List.mem_cons]; exact Or.inr hk)]
        rfl
      · rw [if_neg hk, if_neg (by simp only [List.map_cons, List.mem_cons]; tauto)]
        rfl

theorem extend_nodup (d : List ((ℕ × ℕ) × List ℝ)) (k : ℕ × ℕ) (v : List ℝ) (h : (d.map (·.1)).Nodup) :
    ((extend d k v).map (·.1)).Nodup := by
  rw [extend_keys]
  split_ifs with hk
  · exact h
  · rw [List.nodup_append]
    refine ⟨h, by simp, ?_⟩
    intro a ha b hb
    simp only [List.mem_singleton] at hb
    subst hb
    exact fun hab => hk (hab ▸ ha)

/-- Values of keys. -/
def HasAll (d : List ((ℕ × ℕ) × List ℝ)) (k : ℕ × ℕ) (x : ℝ) : Prop := ∃ v, (k, v) ∈ d ∧ x ∈ v

theorem extend_hasAll (d : List ((ℕ × ℕ) × List ℝ)) (k : ℕ × ℕ) (v : List ℝ) (k' : ℕ × ℕ) (x : ℝ)
    (hd : (d.map (·.1)).Nodup) :
    HasAll (extend d k v) k' x ↔ HasAll d k' x ∨ k' = k ∧ x ∈ v := by
  induction d with
  | nil =>
    unfold HasAll extend
    simp only [List.mem_singleton, Prod.mk.injEq, List.not_mem_nil, false_and, exists_false, false_or]
    constructor
    · rintro ⟨w, ⟨h1, h2⟩, h3⟩
      exact ⟨h1, h2 ▸ h3⟩
    · rintro ⟨h1, h2⟩
      exact ⟨v, ⟨h1, rfl⟩, h2⟩
  | cons y d ih =>
    rw [List.map_cons, List.nodup_cons] at hd
    obtain ⟨y1, y2⟩ := y
    unfold extend
    by_cases hy : y1 = k
    · subst hy
      rw [if_pos rfl]
      unfold HasAll
      simp only [List.mem_cons, Prod.mk.injEq]
      constructor
      · rintro ⟨w, (⟨rfl, rfl⟩ | hw), hx⟩
        · rw [List.mem_append] at hx
          rcases hx with hx | hx
          · exact Or.inl ⟨y2, Or.inl ⟨rfl, rfl⟩, hx⟩
          · exact Or.inr ⟨rfl, hx⟩
        · exact Or.inl ⟨w, Or.inr hw, hx⟩
      · rintro (⟨w, (⟨rfl, rfl⟩ | hw), hx⟩ | ⟨rfl, hx⟩)
        · exact ⟨_, Or.inl ⟨rfl, rfl⟩, List.mem_append_left _ hx⟩
        · exact ⟨w, Or.inr hw, hx⟩
        · exact ⟨_, Or.inl ⟨rfl, rfl⟩, List.mem_append_right _ hx⟩
    · rw [if_neg hy]
      have hcons : ∀ (d : List ((ℕ × ℕ) × List ℝ)), HasAll ((y1, y2) :: d) k' x ↔ (k' = y1 ∧ x ∈ y2) ∨ HasAll d k' x := by
        intro d
        unfold HasAll
        simp only [List.mem_cons, Prod.mk.injEq]
        constructor
        · rintro ⟨w, (⟨rfl, rfl⟩ | hw), hx⟩
          · exact Or.inl ⟨rfl, hx⟩
          · exact Or.inr ⟨w, hw, hx⟩
        · rintro (⟨rfl, hx⟩ | ⟨w, hw, hx⟩)
          · exact ⟨_, Or.inl ⟨rfl, rfl⟩, hx⟩
          · exact ⟨w, Or.inr hw, hx⟩
      rw [hcons, hcons, ih hd.2]
      tauto

theorem foldl_extend (kvs : List ((ℕ × ℕ) × List ℝ)) (d : List ((ℕ × ℕ) × List ℝ)) (hd : (d.map (·.1)).Nodup) :
    let r := kvs.foldl (fun d kv => extend d kv.1 kv.2) d
    (r.map (·.1)).Nodup ∧ (∀ k, k ∈ r.map (·.1) ↔ k ∈ d.map (·.1) ∨ k ∈ kvs.map (·.1)) ∧
      ∀ k x, HasAll r k x ↔ HasAll d k x ∨ ∃ v, (k, v) ∈ kvs ∧ x ∈ v := by
  induction kvs generalizing d with
  | nil => exact ⟨hd, by simp, by simp⟩
  | cons y kvs ih =>
    obtain ⟨h1, h2, h3⟩ := ih (extend d y.1 y.2) (extend_nodup _ _ _ hd)
    refine ⟨h1, fun k => ?_, fun k x => ?_⟩
    · rw [List.foldl_cons, h2, extend_keys, List.map_cons, List.mem_cons]
      split_ifs with hk
      · constructor
        · rintro (h | h)
          · exact Or.inl h
          · exact Or.inr (Or.inr h)
        · rintro (h | h | h)
          · exact Or.inl h
          · exact Or.inl (h ▸ hk)
          · exact Or.inr h
      · rw [List.mem_append, List.mem_singleton]
        tauto
    · rw [List.foldl_cons, h3, extend_hasAll _ _ _ _ _ hd]
      simp only [List.mem_cons]
      constructor
      · rintro ((h | ⟨rfl, h⟩) | ⟨v, h, hx⟩)
        · exact Or.inl h
        · exact Or.inr ⟨y.2, Or.inl rfl, h⟩
        · exact Or.inr ⟨v, Or.inr h, hx⟩
      · rintro (h | ⟨v, (rfl | h), hx⟩)
        · exact Or.inl (Or.inl h)
        · exact Or.inl (Or.inr ⟨rfl, hx⟩)
        · exact Or.inr ⟨v, h, hx⟩

theorem assign_fresh {α β : Type} [DecidableEq α] (d : List (α × β)) (k : α) (v : β) (h : k ∉ d.map (·.1)) :
    assign d k v = d ++ [(k, v)] := by
  induction d with
  | nil => rfl
  | cons x d ih =>
    rw [List.map_cons, List.mem_cons] at h
    unfold assign
    rw [if_neg (fun hh => h (Or.inl hh.symm)), ih (fun hh => h (Or.inr hh))]
    rfl

theorem assign_lookup {α β : Type} [DecidableEq α] (d : List (α × β)) (k k' : α) (v : β) :
    (assign d k v).lookup k' = if k' = k then some v else d.lookup k' := by
  induction d with
  | nil =>
    unfold assign
    by_cases h : k' = k
    · subst h
      simp
    · rw [if_neg h, List.lookup_cons]
      have : (k' == k) = false := by simpa using h
      rw [this]
  | cons x d ih =>
    unfold assign
    by_cases hx : x.1 = k
    · rw [if_pos hx]
      by_cases h : k' = k
      · subst h
        simp
      · rw [if_neg h, List.lookup_cons, List.lookup_cons]
        have : (k' == k) = false := by simpa using h
        rw [this, hx, this]
    · rw [if_neg hx, List.lookup_cons, List.lookup_cons, ih]
      by_cases h : k' = x.1
      · subst h
        simp [hx]
      · have : (k' == x.1) = false := by simpa using h
        rw [this]

theorem foldl_assign_lookup {α β : Type} [DecidableEq α] (l : List (α × β)) (d : List (α × β)) (k : α) (v : β)
    (hl : ∀ w, (k, w) ∈ l → w = v) : (l.foldl (fun d x => assign d x.1 x.2) d).lookup k =
      open Classical in if k ∈ l.map (·.1) then some v else d.lookup k := by
  induction l generalizing d with
  | nil => simp
  | cons x l ih =>
    rw [List.foldl_cons, ih _ (fun w hw => hl w (List.mem_cons_of_mem _ hw)), assign_lookup]
    by_cases h1 : k ∈ l.map (·.1)
    · rw [if_pos h1, if_pos (by rw [List.map_cons]; exact List.mem_cons_of_mem _ h1)]
    · rw [if_neg h1]
      by_cases h2 : k = x.1
      · rw [if_pos h2, if_pos (by rw [List.map_cons, h2]; exact List.mem_cons_self)]
        rw [hl x.2 (by rw [h2]; exact List.mem_cons_self)]
      · rw [if_neg h2, if_neg]
        rw [List.map_cons, List.mem_cons]
        tauto

theorem byElements_ok (m : List (ℕ × String)) (decimals : ℕ) (f : ℕ → String) : ∀ (d : List ((ℕ × ℕ) × List ℝ))
    (acc : List ((String × String) × List ℝ)),
    (∀ k ∈ d.map (·.1), m.lookup k.1 = some (f k.1) ∧ m.lookup k.2 = some (f k.2)) →
    ((acc.map (·.1)) ++ d.map (fun x => (f x.1.1, f x.1.2))).Nodup →
    byElements m decimals d acc = .ok (acc ++ d.map fun x => ((f x.1.1, f x.1.2), uniqueRounded decimals x.2))
  | [], acc, _, _ => by simp [byElements]
  | (k, v) :: d, acc, h1, h2 => by
    obtain ⟨a1, a2⟩ := h1 k (by simp)
    have hfresh : (f k.1, f k.2) ∉ acc.map (·.1) := by
      rw [List.nodup_append] at h2
      intro hm
      exact h2.2.2 _ hm (f k.1, f k.2) (by simp) rfl
    unfold byElements
    simp only [elementOf, a1, a2, orErr, bind, Except.bind]
    rw [assign_fresh _ _ _ hfresh, byElements_ok m decimals f d _ (fun k' hk' => h1 k' (by simp only [List.map_cons, List.mem_cons]; exact Or.inr hk'))]
    · simp
    · simpa using h2

/-! ### Rounding -/

theorem round_half_even (x : ℝ) (h : |x - SschaApi.rint x| = 1 / 2) : Even (SschaApi.rint x) := by
  have h1 := Int.floor_le x
  have h2 := Int.lt_floor_add_one x
  unfold SschaApi.rint at h ⊢
  by_cases ha : x - ⌊x⌋ < 1 / 2
  · rw [if_pos ha] at h
    rw [abs_of_nonneg (by linarith)] at h
    linarith
  · rw [if_neg ha] at h ⊢
    by_cases hb : 1 / 2 < x - ⌊x⌋
    · rw [if_pos hb] at h
      push_cast at h
      rw [abs_of_nonpos (by linarith)] at h
      linarith
    · rw [if_neg hb]
      by_cases hc : ⌊x⌋ % 2 = 0
      · rw [if_pos hc]
        exact Int.even_iff.2 hc
      · rw [if_neg hc, Int.even_add_one, Int.not_even_iff]
        omega

theorem roundTo_spec (decimals : ℕ) (x : ℝ) : RoundedTo decimals x (roundTo decimals x) :=
  ⟨SschaApi.rint (x * 10 ^ decimals), rfl, SschaApi.rint_near _, round_half_even _⟩

/-- Rounding is determined. -/
theorem rounded_unique {decimals : ℕ} {x y z : ℝ} (hy : RoundedTo decimals x y) (hz : RoundedTo decimals x z) : y = z := by
  obtain ⟨k, rfl, k1, k2⟩ := hy
  obtain ⟨l, rfl, l1, l2⟩ := hz
  have hk := abs_le.1 k1
  have hl := abs_le.1 l1
  rcases lt_trichotomy k l with h | h | h
  · have : (k : ℝ) + 1 ≤ l := by exact_mod_cast h
    have e1 : x * 10 ^ decimals - k = 1 / 2 := by linarith
    have e2 : x * 10 ^ decimals - l = -(1 / 2) := by linarith
    have ek := k2 (by rw [e1]; norm_num)
    have el := l2 (by rw [e2]; norm_num)
    have hl' : l = k + 1 := by
      have : (l : ℝ) = k + 1 := by linarith
      exact_mod_cast this
    rw [hl', Int.even_add_one] at el
    exact absurd ek el
  · rw [h]
  · have : (l : ℝ) + 1 ≤ k := by exact_mod_cast h
    have e1 : x * 10 ^ decimals - l = 1 / 2 := by linarith
    have e2 : x * 10 ^ decimals - k = -(1 / 2) := by linarith
    have el := l2 (by rw [e1]; norm_num)
    have ek := k2 (by rw [e2]; norm_num)
    have hk' : k = l + 1 := by
      have : (k : ℝ) = l + 1 := by linarith
      exact_mod_cast this
    rw [hk', Int.even_add_one] at ek
    exact absurd el ek

theorem mem_uniqueRounded (decimals : ℕ) (v : List ℝ) (x : ℝ) :
    x ∈ uniqueRounded decimals v ↔ ∃ y ∈ v, RoundedTo decimals y x := by
  unfold uniqueRounded
  rw [Finset.mem_sort, List.mem_toFinset, List.mem_map]
  constructor
  · rintro ⟨y, hy, rfl⟩
    exact ⟨y, hy, roundTo_spec _ _⟩
  · rintro ⟨y, hy, h⟩
    exact ⟨y, hy, rounded_unique (roundTo_spec _ _) h⟩

theorem joins_symm {axis : Mat} {pos : ℕ → Vec ℝ} {i j : ℕ} {d : Vec ℝ} (h : Joins axis pos i j d) : Joins axis pos j i (-d) := by
  obtain ⟨t, ht, rfl⟩ := h
  exact ⟨-t, neg_mem_lattice _ ht, by abel⟩

theorem lengthOf_neg (d : Vec ℝ) : lengthOf (-d) = lengthOf d := by
  rw [lengthOf_eq, lengthOf_eq, norm3_neg]

/-- **C94 (distances by elements).** When types and elements correspond one to one, `find_active_distances` returns the rounded
distances within the cutoff for every pair of elements, whatever the order in which the set of types and elements is read. -/
theorem C94_active_partial (order : List (ℕ × String) → List (ℕ × String)) (ho : ∀ l, (order l).Perm l) (s : St) (hs : Plain s)
    (ht : TypesUsed s) (he : OneElementEach s) (hd : s.axis.det ≠ 0) (cutoff : ℝ) (hc : 0 < cutoff) (decimals : ℕ)
    (hr : PairReduced s.axis) (hin : InCell s.axis (cartesian s) s.types.length) (hf : NotFlat s.axis cutoff) :
    ∃ r, activeDistances order s cutoff decimals = .ok r ∧ DistancesByElements s cutoff decimals r := by
  obtain ⟨⟨tb, htb, hdl⟩, -⟩ := C94_distances_partial s hs hd cutoff hc hr hin hf
  obtain ⟨hel, hone⟩ := he
  -- the element of a type
  have hf : ∃ f : ℕ → String, ∀ i t : ℕ, s.types[i]? = some t → s.elements[i]? = some (f t) := by
    classical
    refine ⟨fun t => (s.elements[s.types.idxOf t]?).getD "", fun i t hi => ?_⟩
    have hmem : t ∈ s.types := List.mem_of_getElem? hi
    have hlt := List.idxOf_lt_length_of_mem hmem
    obtain ⟨hi', -⟩ := List.getElem?_eq_some_iff.1 hi
    have h1 : s.types[s.types.idxOf t]? = s.types[i]? := by
      rw [hi, List.getElem?_eq_getElem hlt, List.getElem_idxOf hlt]
    have h2 := (hone _ _ hlt hi').1 h1
    beta_reduce
    rw [← h2, List.getElem?_eq_getElem (by omega), Option.getD_some]
  obtain ⟨f, hf⟩ := hf
  have hinj : ∀ t ∈ s.types, ∀ u ∈ s.types, f t = f u → t = u := by
    intro t htm u hum htu
    obtain ⟨i, hi, hi2⟩ := List.getElem_of_mem htm
    obtain ⟨j, hj, hj2⟩ := List.getElem_of_mem hum
    have a1 : s.types[i]? = some t := by rw [List.getElem?_eq_getElem hi, hi2]
    have a2 : s.types[j]? = some u := by rw [List.getElem?_eq_getElem hj, hj2]
    have := (hone i j hi hj).2 (by rw [hf i t a1, hf j u a2, htu])
    rw [a1, a2, Option.some.injEq] at this
    exact this
  have hall : ∀ t < s.types.toFinset.card, t ∈ s.types := by
    have hsub : s.types.toFinset ⊆ Finset.range s.types.toFinset.card := by
      intro t htm
      rw [Finset.mem_range]
      exact ht t (List.mem_toFinset.1 htm)
    have := Finset.eq_of_subset_of_card_le hsub (by rw [Finset.card_range])
    intro t htl
    have hm : t ∈ s.types.toFinset := by
      rw [this]
      exact Finset.mem_range.2 htl
    exact List.mem_toFinset.1 hm
  -- the map of elements
  have hmap : ∀ t ∈ s.types, (elementMap order s).lookup t = some (f t) := by
    intro t htm
    unfold elementMap
    have hz : ∀ w, (t, w) ∈ order (s.types.zip s.elements).eraseDups ↔ (t, w) ∈ s.types.zip s.elements := by
      intro w
      rw [(ho _).mem_iff, List.mem_eraseDups]
    have hw : ∀ w, (t, w) ∈ s.types.zip s.elements → w = f t := by
      intro w hw
      obtain ⟨i, hi, hi2⟩ := List.getElem_of_mem hw
      rw [List.getElem_zip, Prod.mk.injEq] at hi2
      rw [List.length_zip] at hi
      have a1 : s.types[i]? = some t := by rw [List.getElem?_eq_getElem (by omega), hi2.1]
      have := hf i t a1
      rw [List.getElem?_eq_getElem (by omega), hi2.2, Option.some.injEq] at this
      exact this
    rw [foldl_assign_lookup _ _ t (f t) (fun w h => hw w ((hz w).1 h)), if_pos]
    obtain ⟨i, hi, hi2⟩ := List.getElem_of_mem htm
    have a1 : s.types[i]? = some t := by rw [List.getElem?_eq_getElem hi, hi2]
    have : (t, f t) ∈ s.types.zip s.elements := by
      have : (s.types.zip s.elements)[i]? = some (t, f t) := by
        rw [List.getElem?_zip_eq_some]
        exact ⟨a1, hf i t a1⟩
      exact List.mem_of_getElem? this
    exact List.mem_map.2 ⟨_, (hz _).2 this, rfl⟩
  -- the first dictionary
  have hkv : ∀ k v, (k, v) ∈ ((neighborList s cutoff).1.zipIdx.flatMap fun x => x.1.zipIdx.map fun y =>
      (sortedPair (s.types.getD x.2 0) y.2, y.1)) ↔ ∃ i row t l, tb[i]? = some row ∧ row[t]? = some l ∧
        k = sortedPair (s.types.getD i 0) t ∧ v = l.map fun e => lengthOf e.diff := by
    intro k v
    rw [hdl, List.mem_flatMap]
    constructor
    · rintro ⟨⟨row, i⟩, hx, hy⟩
      rw [List.mem_map] at hy
      obtain ⟨⟨l, t⟩, hl, hkv⟩ := hy
      rw [List.mem_zipIdx_iff_getElem?] at hx hl
      simp only [List.getElem?_map, Option.map_eq_some_iff] at hx
      obtain ⟨row0, r1, rfl⟩ := hx
      simp only [List.getElem?_map, Option.map_eq_some_iff] at hl
      obtain ⟨l0, l1, rfl⟩ := hl
      simp only [Prod.mk.injEq] at hkv
      exact ⟨i, row0, t, l0, r1, l1, hkv.1.symm, hkv.2.symm⟩
    · rintro ⟨i, row, t, l, r1, l1, rfl, rfl⟩
      refine ⟨(row.map fun l => l.map fun e => lengthOf e.diff, i), ?_, ?_⟩
      · rw [List.mem_zipIdx_iff_getElem?]
        simp [r1]
      · rw [List.mem_map]
        refine ⟨(l.map fun e => lengthOf e.diff, t), ?_, rfl⟩
        rw [List.mem_zipIdx_iff_getElem?]
        simp [l1]
  obtain ⟨d1, d2, d3⟩ := foldl_extend ((neighborList s cutoff).1.zipIdx.flatMap fun x => x.1.zipIdx.map fun y =>
      (sortedPair (s.types.getD x.2 0) y.2, y.1)) [] (by simp)
  have hD : ((neighborList s cutoff).1.zipIdx.flatMap fun x => x.1.zipIdx.map fun y =>
      (sortedPair (s.types.getD x.2 0) y.2, y.1)).foldl (fun d kv => extend d kv.1 kv.2) [] =
      byTypes s.types (neighborList s cutoff).1 := rfl
  rw [hD] at d1 d2 d3
  -- keys
  have hkey : ∀ k, k ∈ (byTypes s.types (neighborList s cutoff).1).map (·.1) ↔
      ∃ t u, t ∈ s.types ∧ u ∈ s.types ∧ t ≤ u ∧ k = (t, u) := by
    intro k
    rw [d2, List.map_nil]
    constructor
    · rintro (h | h)
      · cases h
      · rw [List.mem_map] at h
        obtain ⟨⟨k', v⟩, hm, rfl⟩ := h
        obtain ⟨i, row, t, l, r1, l1, rfl, rfl⟩ := (hkv _ _).1 hm
        obtain ⟨hi, -⟩ := List.getElem?_eq_some_iff.1 r1
        obtain ⟨row', q1, q2, q3⟩ := htb.2 i (by rw [← htb.1]; exact hi)
        rw [r1, Option.some.injEq] at q1
        subst q1
        obtain ⟨htl, -⟩ := List.getElem?_eq_some_iff.1 l1
        have htm := hall t (by omega)
        have hi' : i < s.types.length := by rw [← htb.1]; exact hi
        have hgi : s.types.getD i 0 ∈ s.types := by
          rw [List.getD_eq_getElem?_getD, List.getElem?_eq_getElem hi', Option.getD_some]
          exact List.getElem_mem _
        unfold sortedPair
        split_ifs with hle
        · exact ⟨_, _, hgi, htm, hle, rfl⟩
        · exact ⟨_, _, htm, hgi, by omega, rfl⟩
    · rintro ⟨t, u, htm, hum, htu, rfl⟩
      right
      rw [List.mem_map]
      obtain ⟨i, hi, hi2⟩ := List.getElem_of_mem htm
      obtain ⟨row, l, e1, e2, -⟩ := list_at htb i u hi (ht u hum)
      refine ⟨((t, u), l.map fun e => lengthOf e.diff), (hkv _ _).2 ⟨i, row, u, l, e1, e2, ?_, rfl⟩, rfl⟩
      rw [List.getD_eq_getElem?_getD, List.getElem?_eq_getElem hi, Option.getD_some, hi2, sortedPair, if_pos htu]
  -- values
  have hval : ∀ t u, t ∈ s.types → u ∈ s.types → t ≤ u → ∀ x, HasAll (byTypes s.types (neighborList s cutoff).1) (t, u) x ↔
      ∃ (i j : ℕ) (d : Fin 3 → ℝ), s.types[i]? = some t ∧ s.types[j]? = some u ∧ Joins s.axis (cartesian s) i j d ∧
        1e-10 < lengthOf d ∧ lengthOf d < cutoff ∧ x = lengthOf d := by
    intro t u htm hum htu x
    rw [d3]
    constructor
    · rintro (⟨v, h, -⟩ | ⟨v, h, hx⟩)
      · cases h
      · obtain ⟨i, row, w, l, r1, l1, hk, rfl⟩ := (hkv _ _).1 h
        obtain ⟨hi, -⟩ := List.getElem?_eq_some_iff.1 r1
        have hi' : i < s.types.length := by rw [← htb.1]; exact hi
        obtain ⟨row', q1, q2, q3⟩ := htb.2 i hi'
        rw [r1, Option.some.injEq] at q1
        subst q1
        obtain ⟨hwl, -⟩ := List.getElem?_eq_some_iff.1 l1
        obtain ⟨row', l', e1, e2, e3⟩ := list_at htb i w hi' (by omega)
        rw [r1, Option.some.injEq] at e1
        subst e1
        rw [l1, Option.some.injEq] at e2
        subst e2
        obtain ⟨j, d, g1, g2, g3, g4, g5⟩ := (e3 x).1 hx
        have hti : s.types[i]? = some (s.types.getD i 0) := by
          rw [List.getD_eq_getElem?_getD, List.getElem?_eq_getElem hi', Option.getD_some]
        unfold sortedPair at hk
        split_ifs at hk with hle
        · rw [Prod.mk.injEq] at hk
          exact ⟨i, j, d, by rw [hti, hk.1], by rw [g1, hk.2], g2, g3, g4, g5⟩
        · rw [Prod.mk.injEq] at hk
          exact ⟨j, i, -d, by rw [g1, hk.1], by rw [hti, hk.2], joins_symm g2, by rw [lengthOf_neg]; exact g3,
            by rw [lengthOf_neg]; exact g4, by rw [lengthOf_neg]; exact g5⟩
    · rintro ⟨i, j, d, g1, g2, g3, g4, g5, rfl⟩
      right
      obtain ⟨hi, hi2⟩ := List.getElem?_eq_some_iff.1 g1
      obtain ⟨row, l, e1, e2, e3⟩ := list_at htb i u hi (ht u hum)
      refine ⟨l.map fun e => lengthOf e.diff, (hkv _ _).2 ⟨i, row, u, l, e1, e2, ?_, rfl⟩, (e3 _).2 ⟨j, d, g2, g3, g4, g5, rfl⟩⟩
      rw [List.getD_eq_getElem?_getD, g1, Option.getD_some, sortedPair, if_pos htu]
  -- the second dictionary
  have hnodup : ((byTypes s.types (neighborList s cutoff).1).map (fun x => (f x.1.1, f x.1.2))).Nodup := by
    have : (byTypes s.types (neighborList s cutoff).1).map (fun x => (f x.1.1, f x.1.2)) =
        ((byTypes s.types (neighborList s cutoff).1).map (·.1)).map fun k => (f k.1, f k.2) := by
      rw [List.map_map]
      rfl
    rw [this]
    refine List.Nodup.map_on ?_ d1
    intro k hk k' hk' hkk
    obtain ⟨t, u, h1, h2, h3, rfl⟩ := (hkey k).1 hk
    obtain ⟨t', u', h1', h2', h3', rfl⟩ := (hkey k').1 hk'
    simp only [Prod.mk.injEq] at hkk ⊢
    exact ⟨hinj _ h1 _ h1' hkk.1, hinj _ h2 _ h2' hkk.2⟩
  have hok := byElements_ok (elementMap order s) decimals f (byTypes s.types (neighborList s cutoff).1) []
    (by
      intro k hk
      obtain ⟨t, u, h1, h2, h3, rfl⟩ := (hkey k).1 hk
      exact ⟨hmap t h1, hmap u h2⟩)
    (by simpa using hnodup)
  refine ⟨_, hok, ?_, ?_, ?_⟩
  · simpa [Function.comp_def] using hnodup
  · intro k hk
    simp only [List.nil_append, List.map_map, List.mem_map, Function.comp] at hk
    obtain ⟨x, hx, rfl⟩ := hk
    obtain ⟨t, u, h1, h2, h3, hxk⟩ := (hkey x.1).1 (List.mem_map_of_mem hx)
    obtain ⟨i, hi, hi2⟩ := List.getElem_of_mem h1
    obtain ⟨j, hj, hj2⟩ := List.getElem_of_mem h2
    have a1 : s.types[i]? = some t := by rw [List.getElem?_eq_getElem hi, hi2]
    have a2 : s.types[j]? = some u := by rw [List.getElem?_eq_getElem hj, hj2]
    refine ⟨i, j, t, u, a1, a2, h3, ?_, ?_⟩
    · rw [hf i t a1, hxk]
    · rw [hf j u a2, hxk]
  · intro i j t u a b h1 h2 h3 h4 h5
    have htm := List.mem_of_getElem? h1
    have hum := List.mem_of_getElem? h2
    have hk := (hkey (t, u)).2 ⟨t, u, htm, hum, h3, rfl⟩
    rw [List.mem_map] at hk
    obtain ⟨⟨k, v⟩, hv, hkv'⟩ := hk
    simp only at hkv'
    subst hkv'
    have ha : a = f t := by
      have := hf i t h1
      rw [h4, Option.some.injEq] at this
      exact this
    have hb : b = f u := by
      have := hf j u h2
      rw [h5, Option.some.injEq] at this
      exact this
    refine ⟨uniqueRounded decimals v, ?_, ?_, fun x => ?_⟩
    · rw [ha, hb, List.nil_append, List.mem_map]
      exact ⟨((t, u), v), hv, rfl⟩
    · exact (Finset.sortedLT_sort _).pairwise
    · rw [mem_uniqueRounded]
      have hmem : ∀ y, y ∈ v ↔ HasAll (byTypes s.types (neighborList s cutoff).1) (t, u) y := by
        intro y
        constructor
        · intro hy
          exact ⟨v, hv, hy⟩
        · rintro ⟨w, hw, hy⟩
          have := List.inj_on_of_nodup_map d1 hw hv rfl
          rw [Prod.mk.injEq] at this
          rw [← this.2]
          exact hy
      constructor
      · rintro ⟨y, hy, hx⟩
        rw [hmem, hval t u htm hum h3] at hy
        obtain ⟨i', j', d, g1, g2, g3, g4, g5, rfl⟩ := hy
        exact ⟨i', j', d, g1, g2, g3, g4, g5, hx⟩
      · rintro ⟨i', j', d, g1, g2, g3, g4, g5, hx⟩
        refine ⟨lengthOf d, ?_, hx⟩
        rw [hmem, hval t u htm hum h3]
        exact ⟨i', j', d, g1, g2, g3, g4, g5, rfl⟩

/-! ### A case that meets the hypotheses -/

/-- Two atoms of different elements in a cubic cell. -/
noncomputable def exCell : St where
  axis := 1
  positions := [0, ![1 / 2, 0, 0]]
  types := [0, 1]
  elements := ["Na", "Cl"]

theorem lengthOf_unit (k : Fin 3) : lengthOf (fun r => (1 : Matrix (Fin 3) (Fin 3) ℝ) r k) = 1 := by
  unfold lengthOf
  fin_cases k <;> simp [Matrix.one_apply]

theorem inCell_one (f : ℕ → Fin 3 → ℝ) (n : ℕ) (h : ∀ j < n, ∀ k, 0 ≤ f j k ∧ f j k < 1) : InCell 1 f n :=
  fun j hj => ⟨f j, h j hj, by rw [one_mulVec]⟩

theorem exCell_cart (j : ℕ) : cartesian exCell j = [0, ![1 / 2, 0, 0]].getD j 0 := by
  unfold cartesian exCell
  rw [one_mulVec]

theorem exCell_in : InCell exCell.axis (cartesian exCell) exCell.types.length := by
  refine inCell_one _ _ fun j hj k => ?_
  rw [exCell_cart]
  have : j = 0 ∨ j = 1 := by
    have : exCell.types.length = 2 := rfl
    omega
  rcases this with rfl | rfl <;> fin_cases k <;> norm_num

theorem one_orthogonal : ∀ p q : Fin 3, p ≠ q →
    ∑ r, (1 : Matrix (Fin 3) (Fin 3) ℝ) r p * (1 : Matrix (Fin 3) (Fin 3) ℝ) r q = 0 := by
  intro p q h
  rw [Fin.sum_univ_three]
  fin_cases p <;> fin_cases q <;> first | exact absurd rfl h | simp [Matrix.one_apply]

theorem exCell_det : exCell.axis.det ≠ 0 := by
  unfold exCell
  simp

theorem exCell_card : exCell.types.toFinset.card = 2 := by decide

/-- Non-vacuity of C94: all hypotheses hold, for every cutoff. -/
example : Plain exCell ∧ TypesUsed exCell ∧ OneElementEach exCell ∧ exCell.axis.det ≠ 0 ∧ ShortestAxis exCell.axis 1 ∧
    PairReduced exCell.axis ∧ InCell exCell.axis (cartesian exCell) exCell.types.length ∧
    ∀ c, 0 < c → NotFlat exCell.axis c := by
  obtain ⟨h1, h2⟩ := C94_orthogonal 1 (by simp) one_orthogonal
  refine ⟨⟨rfl, rfl⟩, ?_, ⟨rfl, ?_⟩, exCell_det, ⟨⟨0, (lengthOf_unit 0).symm⟩, fun k => (lengthOf_unit k).ge⟩, h1, exCell_in, h2⟩
  · intro t ht
    rw [exCell_card]
    have : t = 0 ∨ t = 1 := by simpa [exCell] using ht
    omega
  · have hl : exCell.types.length = 2 := rfl
    intro i j hi hj
    rw [hl] at hi hj
    interval_cases i <;> interval_cases j <;> simp [exCell]

/-- Non-vacuity of C94: the least distance of this cell is found and is one half. -/
example : ∃ m, minimumDistance exCell = .ok m ∧ m = 1 / 2 := by
  obtain ⟨h1, h2⟩ := C94_orthogonal 1 (by simp) one_orthogonal
  have ht : TypesUsed exCell := by
    intro t ht
    rw [exCell_card]
    have : t = 0 ∨ t = 1 := by simpa [exCell] using ht
    omega
  obtain ⟨a1, a2, a3⟩ := C94_minimum_partial exCell ⟨rfl, rfl⟩ ht exCell_det 1
    ⟨⟨0, (lengthOf_unit 0).symm⟩, fun k => (lengthOf_unit k).ge⟩ h1 exCell_in (h2 _ (by norm_num))
  have hl : exCell.types.length = 2 := rfl
  have hunit : (![1, 0, 0] : Fin 3 → ℝ) ∈ lattice exCell.axis := by
    refine ⟨![1, 0, 0], fun r => ?_⟩
    rw [Fin.sum_univ_three]
    fin_cases r <;> simp [exCell, Matrix.one_apply]
  have hzero : (0 : Fin 3 → ℝ) ∈ lattice exCell.axis := ⟨0, fun r => by simp⟩
  have hhalf : lengthOf (![1 / 2, 0, 0] : Fin 3 → ℝ) = 1 / 2 := by
    unfold lengthOf
    rw [show ((![1 / 2, 0, 0] : Fin 3 → ℝ) 0 ^ 2 + (![1 / 2, 0, 0] : Fin 3 → ℝ) 1 ^ 2 + (![1 / 2, 0, 0] : Fin 3 → ℝ) 2 ^ 2) = (1 / 2) ^ 2 by
      simp]
    exact Real.sqrt_sq (by norm_num)
  have hone : lengthOf (![1, 0, 0] : Fin 3 → ℝ) = 1 := by
    unfold lengthOf
    simp
  obtain ⟨m, hm⟩ := a3.2 ⟨by simp [exCell], by
    intro i hi t htm
    rw [hl] at hi
    have ht2 : t = 0 ∨ t = 1 := by simpa [exCell] using htm
    by_cases hit : i = t
    · refine ⟨i, ![1, 0, 0], ?_, ⟨_, hunit, by rw [sub_self, zero_add]⟩, by rw [hone]; norm_num, by rw [hone]; norm_num⟩
      rcases ht2 with rfl | rfl <;> rw [hit] <;> rfl
    · by_cases hi0 : i = 0
      · subst hi0
        obtain rfl : t = 1 := by omega
        refine ⟨1, ![1 / 2, 0, 0], rfl, ⟨0, hzero, ?_⟩, by rw [hhalf]; norm_num, by rw [hhalf]; norm_num⟩
        rw [exCell_cart, exCell_cart]
        simp
      · obtain rfl : i = 1 := by omega
        obtain rfl : t = 0 := by omega
        refine ⟨0, -![1 / 2, 0, 0], rfl, ⟨0, hzero, ?_⟩, by rw [lengthOf_neg, hhalf]; norm_num, by rw [lengthOf_neg, hhalf]; norm_num⟩
        rw [exCell_cart, exCell_cart]
        simp⟩
  refine ⟨m, hm, ?_⟩
  obtain ⟨⟨i, j, d, hi, hj, ⟨t, ⟨n, hn⟩, hd⟩, h3, h4⟩, h5⟩ := a1 m hm
  apply le_antisymm
  · rw [← hhalf]
    refine h5 0 1 _ (by rw [hl]; norm_num) (by rw [hl]; norm_num) ⟨0, hzero, ?_⟩ (by rw [hhalf]; norm_num)
    rw [exCell_cart, exCell_cart]
    simp
  · -- every vector has a component that is a nonzero multiple of one half
    have hn' : ∀ r, t r = (n r : ℝ) := by
      intro r
      rw [hn r, Fin.sum_univ_three]
      fin_cases r <;> simp [exCell, Matrix.one_apply]
    have hcomp : ∀ r, ∃ k : ℤ, d r = (k : ℝ) / 2 := by
      intro r
      rw [hl] at hi hj
      rw [hd, Pi.add_apply, Pi.sub_apply, hn' r, exCell_cart, exCell_cart]
      interval_cases i <;> interval_cases j <;> fin_cases r <;> simp
      · exact ⟨2 * n 0, by push_cast; ring⟩
      · exact ⟨2 * n 1, by push_cast; ring⟩
      · exact ⟨2 * n 2, by push_cast; ring⟩
      · exact ⟨2 * n 0 + 1, by push_cast; ring⟩
      · exact ⟨2 * n 1, by push_cast; ring⟩
      · exact ⟨2 * n 2, by push_cast; ring⟩
      · exact ⟨2 * n 0 - 1, by push_cast; ring⟩
      · exact ⟨2 * n 1, by push_cast; ring⟩
      · exact ⟨2 * n 2, by push_cast; ring⟩
      · exact ⟨2 * n 0, by push_cast; ring⟩
      · exact ⟨2 * n 1, by push_cast; ring⟩
      · exact ⟨2 * n 2, by push_cast; ring⟩
    rw [h4]
    unfold lengthOf at h3 ⊢
    apply Real.le_sqrt_of_sq_le
    obtain ⟨k0, e0⟩ := hcomp 0
    obtain ⟨k1, e1⟩ := hcomp 1
    obtain ⟨k2, e2⟩ := hcomp 2
    rw [e0, e1, e2] at h3 ⊢
    have hne : 1 ≤ k0 ^ 2 + k1 ^ 2 + k2 ^ 2 := by
      by_contra hcon
      have : k0 ^ 2 + k1 ^ 2 + k2 ^ 2 = 0 := by
        have := sq_nonneg k0
        have := sq_nonneg k1
        have := sq_nonneg k2
        omega
      have z : ((k0 : ℝ) / 2) ^ 2 + ((k1 : ℝ) / 2) ^ 2 + ((k2 : ℝ) / 2) ^ 2 = 0 := by
        have h' : ((k0 : ℝ)) ^ 2 + (k1 : ℝ) ^ 2 + (k2 : ℝ) ^ 2 = 0 := by exact_mod_cast this
        nlinarith
      rw [z, Real.sqrt_zero] at h3
      norm_num at h3
    have : (1 : ℝ) ≤ (k0 : ℝ) ^ 2 + (k1 : ℝ) ^ 2 + (k2 : ℝ) ^ 2 := by exact_mod_cast hne
    nlinarith

/-! ### What goes wrong -/

/-- **C94 (violation).** The Cartesian positions are kept with the structure and used again: after one call, new fractional
positions have no effect on later results. -/
theorem C94_stale_violation (s : St) (cutoff cutoff' : ℝ) (p : List (Fin 3 → ℝ)) :
    (neighborList { (neighborList s cutoff).2 with positions := p } cutoff').1 = (neighborList s cutoff').1 := by
  obtain ⟨axis, positions, types, elements, cart⟩ := s
  cases cart <;> rfl

/-- Two atoms that are far apart along the longest axis. -/
noncomputable def exLong : St where
  axis := Matrix.diagonal ![1, 1, 10]
  positions := [0, ![0, 0, 1 / 2]]
  types := [0, 1]
  elements := ["Na", "Cl"]

theorem exLong_cart (j : ℕ) : cartesian exLong j = [0, ![0, 0, 5]].getD j 0 := by
  unfold cartesian exLong
  match j with
  | 0 => simp
  | 1 =>
    funext r
    fin_cases r <;> simp [mulVec_diagonal] <;> norm_num
  | k + 2 => simp

/-- **C94 (violation).** For two atoms of different elements in a tetragonal cell, 5 apart and with axes of lengths 1, 1 and 10,
`find_minimum_distance` raises ValueError although the least distance is 1. -/
theorem C94_type_violation :
    minimumDistance exLong = .error .valueError ∧
      ∃ d, Joins exLong.axis (cartesian exLong) 0 0 d ∧ lengthOf d = 1 := by
  have hdet : exLong.axis.det ≠ 0 := by
    unfold exLong
    simp [Fin.prod_univ_three]
  have horth : ∀ p q : Fin 3, p ≠ q → ∑ r, exLong.axis r p * exLong.axis r q = 0 := by
    intro p q h
    rw [Fin.sum_univ_three]
    fin_cases p <;> fin_cases q <;> first | exact absurd rfl h | simp [exLong]
  obtain ⟨h1, h2⟩ := C94_orthogonal exLong.axis hdet horth
  have hcard : exLong.types.toFinset.card = 2 := by decide
  have hl : exLong.types.length = 2 := rfl
  have ht : TypesUsed exLong := by
    intro t ht
    rw [hcard]
    have : t = 0 ∨ t = 1 := by simpa [exLong] using ht
    omega
  have e0 : lengthOf (fun r => exLong.axis r 0) = 1 := by
    unfold lengthOf
    simp [exLong]
  have e1 : lengthOf (fun r => exLong.axis r 1) = 1 := by
    unfold lengthOf
    simp [exLong]
  have e2 : lengthOf (fun r => exLong.axis r 2) = 10 := by
    unfold lengthOf
    rw [show (exLong.axis 0 2 ^ 2 + exLong.axis 1 2 ^ 2 + exLong.axis 2 2 ^ 2) = 10 ^ 2 by simp [exLong]]
    exact Real.sqrt_sq (by norm_num)
  have hshort : ShortestAxis exLong.axis 1 := by
    refine ⟨⟨0, e0.symm⟩, fun k => ?_⟩
    fin_cases k
    · exact e0.ge
    · exact e1.ge
    · change 1 ≤ lengthOf (fun r => exLong.axis r 2)
      rw [e2]
      norm_num
  have hin : InCell exLong.axis (cartesian exLong) exLong.types.length := by
    intro j hj
    refine ⟨exLong.positions.getD j 0, fun k => ?_, rfl⟩
    rw [hl] at hj
    interval_cases j <;> fin_cases k <;> norm_num [exLong]
  obtain ⟨a1, a2, a3⟩ := C94_minimum_partial exLong ⟨rfl, rfl⟩ ht hdet 1 hshort h1 hin (h2 _ (by norm_num))
  refine ⟨?_, ?_⟩
  · cases hm : minimumDistance exLong with
    | error e => rw [a2 e hm]
    | ok m =>
      exfalso
      obtain ⟨-, h⟩ := a3.1 ⟨m, hm⟩
      obtain ⟨j, d, hj, ⟨t, ⟨n, hn⟩, hd⟩, -, hlt⟩ := h 0 (by rw [hl]; norm_num) 1 (by simp [exLong])
      have hj1 : j = 1 := by
        obtain ⟨hjl, hj'⟩ := List.getElem?_eq_some_iff.1 hj
        rw [hl] at hjl
        interval_cases j
        · simp [exLong] at hj'
        · rfl
      subst hj1
      have hd2 : d 2 = 5 + 10 * (n 2 : ℝ) := by
        rw [hd, exLong_cart, exLong_cart, Pi.add_apply, hn 2, Fin.sum_univ_three]
        simp [exLong]
      have hge : (5 : ℝ) ≤ lengthOf d := by
        unfold lengthOf
        apply Real.le_sqrt_of_sq_le
        have hn2 : 5 ^ 2 ≤ (5 + 10 * n 2) ^ 2 := by
          rcases le_or_gt 0 (n 2) with h0 | h0
          · nlinarith
          · have : n 2 ≤ -1 := by omega
            nlinarith
        have hn3 : (5 : ℝ) ^ 2 ≤ (5 + 10 * (n 2 : ℝ)) ^ 2 := by exact_mod_cast hn2
        rw [hd2]
        nlinarith [sq_nonneg (d 0), sq_nonneg (d 1)]
      norm_num at hlt
      linarith
  · refine ⟨![1, 0, 0], ⟨![1, 0, 0], ⟨![1, 0, 0], fun r => ?_⟩, by rw [sub_self, zero_add]⟩, ?_⟩
    · rw [Fin.sum_univ_three]
      fin_cases r <;> simp [exLong]
    · unfold lengthOf
      simp

/-- Two types of the same element. -/
noncomputable def exSame : St where
  axis := 1
  positions := [0, ![1 / 2, 0, 0]]
  types := [0, 1]
  elements := ["Fe", "Fe"]

/-- **C94 (violation).** When two types have the same element, as magnetic types do, the distances of one pair of types replace
those of another: here no distance is reported for two atoms that are one half apart. -/
theorem C94_same_element_violation :
    activeDistances id exSame (6 / 10) 1 = .ok [(("Fe", "Fe"), [])] ∧
      ∃ d, Joins exSame.axis (cartesian exSame) 0 1 d ∧ lengthOf d = 1 / 2 := by
  have hcart : ∀ j, cartesian exSame j = [0, ![1 / 2, 0, 0]].getD j 0 := by
    intro j
    unfold cartesian exSame
    rw [one_mulVec]
  have hl : exSame.types.length = 2 := rfl
  have hcard : exSame.types.toFinset.card = 2 := by decide
  have hdet : exSame.axis.det ≠ 0 := by
    unfold exSame
    simp
  have hhalf : lengthOf (![1 / 2, 0, 0] : Fin 3 → ℝ) = 1 / 2 := by
    unfold lengthOf
    rw [show ((![1 / 2, 0, 0] : Fin 3 → ℝ) 0 ^ 2 + (![1 / 2, 0, 0] : Fin 3 → ℝ) 1 ^ 2 + (![1 / 2, 0, 0] : Fin 3 → ℝ) 2 ^ 2) = (1 / 2) ^ 2 by
      simp]
    exact Real.sqrt_sq (by norm_num)
  obtain ⟨b1, b2⟩ := C94_sound_partial exSame ⟨rfl, rfl⟩ hdet (6 / 10)
  rw [hl] at b1 b2
  rw [hcard] at b2
  -- nothing is within the cutoff of an atom and of its own type
  have hnone : ∀ i d, i < 2 → Joins exSame.axis (cartesian exSame) i i d → 1e-10 < lengthOf d → ¬ lengthOf d < 6 / 10 := by
    rintro i d - ⟨t, ⟨n, hn⟩, hd⟩ h1 h2
    rw [sub_self, zero_add] at hd
    subst hd
    have hn' : ∀ r, d r = (n r : ℝ) := by
      intro r
      rw [hn r, Fin.sum_univ_three]
      fin_cases r <;> simp [exSame, Matrix.one_apply]
    unfold lengthOf at h1 h2
    rw [hn' 0, hn' 1, hn' 2] at h1 h2
    have hlt : (n 0 : ℝ) ^ 2 + (n 1 : ℝ) ^ 2 + (n 2 : ℝ) ^ 2 < (6 / 10) ^ 2 := (Real.sqrt_lt' (by norm_num)).1 h2
    have hlt' : n 0 ^ 2 + n 1 ^ 2 + n 2 ^ 2 < 1 := by
      have : (n 0 : ℝ) ^ 2 + (n 1 : ℝ) ^ 2 + (n 2 : ℝ) ^ 2 < 1 := by
        refine hlt.trans ?_
        norm_num
      exact_mod_cast this
    have hz : n 0 ^ 2 + n 1 ^ 2 + n 2 ^ 2 = 0 := by
      have := sq_nonneg (n 0)
      have := sq_nonneg (n 1)
      have := sq_nonneg (n 2)
      omega
    have hz' : (n 0 : ℝ) ^ 2 + (n 1 : ℝ) ^ 2 + (n 2 : ℝ) ^ 2 = 0 := by exact_mod_cast hz
    rw [hz', Real.sqrt_zero] at h1
    norm_num at h1
  have hempty : ∀ i l row, i < 2 → (neighbors exSame (6 / 10)).1[i]? = some row → row[i]? = some l → l = [] := by
    intro i l row hi hrow hl0
    obtain ⟨row', r1, r2, r3⟩ := b2 i hi
    rw [hrow, Option.some.injEq] at r1
    subst r1
    obtain ⟨l', l1, l2, l3⟩ := r3 i hi
    rw [hl0, Option.some.injEq] at l1
    subst l1
    by_contra hne
    obtain ⟨e, he⟩ := List.exists_mem_of_ne_nil _ hne
    obtain ⟨c1, c2, c3, c4, c5⟩ := l3 e he
    have hei : e.atom = i := by
      obtain ⟨hlt, hv⟩ := List.getElem?_eq_some_iff.1 c1
      rw [hl] at hlt
      interval_cases h : e.atom <;> interval_cases i <;> simp_all [exSame]
    rw [hei] at c2
    rw [c3] at c4 c5
    exact hnone i _ hi c2 c4 c5
  obtain ⟨row0, p1, p2, p3⟩ := b2 0 (by norm_num)
  obtain ⟨row1, q1, q2, q3⟩ := b2 1 (by norm_num)
  obtain ⟨x00, u1, -⟩ := p3 0 (by norm_num)
  obtain ⟨x01, u2, -⟩ := p3 1 (by norm_num)
  obtain ⟨x10, u3, -⟩ := q3 0 (by norm_num)
  obtain ⟨x11, u4, -⟩ := q3 1 (by norm_num)
  have z0 := hempty 0 _ _ (by norm_num) p1 u1
  have z1 := hempty 1 _ _ (by norm_num) q1 u4
  have hrow0 : row0 = [[], x01] := by
    match row0, p2, u1, u2 with
    | [a, b], _, u1, u2 =>
      simp only [List.getElem?_cons_zero, Option.some.injEq, List.getElem?_cons_succ] at u1 u2
      rw [u1, u2, z0]
  have hrow1 : row1 = [x10, []] := by
    match row1, q2, u3, u4 with
    | [a, b], _, u3, u4 =>
      simp only [List.getElem?_cons_zero, Option.some.injEq, List.getElem?_cons_succ] at u3 u4
      rw [u3, u4, z1]
  have htab : (neighbors exSame (6 / 10)).1 = [[[], x01], [x10, []]] := by
    revert b1 p1 q1
    generalize (neighbors exSame (6 / 10)).1 = tb
    intro b1 p1 q1
    match tb, b1, p1, q1 with
    | [a, b], _, p1, q1 =>
      simp only [List.getElem?_cons_zero, Option.some.injEq, List.getElem?_cons_succ] at p1 q1
      rw [p1, q1, hrow0, hrow1]
  refine ⟨?_, ?_⟩
  · unfold activeDistances neighborList
    rw [htab]
    have hm : elementMap id exSame = [(0, "Fe"), (1, "Fe")] := by decide
    have hu : uniqueRounded 1 [] = [] := by
      unfold uniqueRounded
      simp
    rw [hm]
    simp [byTypes, exSame, sortedPair, extend, byElements, elementOf, orErr, assign, hu, bind, Except.bind, List.lookup]
  · refine ⟨![1 / 2, 0, 0], ⟨0, ⟨0, fun r => by simp⟩, ?_⟩, hhalf⟩
    rw [hcart, hcart]
    simp

/-- A skewed cell with two atoms of one type. -/
noncomputable def exSkewed : St where
  axis := !![1, 10, 0; 0, 1, 0; 0, 0, 1]
  positions := [0, ![0, 9 / 10, 0]]
  types := [0, 0]
  elements := ["Fe", "Fe"]

theorem exSkewed_cart (j : ℕ) : cartesian exSkewed j = [0, ![9, 9 / 10, 0]].getD j 0 := by
  unfold cartesian exSkewed
  match j with
  | 0 => simp
  | 1 =>
    funext r
    fin_cases r <;> simp [mulVec, dotProduct, Fin.sum_univ_three] <;> norm_num
  | k + 2 => simp

theorem exSkewed_axis : cellAxis exSkewed.axis = 1 := by
  have hnr : ¬ refAny (1 : Mat) := by
    rintro ((hh | hh) | (hh | hh) | (hh | hh)) <;> simp [dotc] at hh <;> norm_num at hh
  have hr01 : ref exSkewed.axis 0 1 := by
    left
    simp [dotc, exSkewed]
    norm_num
  have hr : refAny exSkewed.axis := Or.inl hr01
  have hround : cRound (-(10 : ℝ)) = -10 := by
    unfold cRound
    rw [if_neg (by norm_num)]
    norm_num
  have hs01 : step01 exSkewed.axis = 1 := by
    unfold step01
    rw [if_pos hr01, if_neg]
    · unfold replaceCol opt0
      have e : -(dotc exSkewed.axis 0 1 * ((1 : ℤ) : ℝ) + dotc exSkewed.axis 0 2 * ((0 : ℤ) : ℝ)) / dotc exSkewed.axis 0 0 = -(10 : ℝ) := by
        simp [dotc, exSkewed]
      rw [e, hround]
      ext r c
      fin_cases r <;> fin_cases c <;> simp [exSkewed, Matrix.updateCol, toCartesian, castV]
    · simp [dotc, exSkewed]
  have n02 : ¬ ref (1 : Mat) 0 2 := fun h => hnr (Or.inr (Or.inl h))
  have n12 : ¬ ref (1 : Mat) 1 2 := fun h => hnr (Or.inr (Or.inr h))
  have hstep : step12 (step02 (step01 exSkewed.axis)) = 1 := by
    rw [hs01]
    unfold step02
    rw [if_neg n02]
    unfold step12
    rw [if_neg n12]
  unfold cellAxis refineAxis
  rw [if_pos hr]
  change refineLoop (99 + 1) _ = 1
  unfold refineLoop
  rw [if_pos hr, hstep]
  change refineLoop (98 + 1) _ = 1
  unfold refineLoop
  rw [if_neg hnr]

/-- **C94 (violation).** The translations are those of the reduced cell but the atoms are not moved into it: of two atoms that are
1/10 apart, in a skewed cell, `find_minimum_distance` reports at least 1. -/
theorem C94_reduced_violation :
    (∃ m, minimumDistance exSkewed = .ok m ∧ 1 ≤ m) ∧
      ∃ d, Joins exSkewed.axis (cartesian exSkewed) 0 1 d ∧ lengthOf d = 1 / 10 := by
  have hl : exSkewed.types.length = 2 := rfl
  have hdet : exSkewed.axis.det ≠ 0 := by
    unfold exSkewed
    simp [det_fin_three]
  have hcol : ∀ k, norm3 (toCartesian (1 : Mat) (Pi.single k 1)) = 1 := by
    intro k
    rw [toCartesian_eq, one_mulVec]
    unfold norm3 r2
    fin_cases k <;> simp
  have hshort : shortestAxis exSkewed.axis = 1 := by
    unfold shortestAxis
    have e0 : norm3 (fun r => exSkewed.axis r 0) = 1 := by
      unfold norm3 r2
      simp [exSkewed]
    have e1 : (1 : ℝ) ≤ norm3 (fun r => exSkewed.axis r 1) := by
      unfold norm3 r2
      apply Real.le_sqrt_of_sq_le
      simp [exSkewed]
    have e2 : norm3 (fun r => exSkewed.axis r 2) = 1 := by
      unfold norm3 r2
      simp [exSkewed]
    rw [e0, e2, min_eq_left e1, min_self]
  have hexp : ∀ k, maxExp (1 : Mat) (1 + 1e-5) k = 3 := by
    intro k
    unfold maxExp
    rw [hcol, div_one]
    have : ⌈(1 + 1e-5 : ℝ)⌉ = 2 := by
      rw [Int.ceil_eq_iff]
      norm_num
    rw [this]
    norm_num
  have hmax : (1 : ℝ) ≤ maxLength (1 : Mat) := by
    have hmono : ∀ (l : List (Fin 3 → ℤ)) (x : ℝ) (v : Fin 3 → ℤ), (v ∈ l ∨ norm3 (toCartesian (1 : Mat) (castV v)) ≤ x) →
        norm3 (toCartesian (1 : Mat) (castV v)) ≤ l.foldl (fun mx ver =>
          let dis := norm3 (toCartesian (1 : Mat) (castV ver))
          open Classical in if mx < dis then dis else mx) x := by
      intro l
      induction l with
      | nil =>
        intro x v h
        rcases h with h | h
        · cases h
        · exact h
      | cons w l ih =>
        intro x v h
        rw [List.foldl_cons]
        apply ih
        rcases h with h | h
        · rcases List.mem_cons.1 h with rfl | h
          · right
            simp only []
            split_ifs with hh
            · exact le_refl _
            · exact not_lt.1 hh
          · exact Or.inl h
        · right
          simp only []
          split_ifs with hh
          · exact h.trans hh.le
          · exact h
    have := hmono (grid 1 1 1) 0 ![1, 0, 0] (Or.inl (by decide))
    refine le_trans ?_ this
    rw [toCartesian_eq, one_mulVec]
    unfold norm3 r2 castV
    simp
  have htr : ∀ t, t ∈ cellTrans exSkewed.axis (1 + 1e-5) → ∃ n : Fin 3 → ℤ, (∀ k, -3 ≤ n k ∧ n k ≤ 3) ∧ ∀ r, t r = (n r : ℝ) := by
    intro t ht
    unfold cellTrans at ht
    rw [exSkewed_axis] at ht
    unfold findTrans at ht
    rw [List.mem_filterMap] at ht
    obtain ⟨v, hv, h⟩ := ht
    rw [mem_grid, hexp, hexp, hexp] at hv
    simp only [] at h
    split_ifs at h with hh
    rw [Option.some.injEq] at h
    refine ⟨v, ?_, fun r => ?_⟩
    · intro k
      fin_cases k
      · exact ⟨by simpa using hv.1.1, by simpa using hv.1.2⟩
      · exact ⟨by simpa using hv.2.1.1, by simpa using hv.2.1.2⟩
      · exact ⟨by simpa using hv.2.2.1, by simpa using hv.2.2.2⟩
    · rw [← h, toCartesian_eq, one_mulVec]
      rfl
  have hunit : (![1, 0, 0] : Vec ℝ) ∈ cellTrans exSkewed.axis (1 + 1e-5) := by
    unfold cellTrans
    rw [exSkewed_axis]
    unfold findTrans
    rw [List.mem_filterMap]
    have hc : toCartesian (1 : Mat) (castV ![1, 0, 0]) = (![1, 0, 0] : Vec ℝ) := by
      rw [toCartesian_eq, one_mulVec]
      funext r
      fin_cases r <;> simp [castV]
    refine ⟨![1, 0, 0], ?_, ?_⟩
    · rw [mem_grid, hexp, hexp, hexp]
      simp
    · simp only [hc]
      rw [if_pos]
      have : norm3 (![1, 0, 0] : Vec ℝ) = 1 := by
        unfold norm3 r2
        simp
      rw [this]
      norm_num
      linarith
  obtain ⟨t1, t2⟩ := table_spec (1 + 1e-5) exSkewed.withCart.pos (cellTrans exSkewed.axis (1 + 1e-5)) (C22_cell_neg _ _)
    (C22_cell_nodup _ hdet _) exSkewed.types exSkewed.nType
  have hnt : exSkewed.nType = 1 := by
    rw [nType_eq]
    decide
  have hpos : ∀ i < 2, exSkewed.withCart.pos i = [0, ![9, 9 / 10, 0]].getD i 0 := by
    intro i hi
    rw [pos_eq exSkewed ⟨rfl, rfl⟩ i hi, exSkewed_cart]
  have hnorm1 : norm3 (![1, 0, 0] : Vec ℝ) = 1 := by
    unfold norm3 r2
    simp
  -- every list has the image along the first axis
  have hne : ∀ i < 2, ∃ row l, (neighbors exSkewed (1 + 1e-5)).1[i]? = some row ∧ row = [l] ∧ l ≠ [] ∧ ∀ e ∈ l, 1 ≤ e.dis := by
    intro i hi
    obtain ⟨row, r1, r2', r3⟩ := t2 i hi
    rw [hnt] at r2' r3
    obtain ⟨l, l1, l2, l3, l4⟩ := r3 0 (by norm_num)
    have hrow : row = [l] := by
      match row, r2', l1 with
      | [x], _, l1 =>
        simp only [List.getElem?_cons_zero, Option.some.injEq] at l1
        rw [l1]
    refine ⟨row, l, r1, hrow, ?_, ?_⟩
    · have := (l4 i ![1, 0, 0]).2 ⟨by
        interval_cases i <;> rfl, ⟨_, hunit, by rw [sub_self, zero_add]⟩, by rw [hnorm1]; norm_num, by rw [hnorm1]; norm_num⟩
      intro hnil
      rw [hnil] at this
      cases this
    · intro e he
      obtain ⟨a1, ⟨tr, htrm, a2⟩, a3, a4⟩ := (l4 e.atom e.diff).1 (List.mem_map_of_mem he)
      obtain ⟨hj, -⟩ := List.getElem?_eq_some_iff.1 a1
      rw [hl] at hj
      rw [l3 e he]
      obtain ⟨n, n1, n2⟩ := htr tr htrm
      rw [hpos _ hj, hpos _ hi] at a2
      have hsq : ∀ r, e.diff r = [0, ![9, 9 / 10, 0]].getD e.atom 0 r - [0, ![9, 9 / 10, 0]].getD i 0 r + (n r : ℝ) := by
        intro r
        rw [a2, Pi.add_apply, Pi.sub_apply, n2 r]
      by_cases hei : e.atom = i
      · rw [hei] at hsq
        simp only [sub_self, zero_add] at hsq
        unfold norm3 r2 at a3 ⊢
        rw [hsq 0, hsq 1, hsq 2] at a3 ⊢
        apply Real.le_sqrt_of_sq_le
        by_contra hcon
        have h1 : n 0 * n 0 + n 1 * n 1 + n 2 * n 2 < 1 := by
          have : (n 0 : ℝ) * n 0 + n 1 * n 1 + n 2 * n 2 < 1 := by
            have := not_le.1 hcon
            linarith
          exact_mod_cast this
        have hz : n 0 * n 0 + n 1 * n 1 + n 2 * n 2 = 0 := by
          have := mul_self_nonneg (n 0)
          have := mul_self_nonneg (n 1)
          have := mul_self_nonneg (n 2)
          omega
        have hz' : (n 0 : ℝ) * n 0 + n 1 * n 1 + n 2 * n 2 = 0 := by exact_mod_cast hz
        rw [hz', Real.sqrt_zero] at a3
        norm_num at a3
      · have hb0 : (n 0 : ℝ) ≤ 3 := by exact_mod_cast (n1 0).2
        have hb1 : (-3 : ℝ) ≤ n 0 := by exact_mod_cast (n1 0).1
        have h0 : 1 ≤ e.diff 0 * e.diff 0 := by
          have : e.diff 0 = 9 + (n 0 : ℝ) ∨ e.diff 0 = -9 + (n 0 : ℝ) := by
            rw [hsq 0]
            generalize e.atom = j at hj hei
            interval_cases j <;> interval_cases i <;> simp at hei ⊢
          rcases this with h | h <;> rw [h] <;> nlinarith
        unfold norm3 r2
        apply Real.le_sqrt_of_sq_le
        nlinarith [mul_self_nonneg (e.diff 1), mul_self_nonneg (e.diff 2)]
  refine ⟨?_, ?_⟩
  · obtain ⟨row0, l0, a1, rfl, a2, a3⟩ := hne 0 (by norm_num)
    obtain ⟨row1, l1, b1, rfl, b2, b3⟩ := hne 1 (by norm_num)
    have htab : (neighbors exSkewed (1 + 1e-5)).1 = [[l0], [l1]] := by
      have hlen : (neighbors exSkewed (1 + 1e-5)).1.length = 2 := t1
      revert a1 b1 hlen
      generalize (neighbors exSkewed (1 + 1e-5)).1 = tb
      intro a1 b1 hlen
      match tb, hlen, a1, b1 with
      | [a, b], _, a1, b1 =>
        simp only [List.getElem?_cons_zero, Option.some.injEq, List.getElem?_cons_succ] at a1 b1
        rw [a1, b1]
    obtain ⟨m0, hm0⟩ := minOf_ne (l := l0.map (·.dis)) (by simpa using a2)
    obtain ⟨m1, hm1⟩ := minOf_ne (l := l1.map (·.dis)) (by simpa using b2)
    have hm : minimumDistance exSkewed = .ok (min m0 m1) := by
      unfold minimumDistance minimumDistances neighborList
      rw [hshort, htab]
      simp only [List.map_cons, List.map_nil, List.flatMap_cons, List.flatMap_nil, List.append_nil, List.cons_append,
        List.nil_append, List.mapM_cons, List.mapM_nil, hm0, hm1, bind, Except.bind, pure, Except.pure]
      rfl
    refine ⟨_, hm, le_min ?_ ?_⟩
    · obtain ⟨h, -⟩ := minOf_ok hm0
      rw [List.mem_map] at h
      obtain ⟨e, he, rfl⟩ := h
      exact a3 e he
    · obtain ⟨h, -⟩ := minOf_ok hm1
      rw [List.mem_map] at h
      obtain ⟨e, he, rfl⟩ := h
      exact b3 e he
  · refine ⟨![0, -1 / 10, 0], ⟨![-9, -1, 0], ⟨![1, -1, 0], fun r => ?_⟩, ?_⟩, ?_⟩
    · rw [Fin.sum_univ_three]
      fin_cases r <;> simp [exSkewed] <;> norm_num
    · rw [exSkewed_cart, exSkewed_cart]
      funext r
      fin_cases r <;> simp <;> norm_num
    · unfold lengthOf
      rw [show ((![0, -1 / 10, 0] : Fin 3 → ℝ) 0 ^ 2 + (![0, -1 / 10, 0] : Fin 3 → ℝ) 1 ^ 2 + (![0, -1 / 10, 0] : Fin 3 → ℝ) 2 ^ 2) = (1 / 10) ^ 2 by
        simp; norm_num]
      exact Real.sqrt_sq (by norm_num)

end Verif.StructNeighbor
