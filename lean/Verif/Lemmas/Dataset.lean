import Verif.Spec.Dataset
import Verif.Lemmas.Split
import Verif.Lemmas.AtomOrder

namespace Verif.Dataset
open Spec
variable {K : Type}

/-! ### flat lists -/

theorem range'_filterMap_get {α : Type} (l : List α) : ∀ (n s : ℕ),
    (List.range' s n).filterMap (l[·]?) = (l.drop s).take n
  | 0, s => by simp
  | n + 1, s => by
    rw [List.range'_succ, List.filterMap_cons, range'_filterMap_get l n (s + 1)]
    by_cases h : s < l.length
    · rw [List.getElem?_eq_getElem h, List.drop_eq_getElem_cons h, List.take_succ_cons]
    · rw [List.getElem?_eq_none (by omega), List.drop_eq_nil_of_le (by omega),
        List.drop_eq_nil_of_le (by omega)]
      simp

/-- Offsets of the blocks of a flattened list. -/
def offs {α β : Type} (f : α → List β) (rs : List α) (i : ℕ) : ℕ :=
  ((rs.take i).map fun r => (f r).length).sum

theorem drop_offs {α β : Type} (f : α → List β) : ∀ (rs : List α) (i : ℕ),
    (rs.flatMap f).drop (offs f rs i) = (rs.drop i).flatMap f
  | [], i => by simp [offs]
  | r :: rs, 0 => by simp [offs]
  | r :: rs, i + 1 => by
    have ih := drop_offs f rs i
    simp only [offs, List.take_succ_cons, List.map_cons, List.sum_cons, List.flatMap_cons,
      List.drop_succ_cons] at ih ⊢
    rw [List.drop_append, List.drop_eq_nil_of_le (by omega), List.nil_append, ← ih]
    congr 1; omega

theorem take_offs {α β : Type} (f : α → List β) : ∀ (rs : List α) (i : ℕ),
    (rs.flatMap f).take (offs f rs i) = (rs.take i).flatMap f
  | [], i => by simp
  | r :: rs, 0 => by simp [offs]
  | r :: rs, i + 1 => by
    have ih := take_offs f rs i
    simp only [offs, List.take_succ_cons, List.map_cons, List.sum_cons, List.flatMap_cons] at ih ⊢
    rw [List.take_append, List.take_of_length_le (by omega), ← ih]
    congr 2; omega

theorem offs_mono {α β : Type} (f : α → List β) (rs : List α) {i j : ℕ} (h : i ≤ j) :
    offs f rs i ≤ offs f rs j := by
  unfold offs
  obtain ⟨k, rfl⟩ := Nat.exists_eq_add_of_le h
  rw [List.take_add, List.map_append, List.sum_append]
  omega

theorem slice_offs {α β : Type} (f : α → List β) (rs : List α) (b e : ℕ) :
    slice (rs.flatMap f) (offs f rs b) (offs f rs e) = (slice rs b e).flatMap f := by
  unfold slice
  rw [take_offs]
  rcases Nat.le_total b e with h | h
  · have : offs f rs b = offs f (rs.take e) b := by
      unfold offs; rw [List.take_take, Nat.min_eq_left h]
    rw [this, drop_offs]
  · have h1 := offs_mono f rs h
    have h2 : ((rs.take e).flatMap f).length = offs f rs e := by
      unfold offs; rw [List.length_flatMap]
    rw [List.drop_eq_nil_of_le (by omega)]
    rw [List.drop_eq_nil_of_le (by simp; omega)]
    rfl

theorem slice_map {α β : Type} (f : α → β) (rs : List α) (b e : ℕ) :
    slice (rs.map f) b e = (slice rs b e).map f := by
  unfold slice; simp [List.map_take, List.map_drop]

theorem offs_succ {α β : Type} (f : α → List β) (rs : List α) {i : ℕ} (h : i < rs.length) :
    offs f rs (i + 1) = offs f rs i + (f rs[i]).length := by
  unfold offs
  rw [List.take_succ_eq_append_getElem h, List.map_append, List.sum_append]
  simp only [List.map_cons, List.map_nil, List.sum_cons, List.sum_nil, Nat.add_zero]

theorem block_offs {α β : Type} (f : α → List β) (rs : List α) {i : ℕ} (h : i < rs.length) :
    (List.range' (offs f rs i) (offs f rs (i + 1) - offs f rs i)).filterMap ((rs.flatMap f)[·]?)
      = f rs[i] := by
  rw [range'_filterMap_get, drop_offs, offs_succ f rs h, Nat.add_sub_cancel_left,
    List.drop_eq_getElem_cons h, List.flatMap_cons, List.take_append_of_le_length (le_refl _)]
  simp

/-- Gathering the blocks `ids` of a flattened list. -/
theorem blocks_offs {α β : Type} (f : α → List β) (rs : List α) :
    ∀ (ids : List ℕ), (∀ i ∈ ids, i < rs.length) →
    (ids.flatMap fun i => List.range' (offs f rs i) (offs f rs (i + 1) - offs f rs i)).filterMap
        ((rs.flatMap f)[·]?) = (ids.filterMap (rs[·]?)).flatMap f
  | [], _ => by simp
  | i :: ids, h => by
    have hi : i < rs.length := h i (by simp)
    rw [List.flatMap_cons, List.filterMap_append, block_offs f rs hi,
      blocks_offs f rs ids fun j hj => h j (by simp [hj]),
      List.filterMap_cons, List.getElem?_eq_getElem hi, List.flatMap_cons]

theorem blocks_lt {α β : Type} (f : α → List β) (rs : List α) {ids : List ℕ}
    (h : ∀ i ∈ ids, i < rs.length) :
    ∀ k ∈ ids.flatMap (fun i => List.range' (offs f rs i) (offs f rs (i + 1) - offs f rs i)),
      k < (rs.flatMap f).length := by
  intro k hk
  obtain ⟨i, hi, hk⟩ := List.mem_flatMap.mp hk
  rw [List.mem_range'_1] at hk
  have h1 := offs_mono f rs (show i + 1 ≤ rs.length from h i hi)
  have h2 : offs f rs rs.length = (rs.flatMap f).length := by
    unfold offs; rw [List.length_flatMap, List.take_length]
  omega

theorem filterMap_get_map {α β : Type} (f : α → β) (rs : List α) (ids : List ℕ) :
    ids.filterMap ((rs.map f)[·]?) = (ids.filterMap (rs[·]?)).map f := by
  rw [List.map_filterMap]
  congr 1
  funext i
  simp

theorem gather_map {α β : Type} (f : α → β) (rs : List α) (ids : List ℕ)
    (h : ∀ i ∈ ids, i < rs.length) :
    gather (rs.map f) ids = .ok ((ids.filterMap (rs[·]?)).map f) := by
  rw [gather_eq _ _ (by simpa using h), filterMap_get_map]

/-! ### cumulative sums -/

theorem cumsumFrom_get : ∀ (l : List ℕ) (acc i : ℕ), i < l.length →
    (cumsumFrom acc l)[i]? = some (acc + (l.take (i + 1)).sum)
  | [], _, _, h => absurd h (by simp)
  | a :: l, acc, 0, _ => by simp [cumsumFrom]
  | a :: l, acc, i + 1, h => by
    have := cumsumFrom_get l (acc + a) i (by simpa using h)
    simp only [cumsumFrom, List.getElem?_cons_succ, this, List.take_succ_cons, List.sum_cons]
    congr 1; omega

theorem cumsumFrom_length : ∀ (l : List ℕ) (acc : ℕ), (cumsumFrom acc l).length = l.length
  | [], _ => rfl
  | a :: l, acc => by simp [cumsumFrom, cumsumFrom_length l]

theorem begin_get (l : List ℕ) (i : ℕ) (h : i < l.length) :
    (0 :: (cumsumFrom 0 l).dropLast)[i]? = some (l.take i).sum := by
  cases i with
  | zero => simp
  | succ i =>
    rw [List.getElem?_cons_succ, List.getElem?_dropLast, cumsumFrom_length]
    rw [if_pos (by omega), cumsumFrom_get l 0 i (by omega)]
    simp

/-! ### the record view -/

theorem natoms_offs {rs : List (Rec K)} (hw : ∀ r ∈ rs, r.WF) (i : ℕ) :
    ((rs.map (·.natoms)).take i).sum * 3 = offs (·.forces) rs i := by
  unfold offs
  rw [← List.map_take]
  have h : ∀ r ∈ rs.take i, r.forces.length = 3 * r.natoms :=
    fun r hr => (hw r (List.mem_of_mem_take hr)).1
  generalize rs.take i = l at h
  induction l with
  | nil => rfl
  | cons r l ih =>
    simp only [List.map_cons, List.sum_cons]
    rw [← ih fun r hr => h r (by simp [hr]), h r (by simp)]
    omega

theorem stress_offs {rs : List (Rec K)} (hw : ∀ r ∈ rs, r.WF) (i : ℕ) (hi : i ≤ rs.length) :
    i * 6 = offs (·.stress) rs i := by
  unfold offs
  have h : ∀ r ∈ rs.take i, r.stress.length = 6 := fun r hr => (hw r (List.mem_of_mem_take hr)).2
  have hl : (rs.take i).length = i := by simp [hi]
  rw [List.map_congr_left h]
  simp [hi]

theorem map3_natoms_offs {rs : List (Rec K)} (hw : ∀ r ∈ rs, r.WF) (i : ℕ) :
    (((rs.map (·.natoms)).map (· * 3)).take i).sum = offs (·.forces) rs i := by
  rw [← natoms_offs hw, ← List.map_take]
  generalize (rs.map (·.natoms)).take i = l
  induction l with
  | nil => rfl
  | cons a l ih => simp only [List.map_cons, List.sum_cons, ih]; omega

theorem forceStressIds_eq {d : DFT K} {rs : List (Rec K)} (h : Represents d rs) {ids : List ℕ}
    (hlt : ∀ i ∈ ids, i < rs.length) :
    forceStressIds d ids = .ok
      (ids.flatMap fun i => List.range' (offs (·.forces) rs i)
          (offs (·.forces) rs (i + 1) - offs (·.forces) rs i),
       ids.flatMap fun i => List.range' (offs (·.stress) rs i)
          (offs (·.stress) rs (i + 1) - offs (·.stress) rs i)) := by
  obtain ⟨-, -, -, -, -, h6, -, hw⟩ := h
  unfold forceStressIds
  simp only [h6]
  set L := (rs.map (·.natoms)).map (· * 3) with hL
  have hLl : L.length = rs.length := by simp [hL]
  have g1 : gather (0 :: (cumsumFrom 0 L).dropLast) ids
      = .ok (ids.map fun i => offs (·.forces) rs i) := by
    apply mapM_except_ok
    intro i hi
    rw [begin_get L i (by rw [hLl]; exact hlt i hi), hL, map3_natoms_offs hw]
    rfl
  have g2 : gather (cumsumFrom 0 L) ids
      = .ok (ids.map fun i => offs (·.forces) rs (i + 1)) := by
    apply mapM_except_ok
    intro i hi
    rw [cumsumFrom_get L 0 i (by rw [hLl]; exact hlt i hi), hL, map3_natoms_offs hw]
    simp [orErr]
  rw [g1, g2]
  simp only [bind, Except.bind, pure, Except.pure]
  congr 2
  · rw [List.zip_map', List.flatMap_map]
  · rw [List.flatMap_def, List.flatMap_def]; congr 1
    apply List.map_congr_left
    intro i hi
    have hi' := hlt i hi
    rw [← stress_offs hw i (by omega), ← stress_offs hw (i + 1) (by omega)]
    rw [show (i + 1) * 6 - i * 6 = 6 by omega, List.range'_eq_map_range]
    
/-- Selecting structures by index is selecting records. -/
theorem select_represents {d : DFT K} {rs : List (Rec K)} (h : Represents d rs) {ids : List ℕ}
    (hlt : ∀ i ∈ ids, i < rs.length) (hne : ∃ r ∈ ids.filterMap (rs[·]?), 0 < r.natoms) :
    ∃ d', select d ids = .ok d' ∧ Represents d' (ids.filterMap (rs[·]?)) ∧
      d'.elements = d.elements ∧ d'.existForce = d.existForce ∧
      d'.existStress = d.existStress := by
  obtain ⟨h1, h2, h3, h4, h5, h6, h7, hw⟩ := h
  have hfs := forceStressIds_eq (d := d) ⟨h1, h2, h3, h4, h5, h6, h7, hw⟩ hlt
  set S := ids.filterMap (rs[·]?) with hS
  have hSw : ∀ r ∈ S, r.WF := by
    intro r hr
    obtain ⟨i, -, hi⟩ := List.mem_filterMap.mp hr
    exact hw r (List.mem_of_getElem? hi)
  have hF : gatherPy d.forces (ids.flatMap fun i => List.range' (offs (·.forces) rs i)
      (offs (·.forces) rs (i + 1) - offs (·.forces) rs i)) = .ok (S.flatMap (·.forces)) := by
    have hb := blocks_offs (fun r : Rec K => r.forces) rs ids hlt
    unfold gatherPy
    rw [if_neg, h3, gather_eq _ _ (blocks_lt _ rs hlt), hb]
    intro hnil
    rw [hnil] at hb
    obtain ⟨r, hr, hpos⟩ := hne
    have hz : r.forces = [] := by
      have : ∀ r ∈ S, r.forces = [] := by
        have := List.flatMap_eq_nil_iff.mp hb.symm
        exact this
      exact this r hr
    have := (hSw r hr).1
    rw [hz] at this; simp at this; omega
  have hG : gather d.stresses (ids.flatMap fun i => List.range' (offs (·.stress) rs i)
      (offs (·.stress) rs (i + 1) - offs (·.stress) rs i)) = .ok (S.flatMap (·.stress)) := by
    rw [h4, gather_eq _ _ (blocks_lt _ rs hlt), blocks_offs _ rs ids hlt]
  refine ⟨{ structures := S.map (·.st), energies := S.map (·.energy),
            forces := S.flatMap (·.forces), stresses := S.flatMap (·.stress),
            volumes := S.map (·.st.volume), totalNAtoms := S.map (·.natoms),
            elements := d.elements, files := S.map (·.st.name),
            existForce := d.existForce, existStress := d.existStress }, ?_,
          ⟨rfl, rfl, rfl, rfl, rfl, rfl, rfl, hSw⟩, rfl, rfl, rfl⟩
  unfold select
  rw [hfs]
  simp only [bind, Except.bind, pure, Except.pure]
  rw [hF, hG, h1, h2, h5, h6, h7, gather_map _ _ _ hlt, gather_map _ _ _ hlt, gather_map _ _ _ hlt,
    gather_map _ _ _ hlt, gather_map _ _ _ hlt]

/-! ### batches -/

theorem rangeStep_tile (b : ℕ) (hb : 0 < b) (n : ℕ) :
    ∃ m, m = (n + b - 1) / b ∧ (n = 0 ↔ m = 0) ∧ (0 < m → (m - 1) * b < n ∧ n ≤ m * b) := by
  refine ⟨(n + b - 1) / b, rfl, ?_, ?_⟩
  · constructor
    · rintro rfl; exact Nat.div_eq_of_lt (by omega)
    · intro h
      rw [Nat.div_eq_zero_iff] at h
      omega
  · intro hm
    have h1 := Nat.div_add_mod (n + b - 1) b
    have h2 := Nat.mod_lt (n + b - 1) hb
    set m := (n + b - 1) / b with hmdef
    obtain ⟨k, hk⟩ : ∃ k, m = k + 1 := ⟨m - 1, by omega⟩
    rw [hk] at h1 ⊢
    have e1 : b * (k + 1) = b * k + b := by ring
    have e2 : (k + 1) * b = b * k + b := by ring
    have e3 : (k + 1 - 1) * b = b * k := by rw [Nat.add_sub_cancel]; ring
    rw [e2, e3]; rw [e1] at h1
    constructor <;> omega

/-- The `(begin, end)` pairs of `get_batch_slice` in closed form. -/
theorem batchSlice_zip (n b : ℕ) (hb : 0 < b) :
    ∃ begins ends, batchSlice n b = .ok (begins, ends) ∧
      begins.zip ends =
        (List.range ((n + b - 1) / b)).map fun i => (i * b, min ((i + 1) * b) n) := by
  obtain ⟨m, hm, hm0, hmb⟩ := rangeStep_tile b hb n
  unfold batchSlice rangeStep
  rw [if_neg (by omega), ← hm]
  simp only [List.length_map, List.length_range]
  rcases Nat.lt_or_ge 1 m with h1 | h1
  · rw [if_pos h1]
    refine ⟨_, _, rfl, ?_⟩
    obtain ⟨hlo, hhi⟩ := hmb (by omega)
    apply List.ext_getElem
    · simp; omega
    · intro i hi1 hi2
      simp only [List.length_map, List.length_range] at hi2
      rw [List.getElem_zip]
      simp only [List.getElem_map, List.getElem_range, Prod.mk.injEq, true_and]
      rcases Nat.lt_or_ge (i + 1) m with h2 | h2
      · rw [List.getElem_append_left (by simp; omega)]
        simp only [List.getElem_tail, List.getElem_map, List.getElem_range]
        rw [Nat.min_eq_left]
        have : (i + 1) * b ≤ (m - 1) * b := Nat.mul_le_mul_right b (by omega)
        omega
      · have : i + 1 = m := by omega
        rw [List.getElem_append_right (by simp; omega)]
        simp only [List.getElem_singleton]
        rw [Nat.min_eq_right (by rw [this]; exact hhi)]
  · rw [if_neg (by omega)]
    refine ⟨_, _, rfl, ?_⟩
    rcases Nat.eq_zero_or_pos m with h0 | h0
    · rw [h0]; simp
    · have : m = 1 := by omega
      have hh := (hmb h0).2
      subst this
      rw [Nat.one_mul] at hh
      simp [List.range_succ]
      omega

end Verif.Dataset
