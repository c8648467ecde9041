import Verif.Spec.LammpsFiles
import Verif.Lemmas.Py
import Verif.Props.MlpFiles
import Mathlib.Tactic.Linarith
import Mathlib.Tactic.FieldSimp
import Mathlib.Tactic.IntervalCases
import Mathlib.LinearAlgebra.Matrix.Determinant.Basic
import Mathlib.Tactic.NormNum
import Mathlib.Logic.Equiv.List
import Mathlib.Data.Rat.Encodable

/-!
# C116: dumps of LAMMPS
-/

namespace Verif.LammpsFiles

variable {K : Type}

theorem mapM_all {α β : Type} (f : α → Except Err β) (g : α → β) (l : List α) (h : ∀ a ∈ l, f a = .ok (g a)) :
    l.mapM f = .ok (l.map g) := by
  induction l with
  | nil => rfl
  | cons a l ih =>
    rw [List.mapM_cons, h a (by simp), ih fun b hb => h b (by simp [hb])]
    rfl

/-! ### Groups -/

theorem place_spec (l : List (ℤ × Vec K)) (g : List (List (Vec K))) (h : ∀ a ∈ l, 0 ≤ a.1 ∧ a.1 < g.length) :
    place l g = .ok (g.zipIdx.map fun p => p.1 ++ (l.filter fun a => a.1 = (p.2 : ℤ)).map (·.2)) := by
  induction l generalizing g with
  | nil =>
    rw [place]
    congr 1
    apply List.ext_getElem
    · simp
    · intro i h1 h2; simp
  | cons a l ih =>
    obtain ⟨h0, h1⟩ := h a (by simp)
    rw [place]
    have hp : pyIndex g.length a.1 = .ok a.1.toNat := by
      unfold pyIndex; rw [if_pos ⟨h0, h1⟩]
    rw [hp]
    simp only [bind, Except.bind]
    rw [ih _ (by intro b hb; rw [List.length_modify]; exact h b (by simp [hb]))]
    congr 1
    apply List.ext_getElem
    · simp
    · intro i h2 h3
      simp only [List.length_map, List.length_zipIdx, List.length_modify] at h2
      simp only [List.getElem_map, List.getElem_zipIdx, Nat.zero_add, List.getElem_modify]
      by_cases e : a.1.toNat = i
      · rw [if_pos e, List.filter_cons, if_pos (by simp; omega)]
        simp
      · rw [if_neg e, List.filter_cons, if_neg (by simp; omega)]

/-! ### Reading a dump -/

variable [Field K] [LinearOrder K]

theorem after_dump (fmt : K → String) (step : ℕ) (rows : List (List K)) (columns : List String)
    (atoms : List (ℕ × (Fin 3 → K))) (hr : ∀ r ∈ rows, ∀ x, r.head? = some x → fmt x ≠ "ITEM:") (hs : toString step ≠ "ITEM:")
    (hn : toString atoms.length ≠ "ITEM:") :
    after ["ITEM:", "NUMBER", "OF", "ATOMS"] (Spec.lmpDump fmt step rows columns atoms) =
      .ok ([toString atoms.length] :: (["ITEM:", "BOX", "BOUNDS"] ++ columns) :: (rows.map (fun r => r.map fmt) ++
        ([["ITEM:", "ATOMS", "id", "type"]] ++ Spec.lmpAtoms fmt atoms))) ∧
    after ["ITEM:", "BOX", "BOUNDS"] (Spec.lmpDump fmt step rows columns atoms) = .ok (rows.map (fun r => r.map fmt) ++
        ([["ITEM:", "ATOMS", "id", "type"]] ++ Spec.lmpAtoms fmt atoms)) ∧
    after ["ITEM:", "ATOMS"] (Spec.lmpDump fmt step rows columns atoms) = .ok (Spec.lmpAtoms fmt atoms) := by
  have hs' : ("ITEM:" == toString step) = false := by simpa using fun h => hs h.symm
  have hn' : ("ITEM:" == toString atoms.length) = false := by simpa using fun h => hn h.symm
  unfold Spec.lmpDump after
  refine ⟨?_, ?_, ?_⟩
  · simp [List.isPrefixOf, hs', hn']
  · simp [List.isPrefixOf, hs', hn']
  · simp only [List.cons_append, List.nil_append, List.append_assoc]
    have h : ∀ l : List (List K), (∀ r ∈ l, ∀ x, r.head? = some x → fmt x ≠ "ITEM:") → ∀ t : List (List String),
        List.dropWhile (fun l => !(["ITEM:", "ATOMS"].isPrefixOf l)) (l.map (fun r => r.map fmt) ++ t) =
          List.dropWhile (fun l => !(["ITEM:", "ATOMS"].isPrefixOf l)) t := by
      intro l
      induction l with
      | nil => intros; rfl
      | cons r l ih =>
        intro hr t
        rw [List.map_cons, List.cons_append, List.dropWhile_cons_of_pos, ih (fun r' hr' => hr r' (by simp [hr']))]
        cases r with
        | nil => rfl
        | cons x r =>
          have : ("ITEM:" == fmt x) = false := by simpa using fun h => hr (x :: r) (by simp) x rfl h.symm
          simp [List.isPrefixOf, this]
    simp [List.isPrefixOf, hs', hn', h rows hr]

theorem cell_det (b : Spec.LmpBox K) : b.cell.det = b.lx * b.ly * b.lz := by
  unfold Spec.LmpBox.cell
  rw [Matrix.det_fin_three]
  simp

theorem cell_rows (b : Spec.LmpBox K) : cellRows b.rows = .ok b.cell := by
  unfold Spec.LmpBox.rows cellRows
  simp only [List.length_cons, List.length_nil, and_self, if_true, boundRow, bind, Except.bind, pure, Except.pure]
  congr 1
  unfold cellOf Spec.LmpBox.cell
  ext i j
  fin_cases i <;> fin_cases j <;> simp <;> ring

theorem cell_ortho (b : Spec.LmpBox K) (h : b.xy = 0 ∧ b.xz = 0 ∧ b.yz = 0) : cellRows b.orthoRows = .ok b.cell := by
  unfold Spec.LmpBox.orthoRows cellRows
  simp only [List.length_cons, List.length_nil, and_self, if_true, boundRow, bind, Except.bind, pure, Except.pure]
  congr 1
  unfold cellOf Spec.LmpBox.cell
  ext i j
  fin_cases i <;> fin_cases j <;> simp [h.1, h.2.1, h.2.2]

theorem digits_ok (cv : Conv K) (fmt : K → String) (h : Spec.LmpReads cv fmt) (t : ℕ) (ht : t ≤ 9) (l : List String)
    (hl : l[1]? = some (toString t)) : digitsOf cv l = .ok [(t : ℤ)] := by
  unfold digitsOf
  rw [hl]
  simp only [orErr, bind, Except.bind]
  have e : (toString t).toList.mapM (fun c => cv.int (String.singleton c)) = [toString t].mapM cv.int := by
    interval_cases t <;> rfl
  rw [e, List.mapM_cons, h.int]
  rfl

theorem flatten_singletons {α β : Type} (f : α → β) (l : List α) : (l.map fun a => [f a]).flatten = l.map f := by
  induction l with
  | nil => rfl
  | cons a l ih => simp [ih]

theorem foldl_max (l : List ℤ) (a : ℤ) : a ≤ l.foldl max a ∧ (∀ x ∈ l, x ≤ l.foldl max a) ∧ (l.foldl max a = a ∨ l.foldl max a ∈ l) := by
  induction l generalizing a with
  | nil => simp
  | cons b l ih =>
    obtain ⟨h1, h2, h3⟩ := ih (max a b)
    simp only [List.foldl_cons]
    refine ⟨le_trans (le_max_left _ _) h1, ?_, ?_⟩
    · intro x hx
      rcases List.mem_cons.1 hx with rfl | hx
      · exact le_trans (le_max_right _ _) h1
      · exact h2 x hx
    · rcases h3 with h3 | h3
      · rw [h3]
        rcases max_choice a b with h | h
        · exact Or.inl h
        · right; rw [h]; simp
      · right; simp [h3]

theorem maxOf_spec (l : List ℤ) (h : l ≠ []) : ∃ m, maxOf l = .ok m ∧ m ∈ l ∧ ∀ x ∈ l, x ≤ m := by
  cases l with
  | nil => exact absurd rfl h
  | cons a l =>
    obtain ⟨h1, h2, h3⟩ := foldl_max l a
    refine ⟨_, rfl, ?_, ?_⟩
    · rcases h3 with h3 | h3
      · rw [h3]; simp
      · simp [h3]
    · intro x hx
      rcases List.mem_cons.1 hx with rfl | hx
      · exact h1
      · exact h2 x hx

theorem atoms_mapM {β : Type} (fmt : K → String) (atoms : List (ℕ × (Fin 3 → K))) (f : List String → Except Err β)
    (g : ℕ × (Fin 3 → K) → β)
    (h : ∀ a ∈ atoms, ∀ i : ℕ, f [toString (i + 1), toString a.1, fmt (a.2 0), fmt (a.2 1), fmt (a.2 2)] = .ok (g a)) :
    (Spec.lmpAtoms fmt atoms).mapM f = .ok (atoms.map g) := by
  unfold Spec.lmpAtoms
  have : ∀ (l : List (ℕ × (Fin 3 → K))) (k : ℕ), (∀ a ∈ l, a ∈ atoms) →
      ((l.zipIdx k).map fun a => [toString (a.2 + 1), toString a.1.1, fmt (a.1.2 0), fmt (a.1.2 1), fmt (a.1.2 2)]).mapM f =
        .ok (l.map g) := by
    intro l
    induction l with
    | nil => intros; rfl
    | cons a l ih =>
      intro k hl
      rw [List.zipIdx_cons, List.map_cons, List.mapM_cons]
      simp only
      rw [h a (hl a (by simp)) k, ih (k + 1) fun b hb => hl b (by simp [hb])]
      rfl
  exact this atoms 0 fun a h => h

theorem vec_ok (cv : Conv K) (fmt : K → String) (h : Spec.LmpReads cv fmt) (v : Fin 3 → K) (a b : String) :
    vecOf cv [a, b, fmt (v 0), fmt (v 1), fmt (v 2)] = .ok v := by
  unfold vecOf
  simp only [List.drop_succ_cons, List.drop_zero, List.take_succ_cons, List.take_zero, h.num, bind, Except.bind, pure, Except.pure]
  congr 1
  ext i
  fin_cases i <;> rfl

omit [LinearOrder K] [Field K] in
theorem length_lmpAtoms (fmt : K → String) (atoms : List (ℕ × (Fin 3 → K))) : (Spec.lmpAtoms fmt atoms).length = atoms.length := by
  simp [Spec.lmpAtoms]

theorem dump_parts (cv : Conv K) (fmt : K → String) (h : Spec.LmpReads cv fmt) (step : ℕ) (rows : List (List K)) (columns : List String)
    (atoms : List (ℕ × (Fin 3 → K))) (hrows : rows.length = 3) (cell : Matrix (Fin 3) (Fin 3) K) (hc : cellRows rows = .ok cell) :
    readNatom cv (Spec.lmpDump fmt step rows columns atoms) = .ok atoms.length ∧
    readCell cv (Spec.lmpDump fmt step rows columns atoms) = .ok cell ∧
    atomLines atoms.length (Spec.lmpDump fmt step rows columns atoms) = .ok (Spec.lmpAtoms fmt atoms) := by
  have hx : ∀ x : K, fmt x ≠ "ITEM:" := fun x e => h.notNum x (by rw [← e, h.num])
  have hn : ∀ n : ℕ, toString n ≠ "ITEM:" := fun n e => h.notInt n (by rw [← e, h.int])
  obtain ⟨h1, h2, h3⟩ := after_dump fmt step rows columns atoms (fun _ _ x _ => hx x) (hn _) (hn _)
  refine ⟨?_, ?_, ?_⟩
  · unfold readNatom
    rw [h1]
    simp only [bind, Except.bind, orErr, List.head?_cons, h.int, pure, Except.pure, Int.toNat_natCast]
  · unfold readCell
    rw [h2]
    simp only [bind, Except.bind]
    rw [List.take_append_of_le_length (by simp [hrows]), List.take_of_length_le (by simp [hrows])]
    have : (rows.map fun r => r.map fmt).mapM (fun l => l.mapM cv.num) = .ok rows := by
      have := mapM_all (fun l : List K => (l.map fmt).mapM cv.num) id rows (by
        intro r _
        have := mapM_all (fun x => cv.num (fmt x)) id r (fun x _ => h.num x)
        rw [List.map_id] at this
        rw [List.mapM_map]
        exact this)
      rw [List.map_id] at this
      rw [List.mapM_map]
      exact this
    rw [this]
    exact hc
  · unfold atomLines
    rw [h3]
    simp only [bind, Except.bind, pure, Except.pure]
    rw [List.take_of_length_le (by rw [length_lmpAtoms])]

/-- The groups of the types. -/
theorem read_dump (cv : Conv K) (fmt : K → String) (h : Spec.LmpReads cv fmt) (step : ℕ) (rows : List (List K)) (columns : List String)
    (atoms : List (ℕ × (Fin 3 → K))) (hrows : rows.length = 3) (cell : Matrix (Fin 3) (Fin 3) K) (hc : cellRows rows = .ok cell)
    (hd : cell.det ≠ 0) (hne : atoms ≠ []) (ht : ∀ a ∈ atoms, 1 ≤ a.1 ∧ a.1 ≤ 9) :
    ∃ n, (∃ a ∈ atoms, a.1 = n) ∧ (∀ a ∈ atoms, a.1 ≤ n) ∧
    readDump cv (Spec.lmpDump fmt step rows columns atoms) = structureOf cell
      ((List.range n).map fun t => (atoms.filter fun a => a.1 = t + 1).map (·.2)) := by
  obtain ⟨h1, h2, h3⟩ := dump_parts cv fmt h step rows columns atoms hrows cell hc
  have hdig := atoms_mapM fmt atoms (digitsOf cv) (fun a => [(a.1 : ℤ)]) (by
    intro a ha i
    exact digits_ok cv fmt h a.1 (ht a ha).2 _ rfl)
  obtain ⟨m, hm, hmem, hmax⟩ := maxOf_spec (atoms.map fun a => (a.1 : ℤ)) (by simpa using hne)
  obtain ⟨a0, ha0, e0⟩ := List.mem_map.1 hmem
  have hmn : m.toNat = a0.1 := by rw [← e0]; simp
  have htypes : readTypes cv (Spec.lmpAtoms fmt atoms) = .ok a0.1 := by
    unfold readTypes
    rw [hdig]
    simp only [bind, Except.bind]
    rw [flatten_singletons, hm]
    simp only [pure, Except.pure, hmn]
  have hparse := atoms_mapM fmt atoms (atomOf cv) (fun a => ((a.1 : ℤ) - 1, a.2)) (by
    intro a ha i
    unfold atomOf
    simp only [List.getElem?_cons_succ, List.getElem?_cons_zero, orErr, bind, Except.bind, h.int, vec_ok cv fmt h]
    rfl)
  have hle : ∀ a ∈ atoms, a.1 ≤ a0.1 := by
    intro a ha
    have := hmax _ (List.mem_map.2 ⟨a, ha, rfl⟩)
    rw [← e0] at this
    exact_mod_cast this
  refine ⟨a0.1, ⟨a0, ha0, rfl⟩, hle, ?_⟩
  unfold readDump
  rw [h1, h2]
  simp only [bind, Except.bind]
  rw [h3]
  simp only
  rw [htypes]
  simp only
  rw [hparse]
  simp only
  rw [place_spec _ _ (by
    intro x hx
    obtain ⟨a, ha, rfl⟩ := List.mem_map.1 hx
    have := ht a ha
    have := hle a ha
    simp only [List.length_replicate]
    omega)]
  simp only
  congr 1
  apply List.ext_getElem
  · simp
  · intro i h4 h5
    simp only [List.getElem_map, List.getElem_zipIdx, List.getElem_replicate, List.nil_append, List.getElem_range, Nat.zero_add]
    rw [List.filter_map, List.map_map]
    congr 1
    apply List.filter_congr
    intro a ha
    have := ht a ha
    simp only [Function.comp_apply, decide_eq_decide]
    omega

omit [LinearOrder K] [Field K] in
theorem zip_groups {β : Type} (f : Vec K → β) (g : List (List (Vec K))) (k : ℕ) :
    ((g.zipIdx k).flatMap fun p => List.replicate p.1.length p.2).zip (g.flatten.map f) =
      (g.zipIdx k).flatMap fun p => p.1.map fun v => (p.2, f v) := by
  induction g generalizing k with
  | nil => rfl
  | cons h g ih =>
    rw [List.zipIdx_cons, List.flatMap_cons, List.flatMap_cons, List.flatten_cons, List.map_append, List.zip_append (by simp), ih]
    congr 1
    apply List.ext_getElem
    · simp
    · intro i h1 h2; simp

theorem range_pick {β : Type} (n s : ℕ) (L : List β) :
    ((List.range n).flatMap fun t => if t = s then L else []) = if s < n then L else [] := by
  induction n with
  | zero => simp
  | succ n ih =>
    rw [List.range_succ, List.flatMap_append, ih]
    simp only [List.flatMap_cons, List.flatMap_nil, List.append_nil]
    rcases lt_trichotomy n s with h | h | h
    · rw [if_neg (by omega), if_neg (by omega), if_neg (by omega)]; rfl
    · rw [if_neg (by omega), if_pos h, if_pos (by omega)]; rfl
    · rw [if_pos h, if_neg (by omega), if_pos (by omega), List.append_nil]

theorem structure_spec (cell : Matrix (Fin 3) (Fin 3) K) (hd : cell.det ≠ 0) (atoms : List (ℕ × (Fin 3 → K))) (n : ℕ)
    (hn : ∀ a ∈ atoms, a.1 ≤ n) :
    ∃ r, structureOf cell ((List.range n).map fun t => (atoms.filter fun a => a.1 = t + 1).map (·.2)) = .ok r ∧
      Spec.LmpDumped cell atoms r := by
  unfold structureOf
  rw [if_neg hd]
  refine ⟨_, rfl, rfl, ?_, ?_, ?_, ?_⟩
  · simp only [List.length_map]
    generalize (List.range n).map (fun t => (atoms.filter fun a => a.1 = t + 1).map (·.2)) = g
    rw [List.length_flatMap, List.length_flatten]
    congr 1
    apply List.ext_getElem
    · simp
    · intro i h1 h2; simp
  · rw [List.pairwise_flatMap]
    refine ⟨?_, ?_⟩
    · intro a _
      rw [List.pairwise_replicate]
      right; exact le_refl _
    · generalize (List.range n).map (fun t => (atoms.filter fun a => a.1 = t + 1).map (·.2)) = g
      rw [List.pairwise_iff_getElem]
      intro i j hi hj hij x hx y hy
      rw [List.eq_of_mem_replicate hx, List.eq_of_mem_replicate hy]
      simp only [List.getElem_zipIdx]
      omega
  · intro t
    simp only [List.map_map]
    have hinv : ((fun x => cell.mulVec x) ∘ fun v => cell⁻¹.mulVec v) = id := by
      funext v
      simp only [Function.comp_apply, id]
      rw [Matrix.mulVec_mulVec, Matrix.mul_nonsing_inv _ (isUnit_iff_ne_zero.2 hd), Matrix.one_mulVec]
    rw [hinv, zip_groups, List.filter_flatMap]
    have : (((List.range n).map fun t => (atoms.filter fun a => a.1 = t + 1).map (·.2)).zipIdx.flatMap fun p =>
        ((p.1.map fun v => (p.2, id v)).filter fun a => a.1 = t)) =
        (List.range n).flatMap fun s => if s = t then (atoms.filter fun a => a.1 = t + 1).map (fun a => (t, a.2)) else [] := by
      have e : ((List.range n).map fun t => (atoms.filter fun a => a.1 = t + 1).map (·.2)).zipIdx =
          (List.range n).map fun s => ((atoms.filter fun a => a.1 = s + 1).map (·.2), s) := by
        apply List.ext_getElem
        · simp
        · intro i h1 h2; simp
      rw [e, List.flatMap_map]
      congr 1
      funext s
      simp only [List.map_map]
      by_cases hs : s = t
      · subst hs
        rw [if_pos rfl, List.filter_eq_self.2]
        · rfl
        · intro a ha
          obtain ⟨b, _, rfl⟩ := List.mem_map.1 ha
          simp
      · rw [if_neg hs, List.filter_eq_nil_iff]
        intro a ha
        obtain ⟨b, _, rfl⟩ := List.mem_map.1 ha
        simpa using hs
    rw [this, range_pick]
    split
    · rfl
    · rename_i hlt
      rw [List.filter_eq_nil_iff.2]
      · rfl
      · intro a ha
        have := hn a ha
        simp only [decide_eq_true_eq]
        omega
  · intro t
    simp only [List.map_map, List.getElem?_map]
    by_cases h : t < n
    · rw [List.getElem?_range h]
      simp [List.countP_eq_length_filter]
    · rw [List.getElem?_eq_none (by simpa using h)]
      simp only [Option.map_none, Option.getD_none]
      symm
      rw [List.countP_eq_zero]
      intro a ha
      have := hn a ha
      simp only [decide_eq_true_eq]
      omega

/-- **C116.** A dump of LAMMPS with at most nine types is read: the cell is that of the box, also when it is tilted, and the
structure has the atoms of the dump, ordered by types. -/
theorem C116_dump (cv : Conv K) (fmt : K → String) (h : Spec.LmpReads cv fmt) (step : ℕ) (b : Spec.LmpBox K) (columns : List String)
    (atoms : List (ℕ × (Fin 3 → K))) (hb : b.lx ≠ 0 ∧ b.ly ≠ 0 ∧ b.lz ≠ 0) (hne : atoms ≠ [])
    (ht : ∀ a ∈ atoms, 1 ≤ a.1 ∧ a.1 ≤ 9) :
    ∃ r, readDump cv (Spec.lmpDump fmt step b.rows columns atoms) = .ok r ∧ Spec.LmpDumped b.cell atoms r := by
  have hd : b.cell.det ≠ 0 := by
    rw [cell_det]; exact mul_ne_zero (mul_ne_zero hb.1 hb.2.1) hb.2.2
  obtain ⟨n, _, hn, he⟩ := read_dump cv fmt h step b.rows columns atoms rfl b.cell (cell_rows b) hd hne ht
  obtain ⟨r, hr, hr2⟩ := structure_spec b.cell hd atoms n hn
  exact ⟨r, he.trans hr, hr2⟩

/-- **C116.** The same for a box without tilt, which is written with two columns. -/
theorem C116_orthogonal (cv : Conv K) (fmt : K → String) (h : Spec.LmpReads cv fmt) (step : ℕ) (b : Spec.LmpBox K) (columns : List String)
    (atoms : List (ℕ × (Fin 3 → K))) (hb : b.lx ≠ 0 ∧ b.ly ≠ 0 ∧ b.lz ≠ 0) (hz : b.xy = 0 ∧ b.xz = 0 ∧ b.yz = 0) (hne : atoms ≠ [])
    (ht : ∀ a ∈ atoms, 1 ≤ a.1 ∧ a.1 ≤ 9) :
    ∃ r, readDump cv (Spec.lmpDump fmt step b.orthoRows columns atoms) = .ok r ∧ Spec.LmpDumped b.cell atoms r := by
  have hd : b.cell.det ≠ 0 := by
    rw [cell_det]; exact mul_ne_zero (mul_ne_zero hb.1 hb.2.1) hb.2.2
  obtain ⟨n, _, hn, he⟩ := read_dump cv fmt h step b.orthoRows columns atoms rfl b.cell (cell_ortho b hz) hd hne ht
  obtain ⟨r, hr, hr2⟩ := structure_spec b.cell hd atoms n hn
  exact ⟨r, he.trans hr, hr2⟩

/-- **C116.** The forces are those of the file, in its order. -/
theorem C116_forces (cv : Conv K) (fmt : K → String) (h : Spec.LmpReads cv fmt) (step : ℕ) (b : Spec.LmpBox K) (columns : List String)
    (atoms : List (ℕ × (Fin 3 → K))) :
    readForces cv (Spec.lmpDump fmt step b.rows columns atoms) = .ok (atoms.map (·.2)) := by
  obtain ⟨h1, _, h3⟩ := dump_parts cv fmt h step b.rows columns atoms rfl b.cell (cell_rows b)
  unfold readForces
  rw [h1]
  simp only [bind, Except.bind]
  rw [h3]
  exact atoms_mapM fmt atoms (vecOf cv) (·.2) fun a _ i => vec_ok cv fmt h a.2 _ _

/-! ### Order of the atoms -/

theorem sorted_unique {β : Type} (l m : List (ℕ × β)) (hl : (l.map (·.1)).Pairwise (· ≤ ·)) (hm : (m.map (·.1)).Pairwise (· ≤ ·))
    (h : ∀ t, l.filter (fun a => a.1 = t) = m.filter fun a => a.1 = t) : l = m := by
  induction l generalizing m with
  | nil =>
    cases m with
    | nil => rfl
    | cons b m =>
      have := h b.1
      simp at this
  | cons a l ih =>
    cases m with
    | nil =>
      have := h a.1
      simp at this
    | cons b m =>
      rw [List.map_cons, List.pairwise_cons] at hl hm
      have hb : b ∈ a :: l := by
        have : b ∈ (a :: l).filter fun x => x.1 = b.1 := by rw [h b.1]; simp
        exact (List.mem_filter.1 this).1
      have ha : a ∈ b :: m := by
        have : a ∈ (b :: m).filter fun x => x.1 = a.1 := by rw [← h a.1]; simp
        exact (List.mem_filter.1 this).1
      have h1 : a.1 ≤ b.1 := by
        rcases List.mem_cons.1 hb with e | e
        · rw [e]
        · exact hl.1 _ (List.mem_map.2 ⟨b, e, rfl⟩)
      have h2 : b.1 ≤ a.1 := by
        rcases List.mem_cons.1 ha with e | e
        · rw [e]
        · exact hm.1 _ (List.mem_map.2 ⟨a, e, rfl⟩)
      have h3 : a.1 = b.1 := le_antisymm h1 h2
      have h4 := h a.1
      rw [List.filter_cons, if_pos (by simp), List.filter_cons, if_pos (by simp [h3])] at h4
      have h5 : a = b := (List.cons.inj h4).1
      subst h5
      rw [ih m hl.2 hm.2]
      intro t
      have := h t
      rw [List.filter_cons, List.filter_cons] at this
      split at this
      · exact (List.cons.inj this).2
      · exact this

/-- **C116.** When the atoms of the file are ordered by types, the structure has them in this order, which is the one of the
forces. -/
theorem C116_sorted_files (cv : Conv K) (fmt : K → String) (h : Spec.LmpReads cv fmt) (step : ℕ) (b : Spec.LmpBox K)
    (columns : List String) (atoms : List (ℕ × (Fin 3 → K))) (hb : b.lx ≠ 0 ∧ b.ly ≠ 0 ∧ b.lz ≠ 0) (hne : atoms ≠ [])
    (ht : ∀ a ∈ atoms, 1 ≤ a.1 ∧ a.1 ≤ 9) (hs : (atoms.map (·.1)).Pairwise (· ≤ ·)) :
    ∃ r, readDump cv (Spec.lmpDump fmt step b.rows columns atoms) = .ok r ∧ r.axis = b.cell ∧
      r.types = atoms.map (fun a => a.1 - 1) ∧ r.positions.map (fun x => b.cell.mulVec x) = atoms.map (·.2) := by
  obtain ⟨r, h1, h2⟩ := C116_dump cv fmt h step b columns atoms hb hne ht
  have hl : (r.positions.map fun x => b.cell.mulVec x).length = r.types.length := by rw [List.length_map, h2.length]
  have key : r.types.zip (r.positions.map fun x => b.cell.mulVec x) = atoms.map fun a => (a.1 - 1, a.2) := by
    apply sorted_unique
    · rw [List.map_fst_zip (le_of_eq hl.symm)]
      exact h2.sorted
    · rw [List.map_map]
      rw [List.pairwise_map] at hs ⊢
      exact hs.imp fun h => Nat.sub_le_sub_right h 1
    · intro t
      rw [h2.content, List.filter_map]
      have : atoms.filter ((fun a : ℕ × (Fin 3 → K) => decide (a.1 = t)) ∘ fun a => (a.1 - 1, a.2)) =
          atoms.filter fun a => a.1 = t + 1 := by
        apply List.filter_congr
        intro a ha
        have := ht a ha
        simp only [Function.comp_apply, decide_eq_decide]
        omega
      rw [this]
      apply List.map_congr_left
      intro a ha
      have := (List.mem_filter.1 ha).2
      simp only [decide_eq_true_eq] at this
      rw [this]
      simp
  refine ⟨r, h1, h2.axis, ?_, ?_⟩
  · have := congrArg (List.map (·.1)) key
    rw [List.map_fst_zip (le_of_eq hl.symm), List.map_map] at this
    exact this
  · have := congrArg (List.map (·.2)) key
    rw [List.map_snd_zip (le_of_eq hl), List.map_map] at this
    exact this

/-- **C116, counterexample.** Otherwise the atoms of the structure and of the forces are in different orders: in a file with an
atom of type 2 before one of type 1 the first force is that of the second atom of the structure. -/
theorem C116_order_violation (cv : Conv K) (fmt : K → String) (h : Spec.LmpReads cv fmt) (step : ℕ) (b : Spec.LmpBox K)
    (columns : List String) (hb : b.lx ≠ 0 ∧ b.ly ≠ 0 ∧ b.lz ≠ 0) (x y f g : Fin 3 → K) :
    ∃ r, readDump cv (Spec.lmpDump fmt step b.rows columns [(2, x), (1, y)]) = .ok r ∧
      r.positions.map (fun v => b.cell.mulVec v) = [y, x] ∧
      readForces cv (Spec.lmpDump fmt step b.rows columns [(2, f), (1, g)]) = .ok [f, g] := by
  obtain ⟨r, h1, h2⟩ := C116_dump cv fmt h step b columns [(2, x), (1, y)] hb (by simp) (by simp)
  refine ⟨r, h1, ?_, C116_forces cv fmt h step b columns _⟩
  have hl : (r.positions.map fun x => b.cell.mulVec x).length = r.types.length := by rw [List.length_map, h2.length]
  have key : r.types.zip (r.positions.map fun x => b.cell.mulVec x) = [(0, y), (1, x)] := by
    apply sorted_unique
    · rw [List.map_fst_zip (le_of_eq hl.symm)]
      exact h2.sorted
    · simp
    · intro t
      rw [h2.content]
      rcases t with _ | _ | t <;> simp
  have := congrArg (List.map (·.2)) key
  rw [List.map_snd_zip (le_of_eq hl)] at this
  exact this

/-! ### Ten types -/

theorem digit_chars (n : ℕ) (c : Char) (hc : c ∈ (toString n).toList) : ∃ d : ℕ, d ≤ 9 ∧ String.singleton c = toString d := by
  rw [Nat.toString_eq_repr, Nat.toList_repr] at hc
  have hd := Nat.isDigit_of_mem_toDigits (by decide) (by decide) hc
  rw [Char.isDigit_iff_toNat] at hd
  obtain ⟨h1, h2⟩ := hd
  have hc2 : c = Char.ofNat c.toNat := (Char.ofNat_toNat c).symm
  have h1' : 48 ≤ c.toNat := h1
  have h2' : c.toNat ≤ 57 := h2
  generalize hm : c.toNat = m at hc2 h1' h2'
  subst hc2
  clear hm h1 h2 hc
  refine ⟨m - 48, by omega, ?_⟩
  interval_cases m <;> decide +kernel

theorem digits_small (cv : Conv K) (fmt : K → String) (h : Spec.LmpReads cv fmt) (t : ℕ) (l : List String)
    (hl : l[1]? = some (toString t)) : ∃ ds, digitsOf cv l = .ok ds ∧ ∀ d ∈ ds, d ≤ 9 := by
  unfold digitsOf
  rw [hl]
  simp only [orErr, bind, Except.bind]
  have : ∀ cs : List Char, (∀ c ∈ cs, c ∈ (toString t).toList) →
      ∃ ds, cs.mapM (fun c => cv.int (String.singleton c)) = .ok ds ∧ ∀ d ∈ ds, d ≤ 9 := by
    intro cs
    induction cs with
    | nil => exact fun _ => ⟨[], rfl, by simp⟩
    | cons c cs ih =>
      intro hcs
      obtain ⟨d, hd, he⟩ := digit_chars t c (hcs c (by simp))
      obtain ⟨ds, h1, h2⟩ := ih fun c hc => hcs c (by simp [hc])
      refine ⟨(d : ℤ) :: ds, ?_, ?_⟩
      · rw [List.mapM_cons, he, h.int, h1]; rfl
      · intro x hx
        rcases List.mem_cons.1 hx with rfl | hx
        · exact_mod_cast hd
        · exact h2 x hx
  exact this _ fun _ h => h

omit [LinearOrder K] [Field K] in
theorem place_error (l : List (ℤ × Vec K)) (g : List (List (Vec K))) (h0 : ∀ a ∈ l, 0 ≤ a.1) (h : ∃ a ∈ l, (g.length : ℤ) ≤ a.1) :
    place l g = .error .indexError := by
  induction l generalizing g with
  | nil => obtain ⟨a, ha, _⟩ := h; cases ha
  | cons a l ih =>
    rw [place]
    have := h0 a (by simp)
    by_cases hlt : a.1 < g.length
    · have hp : pyIndex g.length a.1 = .ok a.1.toNat := by
        unfold pyIndex; rw [if_pos ⟨this, hlt⟩]
      rw [hp]
      simp only [bind, Except.bind]
      apply ih _ (fun b hb => h0 b (by simp [hb]))
      obtain ⟨b, hb, hb2⟩ := h
      rcases List.mem_cons.1 hb with rfl | hb
      · omega
      · exact ⟨b, hb, by rwa [List.length_modify]⟩
    · have hp : pyIndex g.length a.1 = .error .indexError := by
        unfold pyIndex; rw [if_neg (by omega), if_neg (by omega)]
      rw [hp]; rfl

/-- **C116, counterexample.** No dump that has an atom of the tenth or a later type can be read: the number of types is the largest
digit. -/
theorem C116_ten_types_violation (cv : Conv K) (fmt : K → String) (h : Spec.LmpReads cv fmt) (step : ℕ) (b : Spec.LmpBox K)
    (columns : List String) (atoms : List (ℕ × (Fin 3 → K))) (ht : ∀ a ∈ atoms, 1 ≤ a.1) (h10 : ∃ a ∈ atoms, 10 ≤ a.1) :
    readDump cv (Spec.lmpDump fmt step b.rows columns atoms) = .error .indexError := by
  obtain ⟨h1, h2, h3⟩ := dump_parts cv fmt h step b.rows columns atoms rfl b.cell (cell_rows b)
  have hdig : ∃ ds, (Spec.lmpAtoms fmt atoms).mapM (digitsOf cv) = .ok ds ∧ (∀ x ∈ ds.flatten, x ≤ 9) := by
    have : ∀ l : List (List String), (∀ r ∈ l, ∃ t : ℕ, r[1]? = some (toString t)) →
        ∃ ds, l.mapM (digitsOf cv) = .ok ds ∧ (∀ x ∈ ds.flatten, x ≤ 9) := by
      intro l
      induction l with
      | nil => exact fun _ => ⟨[], rfl, by simp⟩
      | cons r l ih =>
        intro hl
        obtain ⟨t, hr⟩ := hl r (by simp)
        obtain ⟨d, hd1, hd2⟩ := digits_small cv fmt h t r hr
        obtain ⟨ds, h4, h5⟩ := ih fun r hr => hl r (by simp [hr])
        refine ⟨d :: ds, ?_, ?_⟩
        · rw [List.mapM_cons, hd1, h4]; rfl
        · intro x hx
          rw [List.flatten_cons] at hx
          rcases List.mem_append.1 hx with hx | hx
          · exact hd2 x hx
          · exact h5 x hx
    apply this
    intro r hr
    unfold Spec.lmpAtoms at hr
    obtain ⟨a, _, rfl⟩ := List.mem_map.1 hr
    exact ⟨a.1.1, rfl⟩
  obtain ⟨ds, hds, hle⟩ := hdig
  have htypes : readTypes cv (Spec.lmpAtoms fmt atoms) = .error .valueError ∨ ∃ n ≤ 9, readTypes cv (Spec.lmpAtoms fmt atoms) = .ok n := by
    unfold readTypes
    rw [hds]
    simp only [bind, Except.bind]
    by_cases he : ds.flatten = []
    · rw [he]; exact Or.inl rfl
    · obtain ⟨m, hm, hmem, _⟩ := maxOf_spec _ he
      rw [hm]
      exact Or.inr ⟨m.toNat, by have := hle m hmem; omega, rfl⟩
  have htypes : ∃ n ≤ 9, readTypes cv (Spec.lmpAtoms fmt atoms) = .ok n := by
    rcases htypes with hbad | hgood
    · exfalso
      -- the digits of the first atom are there
      obtain ⟨a, ha, ha10⟩ := h10
      unfold readTypes at hbad
      rw [hds] at hbad
      simp only [bind, Except.bind] at hbad
      by_cases he : ds.flatten = []
      · have hmem : ∀ l : List (List String), ∀ ds : List (List ℤ), l.mapM (digitsOf cv) = .ok ds → ds.flatten = [] →
            ∀ r ∈ l, digitsOf cv r = .ok [] := by
          intro l
          induction l with
          | nil => intro _ _ _ r hr; cases hr
          | cons r l ih =>
            intro ds hm hf r' hr'
            rw [List.mapM_cons] at hm
            simp only [bind, Except.bind] at hm
            cases hd : digitsOf cv r with
            | error e => rw [hd] at hm; cases hm
            | ok d =>
              rw [hd] at hm
              simp only at hm
              cases hl : l.mapM (digitsOf cv) with
              | error e => rw [hl] at hm; cases hm
              | ok ds' =>
                rw [hl] at hm
                cases hm
                rw [List.flatten_cons, List.append_eq_nil_iff] at hf
                rcases List.mem_cons.1 hr' with rfl | hr'
                · rw [hd, hf.1]
                · exact ih ds' hl hf.2 r' hr'
        obtain ⟨i, hi, hai⟩ := List.mem_iff_getElem.1 ha
        have hrow : [toString (i + 1), toString a.1, fmt (a.2 0), fmt (a.2 1), fmt (a.2 2)] ∈ Spec.lmpAtoms fmt atoms := by
          unfold Spec.lmpAtoms
          refine List.mem_map.2 ⟨(a, i), ?_, rfl⟩
          rw [List.mem_iff_getElem]
          exact ⟨i, by simpa using hi, by simp [hai]⟩
        have hz := hmem _ _ hds he _ hrow
        unfold digitsOf at hz
        simp only [List.getElem?_cons_succ, List.getElem?_cons_zero, orErr, bind, Except.bind] at hz
        have hne : (toString a.1).toList ≠ [] := by
          rw [Nat.toString_eq_repr, Nat.toList_repr]
          intro e
          have := congrArg (Nat.ofDigitChars 10 · 0) e
          simp only [Nat.ofDigitChars_ten_toDigits, Nat.ofDigitChars_nil] at this
          omega
        cases hl : (toString a.1).toList with
        | nil => exact hne hl
        | cons c cs =>
          rw [hl, List.mapM_cons] at hz
          simp only [bind, Except.bind] at hz
          split at hz
          · cases hz
          · split at hz
            · cases hz
            · cases hz
      · obtain ⟨m, hm, _, _⟩ := maxOf_spec _ he
        rw [hm] at hbad
        cases hbad
    · exact hgood
  obtain ⟨n, hn, htypes⟩ := htypes
  have hparse := atoms_mapM fmt atoms (atomOf cv) (fun a => ((a.1 : ℤ) - 1, a.2)) (by
    intro a ha i
    unfold atomOf
    simp only [List.getElem?_cons_succ, List.getElem?_cons_zero, orErr, bind, Except.bind, h.int, vec_ok cv fmt h]
    rfl)
  unfold readDump
  rw [h1, h2]
  simp only [bind, Except.bind]
  rw [h3]
  simp only
  rw [htypes]
  simp only
  rw [hparse]
  simp only
  rw [place_error]
  · intro x hx
    obtain ⟨a, ha, rfl⟩ := List.mem_map.1 hx
    have := ht a ha
    simp only
    omega
  · obtain ⟨a, ha, h10⟩ := h10
    refine ⟨_, List.mem_map.2 ⟨a, ha, rfl⟩, ?_⟩
    simp only [List.length_replicate]
    omega

/-! ### Logs -/

omit [LinearOrder K] [Field K] in
theorem logLoop_spec (cv : Conv K) (lines : List LogLine) (isHeader : LogLine → Bool) (first second : ℕ × ℕ)
    (l : List LogLine) (k : ℕ) (acc e : K × K) (h : logLoop cv lines isHeader first second (l.zipIdx k) acc = .ok e) :
    ((∀ x ∈ l, isHeader x = false) ∧ e = acc) ∨
    ∃ i : ℕ, (∃ x, l[i]? = some x ∧ isHeader x = true) ∧ (∀ (j : ℕ) x, i < j → l[j]? = some x → isHeader x = false) ∧
      wordAt cv lines (k + i + first.1) first.2 = .ok e.1 ∧ wordAt cv lines (k + i + second.1) second.2 = .ok e.2 := by
  induction l generalizing k acc with
  | nil => rw [List.zipIdx_nil, logLoop] at h; cases h; exact Or.inl ⟨by simp, rfl⟩
  | cons x l ih =>
    rw [List.zipIdx_cons, logLoop] at h
    by_cases hx : isHeader x = true
    · rw [if_pos hx] at h
      simp only [bind, Except.bind] at h
      cases h1 : wordAt cv lines (k + first.1) first.2 with
      | error e => rw [h1] at h; cases h
      | ok a =>
        rw [h1] at h
        simp only at h
        cases h2 : wordAt cv lines (k + second.1) second.2 with
        | error e => rw [h2] at h; cases h
        | ok b =>
          rw [h2] at h
          simp only at h
          rcases ih (k + 1) (a, b) h with ⟨h3, h4⟩ | ⟨i, ⟨y, h3, h3'⟩, h4, h5, h6⟩
          · right
            refine ⟨0, ⟨x, rfl, hx⟩, ?_, by rw [h4]; exact h1, by rw [h4]; exact h2⟩
            intro j y hj hy
            obtain ⟨j', rfl⟩ : ∃ j', j = j' + 1 := ⟨j - 1, by omega⟩
            rw [List.getElem?_cons_succ] at hy
            exact h3 y (List.mem_of_getElem? hy)
          · right
            refine ⟨i + 1, ⟨y, by rw [List.getElem?_cons_succ]; exact h3, h3'⟩, ?_, ?_, ?_⟩
            · intro j z hj hz
              obtain ⟨j', rfl⟩ : ∃ j', j = j' + 1 := ⟨j - 1, by omega⟩
              rw [List.getElem?_cons_succ] at hz
              exact h4 j' z (by omega) hz
            · rw [show k + (i + 1) + first.1 = k + 1 + i + first.1 by omega]; exact h5
            · rw [show k + (i + 1) + second.1 = k + 1 + i + second.1 by omega]; exact h6
    · rw [if_neg hx] at h
      rcases ih (k + 1) acc h with ⟨h3, h4⟩ | ⟨i, ⟨y, h3, h3'⟩, h4, h5, h6⟩
      · left
        refine ⟨?_, h4⟩
        intro y hy
        rcases List.mem_cons.1 hy with rfl | hy
        · simpa using hx
        · exact h3 y hy
      · right
        refine ⟨i + 1, ⟨y, by rw [List.getElem?_cons_succ]; exact h3, h3'⟩, ?_, ?_, ?_⟩
        · intro j z hj hz
          obtain ⟨j', rfl⟩ : ∃ j', j = j' + 1 := ⟨j - 1, by omega⟩
          rw [List.getElem?_cons_succ] at hz
          exact h4 j' z (by omega) hz
        · rw [show k + (i + 1) + first.1 = k + 1 + i + first.1 by omega]; exact h5
        · rw [show k + (i + 1) + second.1 = k + 1 + i + second.1 by omega]; exact h6

/-- **C116.** The energies of a minimisation are those in the first two lines of the last table of the log, in the fifth column
(`TotEng`), and the pressures are those in the sixth one. -/
theorem C116_log (cv : Conv K) (lines : List LogLine) (hl : ∃ x ∈ lines, x.thermo = true) (e q : K × K)
    (h : getEnergy cv lines false false = .ok e) (hq : getPress cv lines false = .ok q) :
    ∃ i : ℕ, (∃ x, lines[i]? = some x ∧ x.thermo = true) ∧ (∀ (j : ℕ) x, i < j → lines[j]? = some x → x.thermo = false) ∧
      ∃ l1 l2 : LogLine, lines[i + 1]? = some l1 ∧ lines[i + 2]? = some l2 ∧ ∃ w1 w2 w3 w4, l1.words[4]? = some w1 ∧
        l2.words[4]? = some w2 ∧ l1.words[5]? = some w3 ∧ l2.words[5]? = some w4 ∧
        cv.num w1 = .ok e.1 ∧ cv.num w2 = .ok e.2 ∧ cv.num w3 = .ok q.1 ∧ cv.num w4 = .ok q.2 := by
  have key : ∀ i k (x : K), wordAt cv lines i k = .ok x → ∃ l w, lines[i]? = some l ∧ l.words[k]? = some w ∧ cv.num w = .ok x := by
    intro i k x hx
    unfold wordAt at hx
    cases h1 : lines[i]? with
    | none => rw [h1] at hx; cases hx
    | some l =>
      rw [h1] at hx
      simp only [orErr, bind, Except.bind] at hx
      cases h2 : l.words[k]? with
      | none => rw [h2] at hx; cases hx
      | some w => rw [h2] at hx; exact ⟨l, w, rfl, h2, hx⟩
  unfold getEnergy at h
  unfold getPress at hq
  simp only [Bool.false_eq_true, if_false] at h hq
  obtain ⟨x0, hx0, ht0⟩ := hl
  rcases logLoop_spec cv lines _ _ _ lines 0 _ e h with ⟨h1, _⟩ | ⟨i, ⟨x, hx, hx'⟩, h2, h3, h4⟩
  · rw [h1 x0 hx0] at ht0; cases ht0
  · rcases logLoop_spec cv lines _ _ _ lines 0 _ q hq with ⟨h1, _⟩ | ⟨i', ⟨x', hy, hy'⟩, g2, g3, g4⟩
    · rw [h1 x0 hx0] at ht0; cases ht0
    · have hi : i = i' := by
        rcases lt_trichotomy i i' with hlt | heq | hgt
        · rw [h2 i' x' hlt hy] at hy'; cases hy'
        · exact heq
        · rw [g2 i x hgt hx] at hx'; cases hx'
      subst hi
      simp only [Nat.zero_add] at h3 h4 g3 g4
      obtain ⟨l1, w1, a1, a2, a3⟩ := key _ _ _ h3
      obtain ⟨l2, w2, b1, b2, b3⟩ := key _ _ _ h4
      obtain ⟨l3, w3, c1, c2, c3⟩ := key _ _ _ g3
      obtain ⟨l4, w4, d1, d2, d3⟩ := key _ _ _ g4
      rw [a1] at c1; cases c1
      rw [b1] at d1; cases d1
      exact ⟨i, ⟨x, hx, hx'⟩, h2, l1, l2, a1, b1, w1, w2, w3, w4, a2, b2, c2, d2, a3, b3, c3, d3⟩

theorem wordAt_ok (cv : Conv K) (lines : List LogLine) (i k : ℕ) (x : K) (hx : wordAt cv lines i k = .ok x) :
    ∃ l w, lines[i]? = some l ∧ l.words[k]? = some w ∧ cv.num w = .ok x := by
  unfold wordAt at hx
  cases h1 : lines[i]? with
  | none => rw [h1] at hx; cases hx
  | some l =>
    rw [h1] at hx
    simp only [orErr, bind, Except.bind] at hx
    cases h2 : l.words[k]? with
    | none => rw [h2] at hx; cases hx
    | some w => rw [h2] at hx; exact ⟨l, w, rfl, h2, hx⟩

/-- **C116.** The enthalpies of a minimisation are the first and the third number in the line after the last one that announces
them. -/
theorem C116_log_enthalpy (cv : Conv K) (lines : List LogLine) (hl : ∃ x ∈ lines, x.minimised = true) (e : K × K)
    (h : getEnergy cv lines false true = .ok e) :
    ∃ i : ℕ, (∃ x, lines[i]? = some x ∧ x.minimised = true) ∧
      (∀ (j : ℕ) x, i < j → lines[j]? = some x → x.minimised = false) ∧
      ∃ l1 : LogLine, lines[i + 1]? = some l1 ∧ ∃ w1 w2, l1.words[0]? = some w1 ∧ l1.words[2]? = some w2 ∧
        cv.num w1 = .ok e.1 ∧ cv.num w2 = .ok e.2 := by
  unfold getEnergy at h
  simp only [Bool.false_eq_true, if_false, if_true] at h
  obtain ⟨x0, hx0, ht0⟩ := hl
  rcases logLoop_spec cv lines _ _ _ lines 0 _ e h with ⟨h1, _⟩ | ⟨i, hx, h2, h3, h4⟩
  · rw [h1 x0 hx0] at ht0; cases ht0
  · simp only [Nat.zero_add] at h3 h4
    obtain ⟨l1, w1, a1, a2, a3⟩ := wordAt_ok cv lines _ _ _ h3
    obtain ⟨l2, w2, b1, b2, b3⟩ := wordAt_ok cv lines _ _ _ h4
    rw [a1] at b1; cases b1
    exact ⟨i, hx, h2, l1, a1, w1, w2, a2, b2, a3, b3⟩

/-- **C116.** In a log of a single calculation the energy is the one in the line after the header of the last table, in the fifth
column, and the pressure the one in the sixth. -/
theorem C116_log_single (cv : Conv K) (lines : List LogLine) (hl : ∃ x ∈ lines, x.thermo = true) (enthalpy : Bool) (e q : K × K)
    (h : getEnergy cv lines true enthalpy = .ok e) (hq : getPress cv lines true = .ok q) :
    e.1 = e.2 ∧ q.1 = q.2 ∧ ∃ i : ℕ, (∃ x, lines[i]? = some x ∧ x.thermo = true) ∧
      (∀ (j : ℕ) x, i < j → lines[j]? = some x → x.thermo = false) ∧
      ∃ l1 : LogLine, lines[i + 1]? = some l1 ∧ ∃ w1 w2, l1.words[4]? = some w1 ∧ l1.words[5]? = some w2 ∧
        cv.num w1 = .ok e.1 ∧ cv.num w2 = .ok q.1 := by
  unfold getEnergy at h
  unfold getPress at hq
  simp only [if_true] at h hq
  obtain ⟨x0, hx0, ht0⟩ := hl
  rcases logLoop_spec cv lines _ _ _ lines 0 _ e h with ⟨h1, _⟩ | ⟨i, ⟨x, hx, hx'⟩, h2, h3, h4⟩
  · rw [h1 x0 hx0] at ht0; cases ht0
  rcases logLoop_spec cv lines _ _ _ lines 0 _ q hq with ⟨h1, _⟩ | ⟨i', ⟨x', hy, hy'⟩, g2, g3, g4⟩
  · rw [h1 x0 hx0] at ht0; cases ht0
  have hi : i = i' := by
    rcases lt_trichotomy i i' with hlt | heq | hgt
    · rw [h2 i' x' hlt hy] at hy'; cases hy'
    · exact heq
    · rw [g2 i x hgt hx] at hx'; cases hx'
  subst hi
  rw [h3] at h4
  rw [g3] at g4
  simp only [Nat.zero_add] at h3 g3
  obtain ⟨l1, w1, a1, a2, a3⟩ := wordAt_ok cv lines _ _ _ h3
  obtain ⟨l2, w2, b1, b2, b3⟩ := wordAt_ok cv lines _ _ _ g3
  rw [a1] at b1; cases b1
  exact ⟨Except.ok.inj h4, Except.ok.inj g4, i, ⟨x, hx, hx'⟩, h2, l1, a1, w1, w2, a2, b2, a3, b3⟩

/-- Two tables and a line of enthalpies: the last table counts. -/
example :
    let cv : Conv ℕ := ⟨fun s => .ok (Nat.ofDigitChars 10 s.toList 0), fun _ => .ok 0⟩
    let row (a b : String) : LogLine := ⟨false, false, ["0", "0", "0", "0", a, b]⟩
    let lines : List LogLine := [⟨true, false, ["Step"]⟩, row "1" "2", row "3" "4", ⟨true, false, ["Step"]⟩, row "5" "6",
      row "7" "8", ⟨false, true, ["Energy"]⟩, ⟨false, false, ["11", "12", "13"]⟩]
    ((getEnergy cv lines false false).toOption, (getPress cv lines false).toOption, (getEnergy cv lines false true).toOption,
      (getEnergy cv lines true false).toOption) = (some (5, 7), some (6, 8), some (11, 13), some (5, 5)) := by
  decide +kernel

/-- **C116, counterexample.** A log without such a table (recent versions of LAMMPS align the columns, so that the header has other
spaces) gives energies and pressures of zero, not an error. -/
theorem C116_no_table_violation (cv : Conv K) (lines : List LogLine) (h : ∀ x ∈ lines, x.thermo = false) (single : Bool) :
    getEnergy cv lines single false = .ok (0, 0) ∧ getPress cv lines single = .ok (0, 0) := by
  have key : ∀ (l : List LogLine) (k : ℕ) (a b : ℕ × ℕ) (acc : K × K), (∀ x ∈ l, x.thermo = false) →
      logLoop cv lines LogLine.thermo a b (l.zipIdx k) acc = .ok acc := by
    intro l
    induction l with
    | nil => intros; rfl
    | cons x l ih =>
      intro k a b acc hl
      rw [List.zipIdx_cons, logLoop, if_neg (by simp [hl x (by simp)])]
      exact ih (k + 1) a b acc fun y hy => hl y (by simp [hy])
  unfold getEnergy getPress
  cases single
  · exact ⟨key lines 0 _ _ _ h, key lines 0 _ _ _ h⟩
  · exact ⟨key lines 0 _ _ _ h, key lines 0 _ _ _ h⟩

/-! ### The hypotheses can be met -/

omit [LinearOrder K] [Field K] in
theorem natString_inj (m n : ℕ) (h : toString m = toString n) : m = n := by
  have h2 := congrArg (fun s => Nat.ofDigitChars 10 (String.toList s) 0) h
  simpa only [Nat.toString_eq_repr, Nat.toList_repr, Nat.ofDigitChars_ten_toDigits] using h2

open Classical in
/-- A conversion that reads the numbers written by `fmt`. -/
noncomputable def convOf (fmt : ℚ → String) : Conv ℚ where
  num s := if h : ∃ x, fmt x = s then .ok h.choose else .error .valueError
  int s := if h : ∃ n : ℕ, toString n = s then .ok (h.choose : ℤ) else .error .valueError

/-- Rational numbers are written as the numbers of an enumeration. -/
def fmtQ (x : ℚ) : String := toString (Encodable.encode x)

theorem nat_ne_item (n : ℕ) : toString n ≠ "ITEM:" := by
  intro h
  have h2 := congrArg String.toList h
  have : 'I' ∈ (toString n).toList := by rw [h2]; decide
  rw [Nat.toString_eq_repr, Nat.toList_repr] at this
  exact absurd (Nat.isDigit_of_mem_toDigits (by decide) (by decide) this) (by decide)

theorem reads_example : Spec.LmpReads (convOf fmtQ) fmtQ where
  num x := by
    have h : ∃ y, fmtQ y = fmtQ x := ⟨x, rfl⟩
    simp only [convOf, dif_pos h]
    congr 1
    exact Encodable.encode_injective (natString_inj _ _ h.choose_spec)
  int n := by
    have h : ∃ m : ℕ, toString m = toString n := ⟨n, rfl⟩
    simp only [convOf, dif_pos h]
    congr 2
    exact natString_inj _ _ h.choose_spec
  notNum x h := by
    have hn : ¬ ∃ y, fmtQ y = "ITEM:" := by
      rintro ⟨y, hy⟩
      exact nat_ne_item _ hy
    simp only [convOf, dif_neg hn] at h
    cases h
  notInt n h := by
    have hn : ¬ ∃ m : ℕ, toString m = "ITEM:" := by
      rintro ⟨m, hm⟩
      exact nat_ne_item _ hm
    simp only [convOf, dif_neg hn] at h
    cases h

/-- Non-vacuity: a tilted box with three atoms of two types. -/
example : ∃ r, readDump (convOf fmtQ) (Spec.lmpDump fmtQ 0
      (Spec.LmpBox.rows ⟨1, 0, -1, 4, 5, 6, -1, 1 / 2, 2⟩) ["xy", "xz", "yz", "pp", "pp", "pp"]
      [(2, ![0, 1, 2]), (1, ![1, 1, 1]), (2, ![3, 0, 0])]) = .ok r ∧
    Spec.LmpDumped (Spec.LmpBox.cell ⟨1, 0, -1, 4, 5, 6, -1, 1 / 2, 2⟩) [(2, ![0, 1, 2]), (1, ![1, 1, 1]), (2, ![3, 0, 0])] r :=
  C116_dump (convOf fmtQ) fmtQ reads_example 0 ⟨1, 0, -1, 4, 5, 6, -1, 1 / 2, 2⟩ _ _ (by norm_num) (by simp) (by simp)

end Verif.LammpsFiles
