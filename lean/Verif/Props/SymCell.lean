import Verif.Model.SymCell
import Verif.Spec.SymCell
import Verif.Props.AtomOrder
import Verif.Props.Supercell
import Verif.Props.ThermoEq
import Mathlib.Tactic.LinearCombination
import Mathlib.Tactic.NormNum

/-!
# C95: refined, standardized and reduced cells
-/

namespace Verif.SymCell
open Verif.Spec Verif.AtomOrder

/-! ## Helper lemmas -/

theorem mapElements_mem {types : List ℕ} {elements : List String} {t : ℕ} {e : String}
    (h : mapElements types elements t = some e) : (t, e) ∈ types.zip elements := by
  simp only [mapElements, Option.map_eq_some_iff] at h
  obtain ⟨a, ha, he⟩ := h
  have h1 := List.mem_of_find?_eq_some ha
  have h2 := List.find?_some ha
  simp only [decide_eq_true_eq] at h2
  rw [← h2, ← he]
  exact List.mem_reverse.mp h1

theorem mapElements_some {types : List ℕ} {elements : List String} (hl : types.length ≤ elements.length) {t : ℕ}
    (h : t ∈ types) : ∃ e, mapElements types elements t = some e := by
  obtain ⟨i, hi, e⟩ := List.mem_iff_getElem.mp h
  have hm : (t, elements[i]) ∈ (types.zip elements).reverse := by
    rw [List.mem_reverse, List.mem_iff_getElem]
    exact ⟨i, by simp; omega, by simp [e]⟩
  cases hf : (types.zip elements).reverse.find? fun p => p.1 = t with
  | none =>
    have := List.find?_eq_none.mp hf _ hm
    simp at this
  | some a => exact ⟨a.2, by simp [mapElements, hf]⟩

/-- The elements that the types have. -/
theorem mapM_elements {types : List ℕ} {elements : List String} (hl : types.length ≤ elements.length)
    (ts : List ℕ) (h : ∀ t ∈ ts, t ∈ types) :
    ∃ es, ts.mapM (fun t => orErr .keyError (mapElements types elements t)) = .ok es ∧
      es = ts.map (fun t => (mapElements types elements t).getD "") ∧
      ∀ a ∈ ts.zip es, a ∈ types.zip elements := by
  refine ⟨_, mapM_except_ok _ (fun t => (mapElements types elements t).getD "") ts ?_, rfl, ?_⟩
  · intro t ht
    obtain ⟨e, he⟩ := mapElements_some hl (h t ht)
    simp [he, orErr]
  · intro a ha
    obtain ⟨i, hi, e⟩ := List.mem_iff_getElem.mp ha
    simp only [List.length_zip, List.length_map, Nat.min_self] at hi
    rw [← e, List.getElem_zip, List.getElem_map]
    obtain ⟨e', he⟩ := mapElements_some hl (h ts[i] (List.getElem_mem hi))
    rw [he]
    exact mapElements_mem he

theorem sum_counts (n : ℕ) (l : List ℕ) (h : ∀ t ∈ l, t < n) :
    ((List.range n).map fun t => l.count t).sum = l.length := by
  have hp := flatMap_filter_perm (fun a : ℕ => a) (List.range n) l List.nodup_range (by simpa using h)
  rw [← hp.length_eq, List.length_flatMap]
  congr 1
  apply List.map_congr_left
  intro t _
  rw [List.count_eq_countP, List.countP_eq_length_filter]
  congr 1

theorem cart_transpose (c : M3 ℝ) (u : V3 ℝ) : cart (transpose c) u =
    ⟨u.x * c.r0.x + u.y * c.r1.x + u.z * c.r2.x, u.x * c.r0.y + u.y * c.r1.y + u.z * c.r2.y,
      u.x * c.r0.z + u.y * c.r1.z + u.z * c.r2.z⟩ := by
  simp only [cart, transpose, V3.mk.injEq]
  refine ⟨?_, ?_, ?_⟩ <;> ring

theorem det_transpose (c : M3 ℝ) : (transpose c).det = c.det := by
  simp only [M3.det, transpose]; ring

/-! ## Refined and standardized cells -/

/-- **C95.** `refine_cell`, of a structure all of whose types are smaller than the number of entries of
`n_atoms`, gives the cell that spglib found (its refined or its standardized one, as asked for, at the given
precision): the same axes, the same types and positions, sorted by type, with the elements that the types have in
the structure, and the number of atoms of each type. -/
theorem C95_refine (spg : Spglib) (st : Structure ℝ) (symprec : ℝ) (standardize : Bool) (c : Cell)
    (hwf : st.WF) (hn : ∀ t ∈ st.types, t < st.nAtoms.length)
    (hc : (if standardize then spg.standardize else spg.refine) ⟨axesAsRows st.axis, st.positions, st.types⟩ symprec
      = some c)
    (hs : c.positions.length = c.types.length) (hsub : ∀ t ∈ c.types, t ∈ st.types) :
    ∃ s r, init none (some st) symprec = .ok s ∧ refineCell spg s standardize = .ok r ∧
      SortedCell st c.lattice c.types c.positions r ∧
      r.nAtoms = (List.range st.nAtoms.length).map fun t => c.types.count t := by
  obtain ⟨w1, w2, w3⟩ := hwf
  have hp := flatMap_filter_perm (fun a : ℕ × V3 ℝ => a.1) (List.range st.nAtoms.length)
    (c.types.zip c.positions) List.nodup_range (by
      intro a ha
      exact List.mem_range.mpr (hn _ (hsub _ (List.of_mem_zip ha).1)))
  have hg : grouped st.nAtoms.length c = (List.range st.nAtoms.length).flatMap
    fun k => (c.types.zip c.positions).filter fun a => a.1 = k := rfl
  rw [← hg] at hp
  generalize hA : grouped st.nAtoms.length c = A at hp hg
  have ht : (A.map Prod.fst).Perm c.types := by
    have := hp.map Prod.fst
    rwa [List.map_fst_zip (by omega)] at this
  obtain ⟨es, he, he', hm⟩ := mapM_elements (types := st.types) (elements := st.elements) (by omega)
    (A.map Prod.fst) (fun t h => hsub t (ht.mem_iff.mp h))
  have hle : es.length = A.length := by simp [he']
  have hcnt : ((List.range st.nAtoms.length).map fun t => (A.map Prod.fst).count t) =
      (List.range st.nAtoms.length).map fun t => c.types.count t :=
    List.map_congr_left fun t _ => ht.count_eq t
  have hsum : ((List.range st.nAtoms.length).map fun t => (A.map Prod.fst).count t).sum = A.length := by
    rw [sum_counts _ _ (fun t h => hn t (hsub t (ht.mem_iff.mp h))), List.length_map]
  refine ⟨⟨st.nAtoms.length, ⟨transpose st.axis, st.positions, st.types⟩, mapElements st.types st.elements, symprec⟩,
    ⟨transpose c.lattice, A.map Prod.snd, (List.range st.nAtoms.length).map fun t => (A.map Prod.fst).count t, es,
      A.map Prod.fst, c.lattice.det, none⟩, rfl, ?_, ⟨?_, ?_, ?_, hm, ?_, rfl⟩, hcnt⟩
  · have hc' : (if standardize = false then spg.refine ⟨transpose st.axis, st.positions, st.types⟩ symprec
        else spg.standardize ⟨transpose st.axis, st.positions, st.types⟩ symprec) = some c := by
      rw [← hc]; cases standardize <;> rfl
    simp only [refineCell, bind, Except.bind, hc', orErr, hA]
    simp only [orErr] at he
    rw [he]
    simp only [Structure.check]
    rw [if_pos]
    simp [hle, hsum]
  · exact cart_transpose _
  · simp only
    rw [List.zip_map']
    simpa using hp
  · simp only
    rw [hg, List.map_flatMap, List.pairwise_flatMap]
    refine ⟨?_, ?_⟩
    · intro t _
      rw [List.pairwise_map]
      refine List.Pairwise.imp_of_mem (R := fun _ _ => True) ?_ (List.pairwise_of_forall (by simp))
      intro a b ha hb _
      have h1 := (List.mem_filter.mp ha).2
      have h2 := (List.mem_filter.mp hb).2
      simp only [decide_eq_true_eq] at h1 h2
      omega
    · refine List.pairwise_lt_range.imp ?_
      intro s t hst x hx y hy
      obtain ⟨a, ha, rfl⟩ := List.mem_map.mp hx
      obtain ⟨b, hb, rfl⟩ := List.mem_map.mp hy
      have h1 := (List.mem_filter.mp ha).2
      have h2 := (List.mem_filter.mp hb).2
      simp only [decide_eq_true_eq] at h1 h2
      omega
  · simp [hle, hsum]

/-- **C95.** When spglib finds no cell, `refine_cell` raises `TypeError`. -/
theorem C95_refine_none (spg : Spglib) (st : Structure ℝ) (symprec : ℝ) (standardize : Bool)
    (hc : (if standardize then spg.standardize else spg.refine) ⟨axesAsRows st.axis, st.positions, st.types⟩ symprec
      = none) :
    ∃ s, init none (some st) symprec = .ok s ∧ refineCell spg s standardize = .error .typeError := by
  refine ⟨⟨st.nAtoms.length, ⟨transpose st.axis, st.positions, st.types⟩, mapElements st.types st.elements, symprec⟩,
    rfl, ?_⟩
  have hc' : (if standardize = false then spg.refine ⟨transpose st.axis, st.positions, st.types⟩ symprec
      else spg.standardize ⟨transpose st.axis, st.positions, st.types⟩ symprec) = none := by
    rw [← hc]; cases standardize <;> rfl
  simp only [refineCell, bind, Except.bind, hc', orErr]

/-- **C95.** A structure read from a file takes the place of the given one, an error of reading the file is
passed on, and without any structure the constructor raises `AttributeError`. -/
theorem C95_init (r : Except Err (Structure ℝ)) (st : Option (Structure ℝ)) (symprec : ℝ) :
    (∀ s, r = .ok s → init (some r) st symprec = init none (some s) symprec) ∧
    (∀ e, r = .error e → init (some r) st symprec = .error e) ∧
    init none none symprec = .error .attributeError := by
  refine ⟨?_, ?_, rfl⟩
  · rintro s rfl; rfl
  · rintro e rfl; rfl

/-- Two atoms of silicon with type 1 and one entry of `n_atoms`. -/
noncomputable def shifted : Structure ℝ :=
  ⟨⟨⟨1, 0, 0⟩, ⟨0, 1, 0⟩, ⟨0, 0, 1⟩⟩, [⟨0, 0, 0⟩, ⟨1 / 2, 1 / 2, 1 / 2⟩], [2], ["Si", "Si"], [1, 1], 1, none⟩

/-- **C95, violation.** Atoms whose type is not smaller than the number of entries of `n_atoms` are lost: a
structure with two atoms of type 1, which spglib returns as it is, comes back without any atom. -/
theorem C95_atoms_lost_violation :
    ∃ s r, shifted.WF ∧ init none (some shifted) 1e-4 = .ok s ∧
      refineCell ⟨fun c _ => some c, fun c _ => some c⟩ s false = .ok r ∧ r.positions = [] := by
  refine ⟨⟨1, ⟨transpose shifted.axis, shifted.positions, shifted.types⟩,
    mapElements shifted.types shifted.elements, 1e-4⟩, ⟨⟨⟨1, 0, 0⟩, ⟨0, 1, 0⟩, ⟨0, 0, 1⟩⟩, [], [0], [], [], 1, none⟩, ?_, rfl, ?_, rfl⟩
  · simp [Structure.WF, shifted]
  · have hg : grouped 1 ⟨transpose shifted.axis, shifted.positions, shifted.types⟩ = [] := by
      simp [grouped, shifted, List.range_succ]
    simp only [refineCell, bind, Except.bind, orErr, if_true, shifted, List.length_singleton] at hg ⊢
    rw [hg]
    simp [Structure.check, pure, Except.pure, transpose, M3.det, List.range_succ]

/-- **C95.** `standardize_cell` gives the cell that spglib found, sorted by type, with the elements that the types
have in the given structure and the number of atoms of each type that occurs, in increasing order. -/
theorem C95_standardize (spg : Spglib) (st : Structure ℝ) (c : Cell) (hwf : st.WF)
    (hc : spg.standardize ⟨axesAsRows st.axis, st.positions, st.types⟩ 1e-5 = some c)
    (hs : c.positions.length = c.types.length) (hsub : ∀ t ∈ c.types, t ∈ st.types) :
    ∃ r, standardizeCell spg st = .ok r ∧ SortedCell st c.lattice c.types c.positions r ∧
      ∃ keys : List ℕ, keys.Pairwise (· < ·) ∧ (∀ t, t ∈ keys ↔ t ∈ c.types) ∧
        r.nAtoms = keys.map fun t => c.types.count t := by
  obtain ⟨w1, w2, w3⟩ := hwf
  obtain ⟨es, he, he', hm⟩ := mapM_elements (types := st.types) (elements := st.elements) (by omega) c.types hsub
  have hle : es.length = c.types.length := by simp [he']
  let m : Structure ℝ := ⟨transpose c.lattice, c.positions, [c.positions.length], es, c.types, (transpose c.lattice).det, none⟩
  have hmw : m.WF := by simp [Structure.WF, m, hle, hs]
  obtain ⟨r, hr, hp, hsort, hk, hrw, hax⟩ := C18_reorder m hmw (by
    intro p hp q hq hpq
    have key : ∀ p ∈ c.types.zip es, p.2 = (mapElements st.types st.elements p.1).getD "" := by
      intro p hp
      obtain ⟨i, hi, e⟩ := List.mem_iff_getElem.mp hp
      rw [List.getElem_zip] at e
      rw [← e]
      simp [he']
    rw [key p hp, key q hq, hpq])
  have hvol : r.volume = c.lattice.det := by
    have : r.volume = m.volume := by
      unfold reorder at hr
      simp only [bind, Except.bind] at hr
      split at hr
      · simp at hr
      · rw [← Except.ok.inj hr]
    rw [this, ← det_transpose]
  refine ⟨r, ?_, ⟨?_, ?_, hsort, ?_, ?_, hvol⟩, hk⟩
  · simp only [standardizeCell, bind, Except.bind]
    rw [show transpose st.axis = axesAsRows st.axis from rfl, hc]
    simp only [orErr]
    simp only [orErr] at he
    rw [he]
    have : Structure.mk' (transpose c.lattice) c.positions [c.positions.length] es c.types = .ok m := by
      simp only [Structure.mk', Structure.check]
      rw [if_pos]
      exact hmw
    simp only [this]
    exact hr
  · intro u
    rw [hax]; exact cart_transpose _ _
  · have h1 : ∀ s : Structure ℝ, s.WF → s.types.zip s.positions = (typedAtoms s).map fun a => (a.1, a.2.2) := by
      intro s hw
      obtain ⟨a1, a2, _⟩ := hw
      apply List.ext_getElem
      · simp [typedAtoms]; omega
      · intro i h1 h2; simp [typedAtoms]
    rw [h1 r hrw]
    have := hp.map fun a => (a.1, a.2.2)
    rwa [← h1 m hmw] at this
  · have h1 : ∀ s : Structure ℝ, s.WF → s.types.zip s.elements = (typedAtoms s).map fun a => (a.1, a.2.1) := by
      intro s hw
      obtain ⟨a1, a2, _⟩ := hw
      apply List.ext_getElem
      · simp [typedAtoms]; omega
      · intro i h1 h2; simp [typedAtoms]
    intro a ha
    rw [h1 r hrw] at ha
    have := (hp.map fun a => (a.1, a.2.1)).mem_iff.mp ha
    rw [← h1 m hmw] at this
    exact hm _ this
  · obtain ⟨a1, a2, a3⟩ := hrw
    omega

/-! ## Reduced cells -/

theorem cart_eq (a : M3 ℝ) (v : V3 ℝ) : cart a v = apply (toMat a) v := by
  simp [cart, apply, toMat]

theorem apply_mul (m n : Matrix (Fin 3) (Fin 3) ℝ) (v : V3 ℝ) : apply (m * n) v = apply m (apply n v) := by
  simp only [apply, Matrix.mul_apply, Fin.sum_univ_three, V3.mk.injEq]
  refine ⟨?_, ?_, ?_⟩ <;> ring

theorem apply_one (v : V3 ℝ) : apply 1 v = v := by simp [apply]

theorem toMat_det (a : M3 ℝ) : (toMat a).det = a.det := by
  rw [Matrix.det_fin_three]
  simp [toMat, M3.det]; ring

/-- Axes that generate a part of another lattice are an integer combination of the other axes. -/
theorem factor (a b : M3 ℝ)
    (h : ∀ x : V3 ℝ, (∃ m : ℤ × ℤ × ℤ, x = cart a ⟨m.1, m.2.1, m.2.2⟩) → ∃ m : ℤ × ℤ × ℤ, x = cart b ⟨m.1, m.2.1, m.2.2⟩) :
    ∃ V : Matrix (Fin 3) (Fin 3) ℤ, toMat a = toMat b * V.map (fun k => (k : ℝ)) := by
  obtain ⟨m0, h0⟩ := h _ ⟨(1, 0, 0), rfl⟩
  obtain ⟨m1, h1⟩ := h _ ⟨(0, 1, 0), rfl⟩
  obtain ⟨m2, h2⟩ := h _ ⟨(0, 0, 1), rfl⟩
  simp only [cart, V3.mk.injEq, Int.cast_one, Int.cast_zero, mul_one, mul_zero, add_zero, zero_add] at h0 h1 h2
  refine ⟨!![m0.1, m1.1, m2.1; m0.2.1, m1.2.1, m2.2.1; m0.2.2, m1.2.2, m2.2.2], ?_⟩
  obtain ⟨a0, a1, a2⟩ := h0
  obtain ⟨b0, b1, b2⟩ := h1
  obtain ⟨c0, c1, c2⟩ := h2
  ext i j
  fin_cases i <;> fin_cases j <;>
    simp [toMat, Matrix.mul_apply, Fin.sum_univ_three, a0, a1, a2, b0, b1, b2, c0, c1, c2]

theorem det_int (V : Matrix (Fin 3) (Fin 3) ℤ) : (V.map (fun k => (k : ℝ))).det = ((V.det : ℤ) : ℝ) := by
  rw [Matrix.det_fin_three, Matrix.det_fin_three]
  simp

/-- Two sets of axes of one lattice span cells of the same volume. -/
theorem volumes (a b : M3 ℝ) (h : SameLattice a b) (ha : a.det ≠ 0) : |b.det| = |a.det| := by
  obtain ⟨V, hV⟩ := factor a b fun x => (h x).mp
  obtain ⟨W, hW⟩ := factor b a fun x => (h x).mpr
  have h1 := congrArg Matrix.det hV
  have h2 := congrArg Matrix.det hW
  rw [Matrix.det_mul, toMat_det, toMat_det, det_int] at h1 h2
  have h3 : ((V.det * W.det : ℤ) : ℝ) = 1 := by
    have : a.det * (((V.det * W.det : ℤ) : ℝ) - 1) = 0 := by
      rw [Int.cast_mul]
      linear_combination -((V.det : ℤ) : ℝ) * h2 - h1
    rcases mul_eq_zero.mp this with h | h
    · exact absurd h ha
    · linarith
  have h4 : V.det * W.det = 1 := by exact_mod_cast h3
  have h5 : |W.det| = 1 := by
    rcases Int.isUnit_iff.mp (isUnit_of_dvd_one ⟨V.det, by rw [mul_comm]; exact h4.symm⟩) with h | h <;> simp [h]
  rw [h2, abs_mul]
  have : |((W.det : ℤ) : ℝ)| = 1 := by exact_mod_cast h5
  rw [this, mul_one]

theorem close_refl (a : ℝ) : close a a = true := by
  simp only [close, sub_self, abs_zero, decide_eq_true_eq]
  positivity

theorem refine_shift (tol : ℝ) (h0 : 0 < tol) (h1 : tol < 1) (v : V3 ℝ) :
    (∃ m : ℤ × ℤ × ℤ, Supercell.refine tol v = shift v m) ∧ Wrapped tol (Supercell.refine tol v) := by
  obtain ⟨⟨k0, e0⟩, b0⟩ := Supercell.refine1_spec tol v.x h0 h1
  obtain ⟨⟨k1, e1⟩, b1⟩ := Supercell.refine1_spec tol v.y h0 h1
  obtain ⟨⟨k2, e2⟩, b2⟩ := Supercell.refine1_spec tol v.z h0 h1
  exact ⟨⟨(k0, k1, k2), by simp [Supercell.refine, shift, e0, e1, e2]⟩, b0, b1, b2⟩

theorem cart_shift (a : M3 ℝ) (v : V3 ℝ) (m : ℤ × ℤ × ℤ) :
    cart a (shift v m) = ⟨(cart a v).x + (cart a ⟨m.1, m.2.1, m.2.2⟩).x,
      (cart a v).y + (cart a ⟨m.1, m.2.1, m.2.2⟩).y, (cart a v).z + (cart a ⟨m.1, m.2.1, m.2.2⟩).z⟩ := by
  simp only [cart, shift, V3.mk.injEq]
  refine ⟨?_, ?_, ?_⟩ <;> ring

/-- **C95.** Reducing the cell of a structure, by either method, when spglib returns axes of the same lattice:
the new axes are those of spglib, the crystal is the same, all the atoms are in the new cell, in the same order
with the same types and elements; each atom is at the place of the old one up to a vector of the lattice; the new
cell has the same volume.  The transformation matrix takes the new coordinates to the old ones and the metric has
the products of the new axes. -/
theorem C95_reduce (niggli delaunay : M3 ℝ → Option (M3 ℝ)) (method : String) (tol : ℝ) (st : Structure ℝ)
    (L : M3 ℝ) (h0 : 0 < tol) (h1 : tol < 1) (hdet : st.axis.det ≠ 0)
    (hL : method = "niggli" ∧ niggli (axesAsRows st.axis) = some L ∨
      method = "delaunay" ∧ delaunay (axesAsRows st.axis) = some L)
    (hsame : SameLattice st.axis (axesAsRows L)) :
    ∃ r st', reduce niggli delaunay st.axis method = .ok r ∧ reduceStructure tol r st = .ok st' ∧
      st'.axis = axesAsRows L ∧ r.reducedAxis = axesAsRows L ∧ crystal st' = crystal st ∧
      (∀ p ∈ st'.positions, Wrapped tol p) ∧ st'.types = st.types ∧ st'.elements = st.elements ∧
      st'.nAtoms = st.nAtoms ∧ st'.volume = st.volume ∧
      List.Forall₂ (fun p q => ∃ m, cart st'.axis q = cart st.axis (shift p m)) st.positions st'.positions ∧
      |st'.axis.det| = |st.axis.det| ∧
      (∀ u : V3 ℝ, cart st.axis ⟨r.tmat 0 0 * u.x + r.tmat 0 1 * u.y + r.tmat 0 2 * u.z,
        r.tmat 1 0 * u.x + r.tmat 1 1 * u.y + r.tmat 1 2 * u.z,
        r.tmat 2 0 * u.x + r.tmat 2 1 * u.y + r.tmat 2 2 * u.z⟩ = cart (axesAsRows L) u) ∧
      (∀ i j : Fin 3, r.metric i j =
        ([L.r0, L.r1, L.r2][i]).x * ([L.r0, L.r1, L.r2][j]).x + ([L.r0, L.r1, L.r2][i]).y * ([L.r0, L.r1, L.r2][j]).y +
          ([L.r0, L.r1, L.r2][i]).z * ([L.r0, L.r1, L.r2][j]).z) := by
  have hvol := volumes _ _ hsame hdet
  have hRd : (axesAsRows L).det ≠ 0 := by
    intro h
    rw [h, abs_zero] at hvol
    exact hdet (abs_eq_zero.mp hvol.symm)
  have hAu : IsUnit (toMat st.axis).det := by rw [toMat_det]; exact isUnit_iff_ne_zero.mpr hdet
  have hRu : IsUnit (toMat (axesAsRows L)).det := by rw [toMat_det]; exact isUnit_iff_ne_zero.mpr hRd
  set T := (toMat st.axis)⁻¹ * toMat (axesAsRows L) with hT
  have hTA : toMat st.axis * T = toMat (axesAsRows L) := by
    rw [hT, ← mul_assoc, Matrix.mul_nonsing_inv _ hAu, one_mul]
  have hTd : T.det ≠ 0 := by
    intro h
    have := congrArg Matrix.det hTA
    rw [Matrix.det_mul, h, mul_zero] at this
    exact hRu.ne_zero this.symm
  have hRT : toMat (axesAsRows L) * T⁻¹ = toMat st.axis := by
    rw [← hTA, mul_assoc, Matrix.mul_nonsing_inv _ (isUnit_iff_ne_zero.mpr hTd), mul_one]
  have hplace : ∀ p : V3 ℝ, ∃ m : ℤ × ℤ × ℤ, Supercell.refine tol (apply T⁻¹ p) = shift (apply T⁻¹ p) m :=
    fun p => (refine_shift tol h0 h1 _).1
  have hback : ∀ p : V3 ℝ, cart (axesAsRows L) (apply T⁻¹ p) = cart st.axis p := by
    intro p
    rw [cart_eq, ← apply_mul, hRT, cart_eq]
  -- images of a position in both cells
  have himg : ∀ (p : V3 ℝ) (k : ℤ × ℤ × ℤ), ∃ m, cart (axesAsRows L) (shift (apply T⁻¹ p) k) = cart st.axis (shift p m) := by
    intro p k
    obtain ⟨m, hm⟩ := (hsame _).mpr ⟨k, rfl⟩
    exact ⟨m, by rw [cart_shift, cart_shift, hback, hm]⟩
  have himg' : ∀ (p : V3 ℝ) (k : ℤ × ℤ × ℤ), ∃ m, cart st.axis (shift p k) = cart (axesAsRows L) (shift (apply T⁻¹ p) m) := by
    intro p k
    obtain ⟨m, hm⟩ := (hsame _).mp ⟨k, rfl⟩
    exact ⟨m, by rw [cart_shift, cart_shift, hback, hm]⟩
  have hss : ∀ (v : V3 ℝ) (m k : ℤ × ℤ × ℤ), shift (shift v m) k = shift v (m.1 + k.1, m.2.1 + k.2.1, m.2.2 + k.2.2) := by
    intro v m k
    simp only [shift, V3.mk.injEq]
    push_cast
    refine ⟨?_, ?_, ?_⟩ <;> ring
  let f : V3 ℝ → V3 ℝ := fun p => Supercell.refine tol (apply T⁻¹ p)
  refine ⟨⟨st.axis, axesAsRows L, T, (toMat (axesAsRows L)).transpose * toMat (axesAsRows L)⟩,
    { st with axis := axesAsRows L, positions := st.positions.map f }, ?_, ?_, rfl, rfl, ?_, ?_, rfl, rfl, rfl, rfl, ?_,
    hvol, ?_, ?_⟩
  · have hA : inv (toMat st.axis) = .ok (toMat st.axis)⁻¹ := by
      simp only [inv]; rw [if_neg hAu.ne_zero]
    rcases hL with ⟨rfl, hL⟩ | ⟨rfl, hL⟩ <;>
      simp only [reduce, bind, Except.bind, orErr, pure, Except.pure, if_true,
        show transpose st.axis = axesAsRows st.axis from rfl, hL, hA] <;> rfl
  · have hi : inv T = .ok T⁻¹ := by simp only [inv]; rw [if_neg hTd]
    simp only [reduceStructure, closeRow, close_refl, Bool.and_self, transform, hi, bind, Except.bind, pure, Except.pure]
    rfl
  · have hta : typedAtoms { st with axis := axesAsRows L, positions := st.positions.map f } =
        (typedAtoms st).map fun a => (a.1, a.2.1, f a.2.2) := by
      simp only [typedAtoms]
      apply List.ext_getElem
      · simp
      · intro i h1 h2; simp
    ext x
    simp only [crystal, Set.mem_setOf_eq, hta]
    constructor
    · rintro ⟨a', ha', k, rfl⟩
      obtain ⟨a, ha, rfl⟩ := List.mem_map.mp ha'
      obtain ⟨m, hm⟩ := hplace a.2.2
      obtain ⟨m', hm'⟩ := himg a.2.2 (m.1 + k.1, m.2.1 + k.2.1, m.2.2 + k.2.2)
      refine ⟨a, ha, m', ?_⟩
      simp only [f]
      rw [hm, hss, hm']
    · rintro ⟨a, ha, k, rfl⟩
      obtain ⟨m, hm⟩ := hplace a.2.2
      obtain ⟨m', hm'⟩ := himg' a.2.2 k
      refine ⟨_, List.mem_map.mpr ⟨a, ha, rfl⟩, (m'.1 - m.1, m'.2.1 - m.2.1, m'.2.2 - m.2.2), ?_⟩
      simp only [f]
      rw [hm, hss, hm']
      simp
  · intro p hp
    obtain ⟨q, _, rfl⟩ := List.mem_map.mp hp
    exact (refine_shift tol h0 h1 _).2
  · simp only
    rw [List.forall₂_map_right_iff, List.forall₂_same]
    intro p _
    obtain ⟨m, hm⟩ := hplace p
    obtain ⟨m', hm'⟩ := himg p m
    exact ⟨m', by simp only [f]; rw [hm, hm']⟩
  · intro u
    have : cart st.axis (apply T u) = cart (axesAsRows L) u := by
      rw [cart_eq, ← apply_mul, hTA, cart_eq]
    exact this
  · intro i j
    fin_cases i <;> fin_cases j <;>
      simp [toMat, axesAsRows, Matrix.mul_apply, Fin.sum_univ_three]

/-- **C95.** A method of another name, axes that spglib cannot reduce, and axes that are linearly dependent are
errors. -/
theorem C95_reduce_errors (niggli delaunay : M3 ℝ → Option (M3 ℝ)) (method : String) (axis : M3 ℝ) :
    (method ≠ "niggli" ∧ method ≠ "delaunay" → reduce niggli delaunay axis method = .error .valueError) ∧
    (method = "niggli" ∧ niggli (axesAsRows axis) = none ∨ method = "delaunay" ∧ delaunay (axesAsRows axis) = none →
      reduce niggli delaunay axis method = .error .attributeError) ∧
    (axis.det = 0 → ∀ r, reduce niggli delaunay axis method ≠ .ok r) := by
  refine ⟨?_, ?_, ?_⟩
  · rintro ⟨h1, h2⟩
    simp [reduce, h1, h2, bind, Except.bind]
  · rintro (⟨rfl, h⟩ | ⟨rfl, h⟩) <;>
      simp [reduce, bind, Except.bind, orErr, show transpose axis = axesAsRows axis from rfl, h]
  · intro h r hr
    have hA : inv (toMat axis) = .error .valueError := by
      simp only [inv]; rw [if_pos (by rw [toMat_det]; exact h)]
    simp only [reduce, bind, Except.bind, hA] at hr
    by_cases m1 : method = "niggli"
    · cases hn : niggli (transpose axis) <;> simp [m1, hn, orErr] at hr
    · by_cases m2 : method = "delaunay"
      · cases hn : delaunay (transpose axis) <;> simp [m2, hn, orErr] at hr
      · simp [m1, m2] at hr

/-- **C95.** A structure whose axes differ from the reduced ones by more than the relative tolerance `1e-5` plus
`1e-8` in any entry is refused. -/
theorem C95_reduce_refused (tol : ℝ) (r : Reduced) (st : Structure ℝ) (a b : ℝ)
    (h : (a, b) ∈ [(st.axis.r0.x, r.axis.r0.x), (st.axis.r0.y, r.axis.r0.y), (st.axis.r0.z, r.axis.r0.z),
      (st.axis.r1.x, r.axis.r1.x), (st.axis.r1.y, r.axis.r1.y), (st.axis.r1.z, r.axis.r1.z),
      (st.axis.r2.x, r.axis.r2.x), (st.axis.r2.y, r.axis.r2.y), (st.axis.r2.z, r.axis.r2.z)])
    (hab : 1e-8 + 1e-5 * |b| < |a - b|) : reduceStructure tol r st = .error .runtimeError := by
  have hc : close a b = false := by
    simp only [close, decide_eq_false_iff_not, not_le]; exact hab
  have : (closeRow st.axis.r0 r.axis.r0 && closeRow st.axis.r1 r.axis.r1 && closeRow st.axis.r2 r.axis.r2) = false := by
    simp only [List.mem_cons, Prod.mk.injEq, List.not_mem_nil, or_false] at h
    rcases h with ⟨rfl, rfl⟩ | ⟨rfl, rfl⟩ | ⟨rfl, rfl⟩ | ⟨rfl, rfl⟩ | ⟨rfl, rfl⟩ | ⟨rfl, rfl⟩ | ⟨rfl, rfl⟩ |
      ⟨rfl, rfl⟩ | ⟨rfl, rfl⟩ <;> simp [closeRow, hc]
  simp only [reduceStructure]
  rw [if_pos this]

/-! ## Violations and examples -/

/-- One atom in a cube with an edge slightly longer than 1. -/
noncomputable def stretched : Structure ℝ :=
  ⟨⟨⟨1 + 1e-6, 0, 0⟩, ⟨0, 1 + 1e-6, 0⟩, ⟨0, 0, 1 + 1e-6⟩⟩, [⟨0, 0, 0⟩], [1], ["Si"], [0], (1 + 1e-6) ^ 3, none⟩

/-- The unit cube. -/
def cube : M3 ℝ := ⟨⟨1, 0, 0⟩, ⟨0, 1, 0⟩, ⟨0, 0, 1⟩⟩

/-- **C95, violation.** A structure whose axes agree with the given ones only up to the tolerance is accepted and
gets the reduced axes of the others: the crystal changes, while its `volume` stays that of the old axes. -/
theorem C95_other_axes_violation (tol : ℝ) (h0 : 0 < tol) (h1 : tol < 1) :
    ∃ r st', reduce some some cube "delaunay" = .ok r ∧ reduceStructure tol r stretched = .ok st' ∧
      crystal st' ≠ crystal stretched ∧ st'.volume ≠ st'.axis.det := by
  have hd : (toMat cube) = 1 := by
    ext i j; fin_cases i <;> fin_cases j <;> simp [toMat, cube]
  have ht : transpose (transpose cube) = cube := by simp [transpose, cube]
  have hi : inv (1 : Matrix (Fin 3) (Fin 3) ℝ) = .ok 1 := by
    simp [inv]
  have hcl : close (1 + 1e-6) 1 = true := by
    simp only [close, decide_eq_true_eq]
    rw [abs_le]
    norm_num
  have hr0 : ∃ m : ℤ × ℤ × ℤ, Supercell.refine tol ⟨0, 0, 0⟩ = (⟨m.1, m.2.1, m.2.2⟩ : V3 ℝ) := by
    obtain ⟨m, hm⟩ := (refine_shift tol h0 h1 ⟨0, 0, 0⟩).1
    exact ⟨m, by rw [hm]; simp [shift]⟩
  obtain ⟨m, hm⟩ := hr0
  refine ⟨⟨cube, cube, 1, 1⟩, { stretched with axis := cube, positions := [⟨m.1, m.2.1, m.2.2⟩] }, ?_, ?_, ?_, ?_⟩
  · simp [reduce, bind, Except.bind, orErr, pure, Except.pure, ht, hd, hi]
  · have hcr : (closeRow stretched.axis.r0 cube.r0 && closeRow stretched.axis.r1 cube.r1 &&
        closeRow stretched.axis.r2 cube.r2) = true := by
      simp [closeRow, stretched, cube, hcl, close_refl]
    simp [reduceStructure, hcr, transform, hi, bind, Except.bind, pure, Except.pure]
    simp [stretched, apply_one, hm]
  · intro he
    have h2 : ((0 : ℕ), "Si", (⟨1, 0, 0⟩ : V3 ℝ)) ∈
        crystal { stretched with axis := cube, positions := [⟨m.1, m.2.1, m.2.2⟩] } := by
      refine ⟨(0, "Si", ⟨m.1, m.2.1, m.2.2⟩), by simp [typedAtoms, stretched], (1 - m.1, - m.2.1, - m.2.2), ?_⟩
      simp [cart, shift, cube]
    rw [he] at h2
    obtain ⟨a, ha, k, hk⟩ := h2
    simp only [typedAtoms, stretched, List.zip_cons_cons, List.zip_nil_right, List.mem_singleton] at ha
    subst ha
    simp only [cart, shift, stretched, Prod.mk.injEq, V3.mk.injEq, true_and] at hk
    have h3 := hk.1
    have h4 : (1000000 : ℝ) = 1000001 * (k.1 : ℝ) := by
      norm_num at h3
      linarith
    have h5 : (1000000 : ℤ) = 1000001 * k.1 := by exact_mod_cast h4
    omega
  · simp [stretched, cube, M3.det]
    norm_num

/-- The hypotheses hold: a sheared cell of the cubic lattice is reduced to the cube. -/
example : SameLattice ⟨⟨1, 3, 0⟩, ⟨0, 1, 0⟩, ⟨0, 0, 1⟩⟩ (axesAsRows cube) ∧
    (⟨⟨1, 3, 0⟩, ⟨0, 1, 0⟩, ⟨0, 0, 1⟩⟩ : M3 ℝ).det ≠ 0 := by
  refine ⟨?_, by norm_num [M3.det]⟩
  intro x
  constructor
  · rintro ⟨m, rfl⟩
    exact ⟨(m.1 + 3 * m.2.1, m.2.1, m.2.2), by simp [cart, axesAsRows, cube]⟩
  · rintro ⟨m, rfl⟩
    exact ⟨(m.1 - 3 * m.2.1, m.2.1, m.2.2), by simp [cart, axesAsRows, cube]⟩

/-- Rock salt with its types out of order, as spglib may return it. -/
example : ∃ s r, init none (some ⟨cube, [⟨0, 0, 0⟩, ⟨0, 0, 1 / 2⟩], [1, 1], ["Mg", "O"], [0, 1], 1, none⟩) 1e-4 = .ok s ∧
    refineCell ⟨fun c _ => some ⟨c.lattice, c.positions.reverse, [1, 0]⟩, fun _ _ => none⟩ s false = .ok r ∧
      SortedCell ⟨cube, [⟨0, 0, 0⟩, ⟨0, 0, 1 / 2⟩], [1, 1], ["Mg", "O"], [0, 1], 1, none⟩ cube [1, 0]
        [⟨0, 0, 1 / 2⟩, ⟨0, 0, 0⟩] r := by
  obtain ⟨s, r, h1, h2, h3, _⟩ := C95_refine ⟨fun c _ => some ⟨c.lattice, c.positions.reverse, [1, 0]⟩, fun _ _ => none⟩
    ⟨cube, [⟨0, 0, 0⟩, ⟨0, 0, 1 / 2⟩], [1, 1], ["Mg", "O"], [0, 1], 1, none⟩ 1e-4 false
    ⟨cube, [⟨0, 0, 1 / 2⟩, ⟨0, 0, 0⟩], [1, 0]⟩ (by simp [Structure.WF]) (by simp)
    (by simp [axesAsRows, cube]) (by simp) (by simp)
  exact ⟨s, r, h1, h2, h3⟩

end Verif.SymCell
