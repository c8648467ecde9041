import Verif.Spec.Ase
import Verif.Props.StrGen
import Mathlib.Tactic.FieldSimp
import Mathlib.Data.Fin.VecNotation

/-! # Conversion to and from ASE (C90) -/

namespace Verif.Ase
open Verif.StrGen (Vec Mat Str toDisplacements rint rint_spec)
open Verif.Spec

/-! ## Numbers of atoms and types -/

theorem blockTypes_length (i : ℕ) (ns : List ℕ) : (blockTypes i ns).length = ns.sum := by
  induction ns generalizing i with
  | nil => rfl
  | cons n ns ih => simp [blockTypes, ih]

theorem eraseDups_filter {α : Type} [BEq α] [LawfulBEq α] (p : α → Bool) (l : List α) :
    (l.filter p).eraseDups = l.eraseDups.filter p := by
  induction h : l.length using Nat.strong_induction_on generalizing l with
  | _ n ih =>
    cases l with
    | nil => simp
    | cons a l =>
      have hlen : (l.filter fun b => !b == a).length < n := by
        rw [← h]
        exact Nat.lt_succ_of_le (List.length_filter_le _ _)
      rw [List.eraseDups_cons]
      by_cases ha : p a
      · rw [List.filter_cons_of_pos ha, List.filter_cons_of_pos ha, List.eraseDups_cons, ← ih _ hlen _ rfl]
        congr 2
        rw [List.filter_filter, List.filter_filter]
        congr 1
        funext x
        exact Bool.and_comm _ _
      · rw [List.filter_cons_of_neg ha, List.filter_cons_of_neg ha, ← ih _ hlen _ rfl]
        congr 1
        rw [List.filter_filter]
        refine (List.filter_congr fun x _ => ?_)
        by_cases hx : x = a
        · subst hx; simp [ha]
        · simp [hx]

/-- The numbers of atoms of all elements add up to the number of atoms. -/
theorem counts_sum (l : List String) : (l.eraseDups.map fun e => l.count e).sum = l.length := by
  induction h : l.length using Nat.strong_induction_on generalizing l with
  | _ n ih =>
    cases l with
    | nil => simpa using h
    | cons a l =>
      have hlen : (l.filter fun b => !b == a).length < n := by
        rw [← h]
        exact Nat.lt_succ_of_le (List.length_filter_le _ _)
      rw [List.eraseDups_cons, List.map_cons, List.sum_cons]
      have hm : (l.filter fun b => !b == a).eraseDups.map (fun e => (a :: l).count e)
          = (l.filter fun b => !b == a).eraseDups.map (fun e => (l.filter fun b => !b == a).count e) := by
        refine List.map_congr_left fun e he => ?_
        rw [List.mem_eraseDups, List.mem_filter] at he
        have hne : e ≠ a := by simpa using he.2
        rw [List.count_cons_of_ne (Ne.symm hne), List.count_filter (by simpa using hne)]
      rw [hm, ih _ hlen _ rfl, List.count_cons_self, ← h, List.length_cons]
      have := List.length_eq_countP_add_countP (fun b => b == a) (l := l)
      rw [List.countP_eq_length_filter (p := fun b => decide ¬(b == a) = true)] at this
      have e2 : (l.filter fun b => decide ¬(b == a) = true) = l.filter fun b => !b == a := by
        refine List.filter_congr fun x _ => ?_
        by_cases hx : x = a <;> simp [hx]
      rw [e2] at this
      have e3 : l.countP (fun b => b == a) = l.count a := rfl
      omega

theorem nodup_eraseDups (l : List String) : l.eraseDups.Nodup := by
  induction h : l.length using Nat.strong_induction_on generalizing l with
  | _ n ih =>
    cases l with
    | nil => simp
    | cons a l =>
      have hlen : (l.filter fun b => !b == a).length < n := by
        rw [← h]
        exact Nat.lt_succ_of_le (List.length_filter_le _ _)
      rw [List.eraseDups_cons, List.nodup_cons]
      refine ⟨?_, ih _ hlen _ rfl⟩
      rw [List.mem_eraseDups, List.mem_filter]
      simp

/-- A list in which equal elements stand together begins with all copies of its first element. -/
theorem together_cons (a : String) (l : List String) (h : Together (a :: l)) :
    a :: l = List.replicate ((a :: l).count a) a ++ l.filter (fun b => !b == a) ∧
      Together (l.filter fun b => !b == a) := by
  induction l with
  | nil => exact ⟨by simp, by intro i j k e f _ _ hi; simp at hi⟩
  | cons b l ih =>
    by_cases hb : b = a
    · subst hb
      have h' : Together (b :: l) := by
        intro i j k e f hij hjk hi hj hk
        exact h (i + 1) (j + 1) (k + 1) e f (by omega) (by omega) (by simpa using hi) (by simpa using hj) (by simpa using hk)
      obtain ⟨i1, i2⟩ := ih h'
      refine ⟨?_, by simpa using i2⟩
      rw [List.count_cons_self, List.replicate_succ, List.cons_append]
      congr 1
      simpa using i1
    · have hno : a ∉ l := by
        intro hm
        obtain ⟨k, hk⟩ := List.mem_iff_getElem?.1 hm
        exact hb (h 0 1 (k + 2) a b (by omega) (by omega) (by simp) (by simp) (by simpa using hk))
      have hf : (b :: l).filter (fun c => !c == a) = b :: l := by
        rw [List.filter_eq_self]
        intro x hx
        rcases List.mem_cons.1 hx with rfl | hx
        · simpa using hb
        · simpa using fun hxa : x = a => hno (hxa ▸ hx)
      rw [hf]
      refine ⟨?_, ?_⟩
      · have : (a :: b :: l).count a = 1 := by
          rw [List.count_cons_self, List.count_cons_of_ne hb, List.count_eq_zero_of_not_mem hno]
        rw [this]
        rfl
      · intro i j k e f hij hjk hi hj hk
        exact h (i + 1) (j + 1) (k + 1) e f (by omega) (by omega) (by simpa using hi) (by simpa using hj) (by simpa using hk)

/-- The types from number `i` on, if equal elements stand together. -/
theorem types_get (l : List String) (h : Together l) (i : ℕ) (k : ℕ) (e : String) (hk : l[k]? = some e) :
    ∃ t, (blockTypes i (l.eraseDups.map fun e => l.count e))[k]? = some (i + t) ∧ l.eraseDups[t]? = some e := by
  induction hn : l.length using Nat.strong_induction_on generalizing l i k with
  | _ n ih =>
    cases l with
    | nil => simp at hk
    | cons a l =>
      have hlen : (l.filter fun b => !b == a).length < n := by
        rw [← hn]
        exact Nat.lt_succ_of_le (List.length_filter_le _ _)
      obtain ⟨e1, e2⟩ := together_cons a l h
      have hm : (l.filter fun b => !b == a).eraseDups.map (fun e => (a :: l).count e)
          = (l.filter fun b => !b == a).eraseDups.map (fun e => (l.filter fun b => !b == a).count e) := by
        refine List.map_congr_left fun e he => ?_
        rw [List.mem_eraseDups, List.mem_filter] at he
        have hne : e ≠ a := by simpa using he.2
        rw [List.count_cons_of_ne (Ne.symm hne), List.count_filter (by simpa using hne)]
      rw [List.eraseDups_cons, List.map_cons, blockTypes, hm]
      rw [e1] at hk
      by_cases hlt : k < (a :: l).count a
      · rw [List.getElem?_append_left (by simpa using hlt), List.getElem?_replicate, if_pos hlt] at hk
        obtain rfl := Option.some.inj hk
        refine ⟨0, ?_, by simp⟩
        rw [List.getElem?_append_left (by simpa using hlt), List.getElem?_replicate, if_pos hlt]
        rfl
      · rw [List.getElem?_append_right (by simpa using hlt), List.length_replicate] at hk
        obtain ⟨t, h1, h2⟩ := ih _ hlen _ e2 (i + 1) _ hk rfl
        refine ⟨t + 1, ?_, by simpa using h2⟩
        rw [List.getElem?_append_right (by simpa using hlt), List.length_replicate, h1]
        congr 1
        omega

/-! ## Positions -/

theorem scaled_ok (a : Atoms) (h : a.cell.det ≠ 0) :
    scaledPositions a = .ok (a.positions.map fun x => fun i => Int.fract ((a.cell.transpose)⁻¹.mulVec x i)) := by
  rw [scaledPositions, if_neg h]

theorem inv_mul (A : Mat) (h : A.det ≠ 0) (p : Vec) : A⁻¹.mulVec (A.mulVec p) = p := by
  rw [Matrix.mulVec_mulVec, Matrix.nonsing_inv_mul _ (Ne.isUnit h), Matrix.one_mulVec]

theorem mul_inv (A : Mat) (h : A.det ≠ 0) (p : Vec) : A.mulVec (A⁻¹.mulVec p) = p := by
  rw [Matrix.mulVec_mulVec, Matrix.mul_nonsing_inv _ (Ne.isUnit h), Matrix.one_mulVec]

theorem numbers_ok (t : Tables) (es : List String) (h : ∀ e ∈ es, t.number e ≠ none) :
    ∃ ns, es.mapM (fun e => orErr Err.keyError (t.number e)) = .ok ns ∧ List.Forall₂ (fun e n => t.number e = some n) es ns := by
  induction es with
  | nil => exact ⟨[], rfl, .nil⟩
  | cons e es ih =>
    obtain ⟨ns, h1, h2⟩ := ih fun e' he' => h e' (List.mem_cons_of_mem _ he')
    obtain ⟨n, hn⟩ := Option.ne_none_iff_exists'.1 (h e (by simp))
    refine ⟨n :: ns, ?_, .cons hn h2⟩
    rw [List.mapM_cons, h1, hn]
    rfl

theorem numbers_error (t : Tables) (es : List String) (e : String) (he : e ∈ es) (h : t.number e = none) :
    es.mapM (fun e => orErr Err.keyError (t.number e)) = .error .keyError := by
  induction es with
  | nil => simp at he
  | cons e' es ih =>
    rw [List.mapM_cons]
    cases h1 : t.number e' with
    | none => rfl
    | some n =>
      rcases List.mem_cons.1 he with rfl | he
      · rw [h] at h1; cases h1
      · rw [ih he]; rfl

/-- C90: a structure can be given to ASE if and only if all its elements are known there; the atoms have the axes of the
structure as rows, the numbers of its elements and the Cartesian positions of its atoms, in the same order. -/
theorem C90_to_ase (t : Tables) (st : Str) :
    (∀ a, toAtoms t st = .ok a → (∀ i j, a.cell i j = st.axis j i) ∧
      List.Forall₂ (fun e n => t.number e = some n) st.elements a.numbers ∧
      List.Forall₂ (fun p x => ∀ i, x i = ∑ k, st.axis i k * p k) st.positions a.positions) ∧
    ((∃ a, toAtoms t st = .ok a) ↔ ∀ e ∈ st.elements, t.number e ≠ none) ∧
    ((∃ e ∈ st.elements, t.number e = none) → toAtoms t st = .error .keyError) := by
  have hpos : List.Forall₂ (fun (p x : Vec) => ∀ i, x i = ∑ k, st.axis i k * p k) st.positions
      (st.positions.map fun p => st.axis.transpose.vecMul p) := by
    rw [List.forall₂_map_right_iff, List.forall₂_same]
    intro p _ i
    rw [Matrix.vecMul_transpose]
    rfl
  have herr : (∃ e ∈ st.elements, t.number e = none) → toAtoms t st = .error .keyError := by
    rintro ⟨e, he, h⟩
    rw [toAtoms, numbers_error t _ e he h]
    rfl
  refine ⟨?_, ⟨?_, ?_⟩, herr⟩
  · intro a ha
    by_cases hk : ∀ e ∈ st.elements, t.number e ≠ none
    · obtain ⟨ns, h1, h2⟩ := numbers_ok t _ hk
      rw [toAtoms, h1] at ha
      obtain rfl := Except.ok.inj ha
      exact ⟨fun i j => rfl, h2, hpos⟩
    · push Not at hk
      rw [herr hk] at ha
      cases ha
  · rintro ⟨a, ha⟩ e he hn
    rw [herr ⟨e, he, hn⟩] at ha
    cases ha
  · intro hk
    obtain ⟨ns, h1, h2⟩ := numbers_ok t _ hk
    exact ⟨_, by rw [toAtoms, h1]; rfl⟩

theorem symbols_of (t : Tables) (ht : SameElements t) (es : List String) (ns : List ℕ)
    (h : List.Forall₂ (fun e n => t.number e = some n) es ns) : ns.map t.symbol = es := by
  induction h with
  | nil => rfl
  | cons h _ ih => rw [List.map_cons, ih, ht _ _ h]

theorem sites (A : Mat) (h : A.det ≠ 0) (ps : List Vec) :
    List.Forall₂ (fun (p q : Vec) => SiteEq p q ∧ ∀ i, 0 ≤ q i ∧ q i < 1) ps
      ((ps.map fun p => A.transpose.vecMul p).map fun x => fun i => Int.fract (A⁻¹.mulVec x i)) := by
  rw [List.map_map, List.forall₂_map_right_iff, List.forall₂_same]
  intro p _
  rw [Function.comp_apply, Matrix.vecMul_transpose, inv_mul A h]
  refine ⟨⟨fun i => -⌊p i⌋, fun i => ?_⟩, fun i => ⟨Int.fract_nonneg _, Int.fract_lt_one _⟩⟩
  have := Int.floor_add_fract (p i)
  push_cast
  linarith

/-- C90: a structure that comes back from ASE has the same axes and elements; its atoms are in the same order, at the same
sites, wrapped into the cell. -/
theorem C90_round_trip (t : Tables) (ht : SameElements t) (st : Str) (hdet : st.axis.det ≠ 0)
    (hk : ∀ e ∈ st.elements, t.number e ≠ none) (hl : st.elements.length = st.positions.length) :
    ∃ a st', toAtoms t st = .ok a ∧ fromAtoms t a = .ok st' ∧ st'.axis = st.axis ∧ st'.elements = st.elements ∧
      List.Forall₂ (fun p q => SiteEq p q ∧ ∀ i, 0 ≤ q i ∧ q i < 1) st.positions st'.positions ∧
      st'.volume = |st.axis.det| ∧ st'.nAtoms.sum = st'.elements.length ∧ st'.types.length = st'.elements.length ∧
      st'.positions.length = st'.elements.length := by
  obtain ⟨ns, h1, h2⟩ := numbers_ok t _ hk
  have hs := symbols_of t ht _ _ h2
  refine ⟨⟨st.axis.transpose, ns, st.positions.map fun p => st.axis.transpose.vecMul p⟩,
    ⟨st.axis, (st.positions.map fun p => st.axis.transpose.vecMul p).map fun x => fun i => Int.fract (st.axis⁻¹.mulVec x i),
      st.elements.eraseDups.map fun e => st.elements.count e, st.elements,
      blockTypes 0 (st.elements.eraseDups.map fun e => st.elements.count e), |st.axis.det|, none, none, none⟩,
    by rw [toAtoms, h1]; rfl, ?_, rfl, rfl, sites _ hdet _, rfl, counts_sum _, ?_, ?_⟩
  · rw [fromAtoms, scaled_ok _ (by simpa using hdet), hs, Matrix.transpose_transpose, Matrix.det_transpose]
    rfl
  · exact (blockTypes_length _ _).trans (counts_sum _)
  · simp [hl]

/-- C90: atoms that come back from ASE have numbers of atoms for the elements in the order of first appearance; if atoms of an
element are listed together, the types of two atoms are equal if and only if their elements are, and the type of an atom
selects its element and the number of its atoms. -/
theorem C90_types_partial (t : Tables) (a : Atoms) (st : Str) (h : fromAtoms t a = .ok st) (hg : Together st.elements) :
    ∀ (j k : ℕ) (e f : String), st.elements[j]? = some e → st.elements[k]? = some f →
      ∃ u v, st.types[j]? = some u ∧ st.types[k]? = some v ∧ (u = v ↔ e = f) ∧
        st.nAtoms[u]? = some (st.elements.count e) := by
  rw [fromAtoms] at h
  by_cases hd : a.cell.det = 0
  · rw [scaledPositions, if_pos hd] at h; cases h
  rw [scaled_ok _ hd] at h
  obtain rfl := Except.ok.inj h
  intro j k e f hj hk
  obtain ⟨u, u1, u2⟩ := types_get _ hg 0 j e hj
  obtain ⟨v, v1, v2⟩ := types_get _ hg 0 k f hk
  simp only [Nat.zero_add] at u1 v1
  refine ⟨u, v, u1, v1, ⟨?_, ?_⟩, ?_⟩
  · rintro rfl
    rw [u2] at v2
    exact Option.some.inj v2
  · rintro rfl
    have hnd := nodup_eraseDups (a.numbers.map t.symbol)
    obtain ⟨hu, eu⟩ := List.getElem?_eq_some_iff.1 u2
    obtain ⟨hv, ev⟩ := List.getElem?_eq_some_iff.1 v2
    exact (List.Nodup.getElem_inj_iff hnd).1 (eu.trans ev.symm)
  · simp only [List.getElem?_map, u2, Option.map_some]

/-- Hypotheses of `C90_types_partial`. -/
example : Together ["Mg", "Mg", "O"] := by
  intro i j k e f hij hjk hi hj hk
  have : k < 3 := by
    by_contra hc
    rw [List.getElem?_eq_none (by simpa using hc)] at hk
    cases hk
  obtain rfl : k = 2 := by omega
  obtain rfl : j = 1 := by omega
  obtain rfl : i = 0 := by omega
  simp at hi hj hk
  rw [← hi, ← hj]

/-- C90 does not hold for atoms of one element that are not listed together: the types do not follow the elements. -/
theorem C90_types_violation : ∃ (t : Tables) (a : Atoms) (st : Str), SameElements t ∧ fromAtoms t a = .ok st ∧
    st.elements = ["Mg", "O", "Mg"] ∧ st.types = [0, 0, 1] ∧ st.nAtoms = [2, 1] := by
  refine ⟨⟨fun e => if e = "Mg" then some 12 else if e = "O" then some 8 else none, fun n => if n = 12 then "Mg" else "O"⟩,
    ⟨1, [12, 8, 12], [0, 0, 0]⟩, _, ?_, by rw [fromAtoms, scaled_ok _ (by simp)]; rfl, ?_, ?_, ?_⟩
  · intro e n h
    by_cases h1 : e = "Mg"
    · simp only [h1, if_true, Option.some.injEq] at h
      simp [h1, ← h]
    · by_cases h2 : e = "O"
      · subst h2
        simp at h
        simp [← h]
      · simp [h1, h2] at h
  · rfl
  · decide +kernel
  · decide +kernel

/-- C90: atoms of ASE that are converted and given back have the same cell and elements, and the same positions up to
translations of the lattice. -/
theorem C90_atoms (t : Tables) (ht : SameElements t) (a : Atoms) (hdet : a.cell.det ≠ 0)
    (hk : ∀ n ∈ a.numbers, t.number (t.symbol n) ≠ none) :
    ∃ st a', fromAtoms t a = .ok st ∧ toAtoms t st = .ok a' ∧ a'.cell = a.cell ∧
      a'.numbers.map t.symbol = a.numbers.map t.symbol ∧
      List.Forall₂ (fun x y => ∃ k : Fin 3 → ℤ, ∀ i, y i = x i + ∑ j, k j * a.cell j i) a.positions a'.positions := by
  obtain ⟨ns, h1, h2⟩ := numbers_ok t (a.numbers.map t.symbol) (by simpa using hk)
  refine ⟨_, ⟨a.cell, ns, (a.positions.map fun x => fun i => Int.fract ((a.cell.transpose)⁻¹.mulVec x i)).map fun p =>
      a.cell.transpose.transpose.vecMul p⟩, by rw [fromAtoms, scaled_ok _ hdet]; rfl, ?_, rfl, symbols_of t ht _ _ h2, ?_⟩
  · rw [toAtoms, h1]
    rfl
  · rw [List.map_map, List.forall₂_map_right_iff, List.forall₂_same]
    intro x _
    refine ⟨fun j => -⌊(a.cell.transpose)⁻¹.mulVec x j⌋, fun i => ?_⟩
    have hx : a.cell.transpose.mulVec ((a.cell.transpose)⁻¹.mulVec x) = x := mul_inv _ (by simpa using hdet) x
    have hi : ∑ j, a.cell j i * (a.cell.transpose)⁻¹.mulVec x j = x i := congrFun hx i
    rw [Function.comp_apply, Matrix.transpose_transpose]
    simp only [Matrix.vecMul, dotProduct, Int.fract]
    rw [← hi, ← Finset.sum_add_distrib]
    refine Finset.sum_congr rfl fun j _ => ?_
    push_cast
    ring

/-! ## Calculators -/

/-- C90: the energy, forces and stress that the calculator stores for the atoms of a structure are those of the potential for
that structure, for every potential that depends on axes, elements and sites of atoms only. -/
theorem C90_calculate (t : Tables) (ht : SameElements t) (eval : Str → Except Err Evaluated) (he : PeriodicPot eval) (st : Str)
    (hdet : st.axis.det ≠ 0) (hk : ∀ e ∈ st.elements, t.number e ≠ none) (hl : st.elements.length = st.positions.length) :
    ∃ a, toAtoms t st = .ok a ∧ calculate t eval a = eval st := by
  obtain ⟨a, st', h1, h2, h3, h4, h5, -⟩ := C90_round_trip t ht st hdet hk hl
  refine ⟨a, h1, ?_⟩
  rw [calculate, h2]
  exact he st' st h3 h4 (h5.flip.imp fun q p h => by
    obtain ⟨k, hk⟩ := h.1
    exact ⟨fun i => -k i, fun i => by rw [hk i]; push_cast; ring⟩)

/-- Hypotheses of `C90_calculate`: a potential that is zero at the corner of the cell. -/
example : PeriodicPot fun st => .ok ⟨(st.positions.map fun p => Real.sin (2 * Real.pi * p 0)).sum, [], 0⟩ := by
  intro st st' _ _ h
  have : (st.positions.map fun p => Real.sin (2 * Real.pi * p 0)) = st'.positions.map fun p => Real.sin (2 * Real.pi * p 0) := by
    generalize st.positions = l at h
    generalize st'.positions = l' at h
    induction h with
    | nil => rfl
    | cons h _ ih =>
      obtain ⟨k, hk⟩ := h
      rw [List.map_cons, List.map_cons, ih, hk 0]
      congr 1
      rw [mul_add, mul_comm (2 * Real.pi) (k 0 : ℝ), Real.sin_add_int_mul_two_pi]
  simp only [this]

/-- C90: the displacements that the harmonic reference uses for atoms that are displaced from its structure by given
Cartesian vectors are these vectors, if they are less than half of the axes in fractional coordinates.  Positions may have
left the cell. -/
theorem C90_displacements (t : Tables) (origin : Str) (hdet : origin.axis.det ≠ 0) (a : Atoms)
    (hc : a.cell = origin.axis.transpose) (us : List Vec) (hl : us.length = origin.positions.length)
    (ha : a.positions = List.zipWith (fun p u => origin.axis.mulVec p + u) origin.positions us)
    (hu : ∀ u ∈ us, ∀ i, |origin.axis⁻¹.mulVec u i| < 1 / 2) :
    disps t a origin = .ok us := by
  have hd : a.cell.det ≠ 0 := by rw [hc, Matrix.det_transpose]; exact hdet
  rw [disps, fromAtoms, scaled_ok _ hd]
  refine congrArg Except.ok ?_
  rw [toDisplacements]
  simp only [ha, hc, Matrix.transpose_transpose]
  generalize origin.positions = ps at hl
  clear ha
  induction ps generalizing us with
  | nil => cases us with
    | nil => rfl
    | cons u us => simp at hl
  | cons p ps ih => cases us with
    | nil => simp at hl
    | cons u us =>
      rw [List.zipWith_cons_cons, List.map_cons, List.zipWith_cons_cons]
      congr 1
      · have hw : origin.axis⁻¹.mulVec (origin.axis.mulVec p + u) = p + origin.axis⁻¹.mulVec u := by
          rw [Matrix.mulVec_add, inv_mul _ hdet]
        rw [hw]
        refine Eq.trans ?_ (mul_inv origin.axis hdet u)
        congr 1
        funext i
        have hi := hu u (by simp) i
        set w := origin.axis⁻¹.mulVec u i with hwi
        have e1 : Int.fract ((p + origin.axis⁻¹.mulVec u) i) - p i = w - ⌊p i + w⌋ := by
          rw [Pi.add_apply, ← hwi, Int.fract]; ring
        rw [e1]
        have e2 : rint (w - (⌊p i + w⌋ : ℝ)) = -⌊p i + w⌋ := by
          have hr := (rint_spec (w - (⌊p i + w⌋ : ℝ))).1
          generalize rint (w - (⌊p i + w⌋ : ℝ)) = r at hr ⊢
          generalize ⌊p i + w⌋ = n at hr ⊢
          rw [abs_le] at hr
          rw [abs_lt] at hi
          have l1 : (r + n : ℤ) < 1 := by
            have : ((r + n : ℤ) : ℝ) < 1 := by push_cast; linarith [hr.1, hi.2]
            exact_mod_cast this
          have l2 : (-1 : ℤ) < r + n := by
            have : (-1 : ℝ) < ((r + n : ℤ) : ℝ) := by push_cast; linarith [hr.2, hi.1]
            exact_mod_cast this
          omega
        rw [e2]
        push_cast
        ring
      · exact ih us (fun v hv => hu v (List.mem_cons_of_mem _ hv)) (by simpa using hl)

/-- Hypotheses of `C90_displacements`: an atom that leaves a cubic cell. -/
example (t : Tables) : disps t ⟨1, [12], [![-1 / 10, 0, 0]]⟩ ⟨1, [0], [1], ["Mg"], [0], 1, none, none, none⟩ =
    .ok [![-1 / 10, 0, 0]] := by
  refine C90_displacements t _ (by simp) _ (by simp) _ rfl (by simp) ?_
  intro u hu i
  obtain rfl := List.mem_singleton.1 hu
  simp only [inv_one, Matrix.one_mulVec]
  fin_cases i <;> simp <;> norm_num

/-- C90: the average displacement of atoms displaced equally in all directions is that distance. -/
theorem C90_average (ds : List Vec) (hne : ds ≠ []) (x : ℝ) (hx : 0 ≤ x) (h : ∀ d ∈ ds, ∀ i, |d i| = x) :
    averageDisplacement ds = x := by
  have e : (ds.map fun d => ∑ i, d i ^ 2) = ds.map fun _ => 3 * x ^ 2 := by
    refine List.map_congr_left fun d hd => ?_
    rw [Fin.sum_univ_three, ← sq_abs (d 0), ← sq_abs (d 1), ← sq_abs (d 2), h d hd, h d hd, h d hd]
    ring
  have hl : (ds.length : ℝ) ≠ 0 := by
    exact_mod_cast fun h => hne (List.length_eq_zero_iff.1 h)
  rw [averageDisplacement, e, List.map_const', List.sum_replicate, nsmul_eq_mul]
  rw [show (ds.length : ℝ) * (3 * x ^ 2) / (3 * ds.length) = x ^ 2 by field_simp]
  exact Real.sqrt_sq hx

/-- C90 does not hold for the stress: what the calculator stores is what ASE asks for only if the structure is free of
stress.  It is the negative derivative per cell, not the derivative per volume, and shear components are in another order. -/
theorem C90_stress_violation (t : Tables) (eval : Str → Except Err Evaluated) (a : Atoms) (st : Str) (v r : Evaluated)
    (hst : fromAtoms t a = .ok st) (hv : eval st = .ok v) (hr : calculate t eval a = .ok r) (dE : Fin 3 → Fin 3 → ℝ)
    (hE : VirialStress dE v.stress) (V : ℝ) (hV : 0 < V) :
    AseStress dE V r.stress ↔ dE 0 0 = 0 ∧ dE 1 1 = 0 ∧ dE 2 2 = 0 ∧ dE 0 1 = 0 ∧ dE 1 2 = 0 ∧ dE 0 2 = 0 := by
  rw [calculate, hst] at hr
  have : v = r := Except.ok.inj (hv.symm.trans hr)
  subst this
  obtain ⟨h0, h1, h2, h3, h4, h5⟩ := hE
  unfold AseStress
  rw [h0, h1, h2, h3, h4, h5]
  constructor
  · rintro ⟨g0, g1, g2, g3, g4, g5⟩
    rw [eq_div_iff hV.ne'] at g0 g1 g2 g3 g4 g5
    have hd : ∀ x : ℝ, -x * V = x → x = 0 := fun x hx => by
      have : x * (V + 1) = 0 := by linarith
      rcases mul_eq_zero.1 this with h | h
      · exact h
      · linarith
    have hs : ∀ x y z : ℝ, -x * V = y → -y * V = z → -z * V = x → x = 0 := fun x y z h1 h2 h3 => by
      have : x * (V ^ 3 + 1) = 0 := by
        rw [← h1] at h2
        rw [← h2] at h3
        linear_combination -h3
      rcases mul_eq_zero.1 this with h | h
      · exact h
      · have := pow_pos hV 3
        linarith
    exact ⟨hd _ g0, hd _ g1, hd _ g2, hs _ _ _ g3 g4 g5, hs _ _ _ g4 g5 g3, hs _ _ _ g5 g3 g4⟩
  · rintro ⟨g0, g1, g2, g3, g4, g5⟩
    simp [g0, g1, g2, g3, g4, g5]

/-- A structure under stress. -/
example : ∃ (t : Tables) (eval : Str → Except Err Evaluated) (a : Atoms) (st : Str) (v : Evaluated) (dE : Fin 3 → Fin 3 → ℝ),
    fromAtoms t a = .ok st ∧ eval st = .ok v ∧ VirialStress dE v.stress ∧ dE 0 0 ≠ 0 := by
  refine ⟨⟨fun _ => none, fun _ => "Mg"⟩, fun _ => .ok ⟨0, [], ![-1, 0, 0, 0, 0, 0]⟩, ⟨1, [12], [0]⟩, _, _,
    fun i j => if i = 0 ∧ j = 0 then 1 else 0, by rw [fromAtoms, scaled_ok _ (by simp)]; rfl, rfl, ?_, by simp⟩
  unfold VirialStress
  simp

end Verif.Ase
