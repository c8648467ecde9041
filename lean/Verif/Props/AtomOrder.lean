import Verif.Lemmas.AtomOrder
import Verif.Spec.Atoms

/-! # C16, C17, C18: atoms stay together with their element, position and force -/

namespace Verif.AtomOrder
open Spec
variable {K : Type}

/-- Splitting a stacked flat-map of equal selections into its components. -/
private theorem zip_flatMap3 (elements : List String) (pos frc : List (V3 K))
    (h1 : elements.length = pos.length) (h2 : frc.length = pos.length) (elems : List String) :
    (elems.flatMap fun e => List.replicate (elements.count e) e) =
        (elems.flatMap fun e => (elements.zip (pos.zip frc)).filter fun a => a.1 = e).map (·.1) ∧
    (elems.flatMap fun e => maskSelect elements e pos) =
        (elems.flatMap fun e => (elements.zip (pos.zip frc)).filter fun a => a.1 = e).map (·.2.1) ∧
    (elems.flatMap fun e => maskSelect elements e frc) =
        (elems.flatMap fun e => (elements.zip (pos.zip frc)).filter fun a => a.1 = e).map
          (·.2.2) := by
  have hl : elements.length = (pos.zip frc).length := by simp [h1, h2]
  refine ⟨?_, ?_, ?_⟩
  · rw [List.map_flatMap]
    rw [List.flatMap_def, List.flatMap_def]; congr 1
    apply List.map_congr_left; intro e _
    rw [count_eq_filter_length elements e (pos.zip frc) hl]
    symm; rw [List.eq_replicate_iff]
    refine ⟨by simp, ?_⟩
    intro b hb
    obtain ⟨a, ha, rfl⟩ := List.mem_map.mp hb
    simpa using (List.mem_filter.mp ha).2
  · rw [List.map_flatMap]
    rw [List.flatMap_def, List.flatMap_def]; congr 1
    apply List.map_congr_left; intro e _
    have := maskSelect_eq (fun p : V3 K × V3 K => p.1) elements e (pos.zip frc) hl
    rwa [List.map_fst_zip (by omega)] at this
  · rw [List.map_flatMap]
    rw [List.flatMap_def, List.flatMap_def]; congr 1
    apply List.map_congr_left; intro e _
    have := maskSelect_eq (fun p : V3 K × V3 K => p.2) elements e (pos.zip frc) hl
    rwa [List.map_snd_zip (by omega)] at this

/-- **C16.** For a consistent structure and a duplicate-free element order that covers it,
`permute_atoms` succeeds; the output atoms are, for each requested element in turn, exactly the
input atoms of that element in their input order, each with its own position and force; types and
`n_atoms` describe the same grouping and the cell is unchanged. -/
theorem C16_permute_atoms [CommRing K] (st : Structure K) (elems : List String)
    (force : List (V3 K)) (hwf : st.WF) (hf : force.length = st.positions.length)
    (hn : elems.Nodup) (hc : ∀ e ∈ st.elements, e ∈ elems) :
    ∃ st' force', permuteAtoms st elems force = .ok (st', force') ∧
      atoms st' force' = (elems.flatMap fun e => (atoms st force).filter fun a => a.1 = e) ∧
      (atoms st' force').Perm (atoms st force) ∧
      st'.types = st'.elements.map (fun e => elems.idxOf e) ∧
      st'.nAtoms = elems.map (fun e => st.elements.count e) ∧
      st'.axis = st.axis ∧ st'.WF ∧ force'.length = st'.positions.length := by
  obtain ⟨w1, w2, w3⟩ := hwf
  set A := elems.flatMap fun e => (atoms st force).filter fun a => a.1 = e with hA
  have hp : A.Perm (atoms st force) := flatMap_filter_perm (fun a : String × V3 K × V3 K => a.1) elems _ hn (by
    intro a ha
    exact hc _ (List.of_mem_zip ha).1)
  have hlen : A.length = st.elements.length := by
    rw [hp.length_eq]; simp [atoms, w1, hf]
  obtain ⟨z1, z2, z3⟩ := zip_flatMap3 st.elements st.positions force w1.symm hf elems
  change _ = A.map _ at z1
  change _ = A.map _ at z2
  change _ = A.map _ at z3
  have hpos : (elems.flatMap fun e => maskSelect st.elements e st.positions).length
      = st.positions.length := by rw [z2, List.length_map, hlen, w1]
  have hfrc : (elems.flatMap fun e => maskSelect st.elements e force).length
      = force.length := by rw [z3, List.length_map, hlen, hf, w1]
  have helm : (elems.flatMap fun e => List.replicate (st.elements.count e) e).length
      = st.elements.length := by rw [z1, List.length_map, hlen]
  have hty : (elems.flatMap fun e => List.replicate (st.elements.count e) (elems.idxOf e))
      = (elems.flatMap fun e => List.replicate (st.elements.count e) e).map
          (fun e => elems.idxOf e) := by
    rw [List.map_flatMap]; simp
  have htl : (elems.flatMap fun e => List.replicate (st.elements.count e) (elems.idxOf e)).length
      = st.types.length := by rw [hty, List.length_map, helm, w2]
  have hna : (elems.map fun e => st.elements.count e).sum = st.elements.length := by
    rw [sum_count_eq _ _ hn, List.filter_eq_self.mpr]
    intro a ha; simpa using hc a ha
  have hat : (elems.flatMap fun e => List.replicate (st.elements.count e) e).zip
      ((elems.flatMap fun e => maskSelect st.elements e st.positions).zip
        (elems.flatMap fun e => maskSelect st.elements e force)) = A := by
    rw [z1, z2, z3, List.zip_map', List.zip_map']
    simp
  refine ⟨{ axis := st.axis
            positions := elems.flatMap fun e => maskSelect st.elements e st.positions
            nAtoms := elems.map fun e => st.elements.count e
            elements := elems.flatMap fun e => List.replicate (st.elements.count e) e
            types := elems.flatMap fun e => List.replicate (st.elements.count e) (elems.idxOf e)
            volume := st.axis.det
            name := none },
          elems.flatMap fun e => maskSelect st.elements e force, ?_, ?_, ?_, hty, rfl, rfl, ?_, ?_⟩
  · unfold permuteAtoms
    rw [foldl_permuteStep]
    simp only [List.nil_append]
    rw [zipIdx_flatMap_snd (fun e => maskSelect st.elements e st.positions),
      zipIdx_flatMap_snd (fun e => List.replicate (st.elements.count e) e),
      zipIdx_flatMap_snd (fun e => maskSelect st.elements e force), zipIdx_types elems hn (fun e => st.elements.count e)]
    rw [if_pos (le_of_eq hpos), fillTo_full _ _ _ hpos, fillTo_full _ _ _ hfrc,
      fillTo_full _ _ _ htl]
    have hm : ((elems.zipIdx.map fun p => (p.2, p.1)).map fun p => st.elements.count p.2)
        = elems.map fun e => st.elements.count e := by
      rw [List.map_map]
      apply List.ext_getElem <;> simp
    rw [hm]
    unfold Structure.mk' Structure.check
    rw [if_pos]
    · rfl
    · exact ⟨by rw [hpos, helm, w1], by rw [helm, htl, w2], by rw [helm, hna]⟩
  · exact hat
  · unfold atoms; rw [hat]; exact hp
  · exact ⟨by simp only [hpos, helm, w1], by simp only [helm, htl, w2], by simp only [helm, hna]⟩
  · simp only [hpos, hfrc, hf]

/-- Error side of C16: an element that is not in the requested order is not silently dropped. -/
theorem C16_permute_atoms_uncovered [CommRing K] (st : Structure K) (elems : List String)
    (force : List (V3 K)) (hwf : st.WF) (hn : elems.Nodup)
    (hc : ¬ ∀ e ∈ st.elements, e ∈ elems) :
    permuteAtoms st elems force = .error .assertionError := by
  obtain ⟨w1, w2, w3⟩ := hwf
  have hlt : (elems.map fun e => st.elements.count e).sum < st.elements.length := by
    rw [sum_count_eq _ _ hn]
    push Not at hc
    obtain ⟨e, he, hne⟩ := hc
    rw [← List.countP_eq_length_filter]
    have hle := List.countP_le_length (p := fun x => decide (x ∈ elems)) (l := st.elements)
    rcases Nat.lt_or_ge (st.elements.countP (· ∈ elems)) st.elements.length with h | h
    · exact h
    · have := List.countP_eq_length.mp (Nat.le_antisymm hle h) e he
      simp [hne] at this
  have hel : (elems.flatMap fun e => List.replicate (st.elements.count e) e).length
      = (elems.map fun e => st.elements.count e).sum := by
    rw [List.length_flatMap]; simp
  have hms : ∀ (e : String), (maskSelect st.elements e st.positions).length
      = st.elements.count e := by
    intro e
    have := maskSelect_eq (fun p : V3 K => p) st.elements e st.positions w1.symm
    rw [List.map_id'] at this
    rw [this, List.length_map, ← count_eq_filter_length _ _ _ w1.symm]
  have hpl : (elems.flatMap fun e => maskSelect st.elements e st.positions).length
      = (elems.map fun e => st.elements.count e).sum := by
    rw [List.length_flatMap]; simp [hms]
  unfold permuteAtoms
  rw [foldl_permuteStep]
  simp only [List.nil_append]
  rw [zipIdx_flatMap_snd (fun e => maskSelect st.elements e st.positions),
      zipIdx_flatMap_snd (fun e => List.replicate (st.elements.count e) e),
      zipIdx_flatMap_snd (fun e => maskSelect st.elements e force)]
  rw [if_pos (by omega)]
  unfold Structure.mk' Structure.check
  rw [if_neg]
  · rfl
  · rintro ⟨h1, -, -⟩
    simp only [fillTo, List.length_append, List.length_replicate] at h1
    omega

/-- Two interleaved elements, three atoms. -/
def exStr : Structure ℚ where
  axis := ⟨⟨2, 0, 0⟩, ⟨0, 3, 0⟩, ⟨0, 0, 4⟩⟩
  positions := [⟨0, 0, 0⟩, ⟨1/2, 0, 0⟩, ⟨0, 1/2, 0⟩]
  nAtoms := [2, 1]
  elements := ["O", "Mg", "O"]
  types := [0, 1, 0]
  volume := 24

def exForce : List (V3 ℚ) := [⟨1, 0, 0⟩, ⟨2, 0, 0⟩, ⟨3, 0, 0⟩]

example : exStr.WF ∧ exForce.length = exStr.positions.length ∧ ["Mg", "O"].Nodup ∧
    (∀ e ∈ exStr.elements, e ∈ ["Mg", "O"]) := by decide +kernel
example : (permuteAtoms exStr ["Mg", "O"] exForce).toOption.map (fun p => (p.1.elements, p.2)) =
    some (["Mg", "O", "O"], [⟨2, 0, 0⟩, ⟨1, 0, 0⟩, ⟨3, 0, 0⟩]) := by decide +kernel

/-- **C17.** For a duplicate-free element list, `replace_types` succeeds exactly when every atom's
element is listed, and then every atom's type is the position of its element in the list; nothing
else changes. -/
theorem C17_replace_types (st : Structure K) (elems : List String) (hwf : st.WF)
    (hn : elems.Nodup) :
    ((∀ e ∈ st.elements, e ∈ elems) →
      replaceTypesUnique st elems = .ok { st with types := st.elements.map fun e => elems.idxOf e })
    ∧ ((∃ e ∈ st.elements, e ∉ elems) → replaceTypesUnique st elems = .error .runtimeError) := by
  obtain ⟨w1, w2, w3⟩ := hwf
  have hfold := foldl_replaceStep st.elements elems.zipIdx st.types 0 w2.symm
  have hm : (elems.zipIdx.map fun p => st.elements.count p.1)
      = elems.map fun e => st.elements.count e := by
    apply List.ext_getElem <;> simp
  rw [hm, Nat.zero_add] at hfold
  constructor
  · intro hc
    have hna : (elems.map fun e => st.elements.count e).sum = st.elements.length := by
      rw [sum_count_eq _ _ hn, List.filter_eq_self.mpr]
      intro a ha; simpa using hc a ha
    unfold replaceTypesUnique
    rw [hfold]
    simp only [hna, ne_eq, not_true_eq_false, if_false]
    congr 2
    have : ((st.elements.zip st.types).map fun q =>
        elems.zipIdx.foldl (fun t p => if q.1 = p.1 then p.2 else t) q.2)
        = (st.elements.zip st.types).map fun q => elems.idxOf q.1 := by
      apply List.map_congr_left
      intro q hq
      have := foldl_idx_mem q.1 elems 0 q.2 hn (hc _ (List.of_mem_zip hq).1)
      simpa using this
    rw [this]
    have h3 := List.map_fst_zip (l₁ := st.elements) (l₂ := st.types) (by omega)
    conv_rhs => rw [← h3]
    rw [List.map_map]
    rfl
  · rintro ⟨e, he, hne⟩
    have hlt : (elems.map fun e => st.elements.count e).sum ≠ st.elements.length := by
      rw [sum_count_eq _ _ hn]
      intro h
      have := List.length_filter_eq_length_iff.mp h e he
      simp [hne] at this
    unfold replaceTypesUnique
    rw [hfold]
    simp only [ne_eq, hlt, not_false_eq_true, if_true]

example : exStr.WF ∧ ["Mg", "O", "Fe"].Nodup := by decide +kernel
example : (replaceTypesUnique exStr ["Mg", "O", "Fe"]).toOption.map (·.types) = some [1, 0, 1] := by
  decide +kernel
example : replaceTypesUnique exStr ["Mg", "Fe"] = .error .runtimeError := by decide +kernel

/-- **C18.** If the type of an atom determines its element, `reorder` succeeds, sorts the atoms by
type, keeps every (type, element, position) triple, and `n_atoms` counts the atoms of each
occurring type in increasing type order. -/
theorem C18_reorder (st : Structure K) (hwf : st.WF)
    (hdet : ∀ p ∈ st.types.zip st.elements, ∀ q ∈ st.types.zip st.elements,
      p.1 = q.1 → p.2 = q.2) :
    ∃ st', reorder st = .ok st' ∧ (typedAtoms st').Perm (typedAtoms st) ∧
      st'.types.Pairwise (· ≤ ·) ∧
      (∃ keys : List ℕ, keys.Pairwise (· < ·) ∧ (∀ t, t ∈ keys ↔ t ∈ st.types) ∧
        st'.nAtoms = keys.map fun t => st.types.count t) ∧
      st'.WF ∧ st'.axis = st.axis := by
  obtain ⟨w1, w2, w3⟩ := hwf
  set keys := uniqSorted st.types with hk
  set A := keys.flatMap fun t => (typedAtoms st).filter fun a => a.1 = t with hA
  have hp : A.Perm (typedAtoms st) :=
    flatMap_filter_perm (fun a : ℕ × String × V3 K => a.1) keys _ (uniqSorted_nodup _) (by
      intro a ha
      exact mem_uniqSorted.mpr (List.of_mem_zip ha).1)
  have hl2 : (st.elements.zip st.positions).length = st.types.length := by simp [w1, w2]
  have hlA : A.length = st.types.length := by rw [hp.length_eq]; simp [typedAtoms, w1, w2]
  have hpos : (keys.flatMap fun t => typeSelect st.types t st.positions) = A.map (·.2.2) := by
    rw [hA, List.map_flatMap, List.flatMap_def, List.flatMap_def]; congr 1
    apply List.map_congr_left; intro t _
    have := typeSelect_eq (fun p : String × V3 K => p.2) st.types t
      (st.elements.zip st.positions) hl2.symm
    rwa [List.map_snd_zip (by omega)] at this
  have hty : (keys.flatMap fun t => typeSelect st.types t st.types) = A.map (·.1) := by
    rw [hA, List.map_flatMap, List.flatMap_def, List.flatMap_def]; congr 1
    apply List.map_congr_left; intro t _
    have h := typeSelect_eq (fun p : ℕ × String × V3 K => p.1) st.types t
      (st.types.zip (st.elements.zip st.positions)) (by simp [w1, w2])
    rw [List.map_fst_zip (by omega)] at h
    rw [h]
    have key : ∀ (ts : List ℕ) (ys : List (String × V3 K)), 
        ((ts.zip (ts.zip ys)).filter fun p => p.1 = t).map (fun p => p.2.1)
          = ((ts.zip ys).filter fun a => a.1 = t).map (·.1) := by
      intro ts
      induction ts with
      | nil => intro ys; rfl
      | cons a ts ih =>
        intro ys
        cases ys with
        | nil => rfl
        | cons y ys =>
          by_cases hat : a = t
          · simp [hat, ih ys]
          · simp [hat, ih ys]
    exact key _ _
  have hmem : ∀ a ∈ A, (a.1, a.2.1) ∈ st.types.zip st.elements := by
    intro a ha
    have ha' := hp.mem_iff.mp ha
    unfold typedAtoms at ha'
    obtain ⟨i, hi, e⟩ := List.mem_iff_getElem.mp ha'
    rw [List.getElem_zip, List.getElem_zip] at e
    rw [List.mem_iff_getElem]
    refine ⟨i, by simp at hi ⊢; omega, ?_⟩
    rw [List.getElem_zip, ← e]
  have hel : (A.map (·.1)).mapM (fun t => orErr .keyError (mapElements st.types st.elements t)) = .ok (A.map (·.2.1)) := by
    rw [show A.map (·.2.1) = (A.map (·.1)).map
        (fun t => (mapElements st.types st.elements t).getD "") by
      rw [List.map_map]
      apply List.map_congr_left
      intro a ha
      simp [mapElements_of_det hdet (hmem a ha)]]
    apply mapM_except_ok
    intro t ht
    obtain ⟨a, ha, rfl⟩ := List.mem_map.mp ht
    simp [mapElements_of_det hdet (hmem a ha), orErr]
  refine ⟨{ st with
      positions := A.map (·.2.2)
      nAtoms := keys.map fun t => st.types.count t
      types := A.map (·.1)
      elements := A.map (·.2.1) }, ?_, ?_, ?_, ?_, ?_, rfl⟩
  · unfold reorder
    simp only [← hk, hpos, hty, hel]
    rfl
  · unfold typedAtoms
    simp only [List.zip_map']
    have : A.map (fun x => (x.1, x.2.1, x.2.2)) = A := by simp
    rw [this]; exact hp
  · simp only
    rw [hA, List.map_flatMap, List.pairwise_flatMap]
    constructor
    · intro t _
      rw [List.pairwise_map]
      refine List.Pairwise.imp_of_mem (R := fun _ _ => True) ?_ (List.pairwise_of_forall (by simp))
      intro a b ha hb _
      have h1 := (List.mem_filter.mp ha).2
      have h2 := (List.mem_filter.mp hb).2
      simp only [decide_eq_true_eq] at h1 h2
      omega
    · refine (uniqSorted_sorted st.types).imp ?_
      intro t1 t2 h12 x hx y hy
      obtain ⟨a, ha, rfl⟩ := List.mem_map.mp hx
      obtain ⟨b, hb, rfl⟩ := List.mem_map.mp hy
      have h1 := (List.mem_filter.mp ha).2
      have h2 := (List.mem_filter.mp hb).2
      simp only [decide_eq_true_eq] at h1 h2
      omega
  · exact ⟨keys, uniqSorted_sorted _, fun t => mem_uniqSorted, rfl⟩
  · refine ⟨by simp, by simp, ?_⟩
    simp only [List.length_map, hlA]
    rw [← hlA, hA, List.length_flatMap]
    congr 1
    apply List.map_congr_left
    intro t _
    have key : ∀ (ts : List ℕ) (ys : List (String × V3 K)), ts.length = ys.length →
        ((ts.zip ys).filter fun a => a.1 = t).length = ts.count t := by
      intro ts
      induction ts with
      | nil => intro ys _; rfl
      | cons a ts ih =>
        intro ys h
        cases ys with
        | nil => simp at h
        | cons y ys =>
          have := ih ys (by simpa using h)
          by_cases hat : a = t
          · simp [hat, this]
          · simp [hat, this]
    exact key _ _ hl2.symm

example : exStr.WF ∧ ∀ p ∈ exStr.types.zip exStr.elements, ∀ q ∈ exStr.types.zip exStr.elements,
    p.1 = q.1 → p.2 = q.2 := by decide +kernel
example : (reorder exStr).toOption.map (fun s => (s.types, s.elements, s.nAtoms)) =
    some ([0, 0, 1], ["O", "O", "Mg"], [2, 1]) := by decide +kernel

/-- Without the hypothesis of C18 the element of an atom can really change: two atoms of type 0
with different elements both come out with the element of the last one. -/
theorem C18_hypothesis_needed :
    (reorder { exStr with types := [0, 0, 0], nAtoms := [3] }).toOption.map (·.elements)
      = some ["O", "O", "O"] := by decide +kernel

end Verif.AtomOrder
