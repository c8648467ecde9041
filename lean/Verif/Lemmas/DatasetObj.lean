import Verif.Model.DatasetObj
import Verif.Spec.AtomicEnergy
import Verif.Props.Dataset

namespace Verif.Dataset
open Spec
variable {K : Type}

theorem subtracted_subtracted [Ring K] (j k : ℕ) (ae : List K) (r : Rec K) :
    (r.subtracted j ae).subtracted k ae = r.subtracted (j + k) ae := by
  unfold Rec.subtracted
  congr 1
  simp only [Nat.cast_add]
  rw [add_mul, sub_sub]

theorem dotNat_eq [Ring K] {n : List ℕ} {ae : List K} (h : n.length = ae.length) :
    dotNat n ae = .ok (atomicSum n ae) := by
  unfold dotNat atomicSum
  rw [if_pos h]
  simp [List.zip_eq_zipWith, List.map_zipWith]

theorem applyAtomicEnergy_represents [Ring K] {d : DFT K} {rs : List (Rec K)}
    (h : Represents d rs) {ae : List K} (hl : ∀ r ∈ rs, r.st.nAtoms.length = ae.length) :
    ∃ d', applyAtomicEnergy d ae = .ok d' ∧ Represents d' (rs.map (·.subtracted 1 ae)) ∧
      d'.elements = d.elements := by
  obtain ⟨h1, h2, h3, h4, h5, h6, h7, hw⟩ := h
  have he : (d.energies.zip d.structures).mapM (fun p => do
      let s ← dotNat p.2.nAtoms ae
      return p.1 - s) = (.ok (rs.map fun r => (r.subtracted 1 ae).energy) : Except Err _) := by
    rw [h1, h2, List.zip_map']
    have : (rs.map fun r => (r.subtracted 1 ae).energy)
        = (rs.map fun r => (r.energy, r.st)).map fun p => p.1 - atomicSum p.2.nAtoms ae := by
      rw [List.map_map]
      apply List.map_congr_left
      intro r _
      simp [Rec.subtracted]
    rw [this]
    apply mapM_except_ok
    intro p hp
    obtain ⟨r, hr, rfl⟩ := List.mem_map.mp hp
    simp only [dotNat_eq (hl r hr)]
    rfl
  refine ⟨{ d with energies := rs.map fun r => (r.subtracted 1 ae).energy }, ?_, ?_, rfl⟩
  · unfold applyAtomicEnergy
    rw [he]; rfl
  · refine ⟨?_, ?_, ?_, ?_, ?_, ?_, ?_, ?_⟩
    · simp [h1, Rec.subtracted, Function.comp_def]
    · simp [Function.comp_def]
    · simp [h3, Rec.subtracted, List.flatMap_map]
    · simp [h4, Rec.subtracted, List.flatMap_map]
    · simp [h5, Rec.subtracted, Function.comp_def]
    · simp [h6, Rec.subtracted, Rec.natoms, Function.comp_def]
    · simp [h7, Rec.subtracted, Function.comp_def]
    · intro r hr
      obtain ⟨r', hr', rfl⟩ := List.mem_map.mp hr
      have := hw r' hr'
      exact this

theorem slice_represents {d : DFT K} {rs : List (Rec K)} (h : Represents d rs) (b e : ℕ) :
    Represents (sliceDFT d b e) (slice rs b e) := by
  obtain ⟨h1, h2, h3, h4, h5, h6, h7, hw⟩ := h
  refine ⟨?_, ?_, ?_, ?_, ?_, ?_, ?_, ?_⟩
  · simp only [sliceDFT, h1, slice_map]
  · simp only [sliceDFT, h2, slice_map]
  · simp only [sliceDFT, h3, h6]
    rw [natoms_offs hw, natoms_offs hw, slice_offs]
  · simp only [sliceDFT, h4]
    have hlen : (rs.flatMap (·.stress)).length = rs.length * 6 := by
      have := stress_offs hw rs.length (le_refl _)
      rw [this]; unfold offs; rw [List.length_flatMap, List.take_length]
    have key : ∀ i, (rs.flatMap (·.stress)).take (i * 6) = (rs.flatMap (·.stress)).take
        (offs (·.stress) rs i) := by
      intro i
      rcases Nat.le_total i rs.length with hi | hi
      · rw [stress_offs hw i hi]
      · have e1 : offs (·.stress) rs i = rs.length * 6 := by
          unfold offs
          rw [List.take_of_length_le hi]
          rw [← hlen, List.length_flatMap]
        rw [e1, List.take_of_length_le (by omega), List.take_of_length_le (by omega)]
    rw [← slice_offs]
    unfold slice
    rw [key e]
    rcases Nat.le_total b rs.length with hi | hi
    · rw [stress_offs hw b hi]
    · have e1 : offs (·.stress) rs b = rs.length * 6 := by
        unfold offs
        rw [List.take_of_length_le hi]
        rw [← hlen, List.length_flatMap]
      rw [e1, List.drop_eq_nil_of_le (by rw [List.length_take, hlen]; omega),
        List.drop_eq_nil_of_le (by rw [List.length_take, hlen]; omega)]
  · simp only [sliceDFT, h5, slice_map]
  · simp only [sliceDFT, h6, slice_map]
  · simp only [sliceDFT, h7, slice_map]
  · intro r hr
    exact hw r (List.mem_of_mem_take (List.mem_of_mem_drop hr))

end Verif.Dataset
