import Verif.Spec.Infile
import Verif.Lemmas.Dict
import Verif.Lemmas.Py

namespace Verif.Infile
open Verif.Spec.Infile

theorem contains_iff (a s : PStr) : contains a s = true ↔ Occurs a s := by
  induction s with
  | nil =>
    unfold contains Occurs
    simp only [decide_eq_true_eq]
    constructor
    · rintro rfl; exact ⟨[], [], rfl⟩
    · rintro ⟨u, v, h⟩
      have := (List.append_eq_nil_iff.1 h.symm).1
      exact (List.append_eq_nil_iff.1 this).2
  | cons c s ih =>
    unfold contains
    rw [Bool.or_eq_true, ih, List.isPrefixOf_iff_prefix]
    constructor
    · rintro (⟨v, h⟩ | ⟨u, v, h⟩)
      · exact ⟨[], v, by simpa using h.symm⟩
      · exact ⟨c :: u, v, by simp [h]⟩
    · rintro ⟨u, v, h⟩
      cases u with
      | nil => exact .inl ⟨v, by simpa using h.symm⟩
      | cons x u =>
        simp only [List.cons_append, List.cons.injEq] at h
        exact .inr ⟨u, v, h.2⟩

theorem tagDistance_eq : tagDistance = "distance".toList := rfl
theorem tagData_eq : tagData = "data".toList := rfl
theorem tagDatasetType_eq : tagDatasetType = "dataset_type".toList := rfl

theorem step_short (p : Parsed) (d : List PStr) (h : d.length ≤ 1) : step p d = p := by
  match d with
  | [] => rfl
  | [_] => rfl
  | _ :: _ :: _ => simp at h

theorem dataCond_iff (t : PStr) (h : t ≠ "distance".toList) :
    (contains tagData t && !contains tagDatasetType t) = true ↔ IsDataTag t := by
  unfold IsDataTag
  rw [Bool.and_eq_true, Bool.not_eq_true', ← Bool.not_eq_true, contains_iff, contains_iff,
    tagData_eq, tagDatasetType_eq]
  tauto

theorem step_distance (p : Parsed) (v : PStr) (vs : List PStr) :
    step p ("distance".toList :: v :: vs) = { p with distance := p.distance ++ [v :: vs] } := by
  rw [step]; rw [if_pos tagDistance_eq]

theorem step_data (p : Parsed) (t v : PStr) (vs : List PStr) (h : IsDataTag t) :
    step p (t :: v :: vs) =
      { p with datasetStrings := p.datasetStrings ++ [t :: v :: vs] } := by
  rw [step]; rw [if_neg (by rw [tagDistance_eq]; exact fun e => h.2.2 e.symm),
    if_pos ((dataCond_iff t h.2.2).2 h)]

theorem step_setting (p : Parsed) (t v : PStr) (vs : List PStr) (h : IsSettingTag t) :
    step p (t :: v :: vs) = { p with data := p.data.set t (v :: vs) } := by
  rw [step]; rw [if_neg (by rw [tagDistance_eq]; exact fun e => h.1 e.symm),
    if_neg (by rw [dataCond_iff t h.1]; exact h.2)]

/-- The four kinds of lines. -/
theorem line_cases (d : List PStr) :
    d.length ≤ 1 ∨ (∃ v vs, d = "distance".toList :: v :: vs) ∨
      (∃ t v vs, d = t :: v :: vs ∧ IsDataTag t) ∨
      (∃ t v vs, d = t :: v :: vs ∧ IsSettingTag t) := by
  match d with
  | [] => left; simp
  | [_] => left; simp
  | t :: v :: vs =>
    right
    by_cases h : t = "distance".toList
    · left; exact ⟨v, vs, by rw [h]⟩
    · right
      by_cases h' : IsDataTag t
      · left; exact ⟨t, v, vs, rfl, h'⟩
      · right; exact ⟨t, v, vs, rfl, h, h'⟩

theorem not_data_setting {t : PStr} (h : IsDataTag t) : ¬ IsSettingTag t := fun s => s.2 h

end Verif.Infile
