import Verif.Model.Bader
import Verif.Spec.Bader
import Mathlib.Algebra.BigOperators.Group.List.Lemmas
import Mathlib.Data.List.MinMax
import Mathlib.Algebra.BigOperators.Fin
import Mathlib.Tactic.Ring

/-!
# C128: Bader charges are read as the files state them
-/

namespace Verif.Bader

open Verif Verif.Spec

variable {K : Type}

lemma isDecimal_iff (w : String) : isDecimal w = true ↔ w.toList ≠ [] ∧ ∀ ch ∈ w.toList, ch.isDigit := by
  simp [isDecimal]

/-- **C128.** The charges of `ACF.dat` are the charges of its atom rows in their order, whatever text surrounds
them. -/
theorem C128_acf (cv : Conv K) (lines : List (List String)) (qs : List K) (h : AcfFile cv.float lines qs) :
    acf cv lines = .ok qs := by
  induction h with
  | nil => rfl
  | text hl _ ih =>
    obtain ⟨w, rest, rfl, hw⟩ := hl
    have : ¬ isDecimal w = true := by rw [isDecimal_iff]; exact hw
    simp only [acf, List.getElem?_cons_zero, orErr]
    show (if isDecimal w = true then _ else _) = _
    rw [if_neg this, ih]
  | @atom l q ls qs hl _ ih =>
    obtain ⟨i, a, b, c, w, rest, rfl, h1, h2, h3⟩ := hl
    have : isDecimal i = true := by rw [isDecimal_iff]; exact ⟨h1, h2⟩
    simp only [acf, List.getElem?_cons_zero, List.getElem?_cons_succ, orErr]
    show (if isDecimal i = true then _ else _) = _
    rw [if_pos this]
    show (do let c ← cv.float w; let r ← acf cv ls; return c :: r) = _
    rw [h3, ih]
    rfl

/-- **C128.** A blank line makes the reader of `ACF.dat` fail, wherever it stands. -/
theorem C128_acf_blank_violation (cv : Conv K) (pre post : List (List String)) (qs : List K)
    (h : AcfFile cv.float pre qs) : acf cv (pre ++ [] :: post) = .error .indexError := by
  induction h with
  | nil => rfl
  | text hl _ ih =>
    obtain ⟨w, rest, rfl, hw⟩ := hl
    have : ¬ isDecimal w = true := by rw [isDecimal_iff]; exact hw
    simp only [List.cons_append, acf, List.getElem?_cons_zero, orErr]
    show (if isDecimal w = true then _ else _) = _
    rw [if_neg this, ih]
  | @atom l q ls qs hl _ ih =>
    obtain ⟨i, a, b, c, w, rest, rfl, h1, h2, h3⟩ := hl
    have : isDecimal i = true := by rw [isDecimal_iff]; exact ⟨h1, h2⟩
    simp only [List.cons_append, acf, List.getElem?_cons_zero, List.getElem?_cons_succ, orErr]
    show (if isDecimal i = true then _ else _) = _
    rw [if_pos this]
    show (do let c ← cv.float w; let r ← acf cv (ls ++ [] :: post); return c :: r) = _
    rw [h3, ih]
    rfl

lemma atomOf_ok (cv : Conv K) {l : List String} {v : K × ℤ} (h : ShowsVolume cv.float cv.int l v) :
    atomOf cv l = .ok v.2 := by
  obtain ⟨a, b, c, d, q, k, rest, rfl, _, h2⟩ := h
  exact h2

lemma ids_ok (cv : Conv K) {ls : List (List String)} {vs : List (K × ℤ)}
    (h : List.Forall₂ (ShowsVolume cv.float cv.int) ls vs) : ls.mapM (atomOf cv) = .ok (vs.map Prod.snd) := by
  induction h with
  | nil => rfl
  | cons hl _ ih => rw [List.mapM_cons, atomOf_ok cv hl, ih]; rfl

lemma addLine_ok [Add K] (cv : Conv K) {l : List String} {v : K × ℤ} (h : ShowsVolume cv.float cv.int l v)
    (ch : List K) (h1 : 1 ≤ v.2) (h2 : v.2 ≤ ch.length) :
    addLine cv ch l = .ok (ch.modify (v.2 - 1).toNat (· + v.1)) := by
  have ha := atomOf_ok cv h
  obtain ⟨a, b, c, d, q, k, rest, rfl, hq, _⟩ := h
  have hp : pyIndex ch.length (v.2 - 1) = .ok (v.2 - 1).toNat := if_pos ⟨by omega, by omega⟩
  simp only [addLine, List.getElem?_cons_zero, List.getElem?_cons_succ, orErr]
  show (do let c ← cv.float q; let a ← atomOf cv _; let k ← pyIndex ch.length (a - 1); return ch.modify k (· + c)) = _
  rw [hq, ha]
  show (do let k ← pyIndex ch.length (v.2 - 1); return ch.modify k (· + v.1)) = _
  rw [hp]
  rfl

lemma fold_ok [AddCommMonoid K] (cv : Conv K) {ls : List (List String)} {vs : List (K × ℤ)}
    (h : List.Forall₂ (ShowsVolume cv.float cv.int) ls vs) :
    ∀ ch : List K, (∀ v ∈ vs, 1 ≤ v.2 ∧ v.2 ≤ ch.length) →
      ∃ r, ls.foldlM (addLine cv) ch = .ok r ∧ r.length = ch.length ∧
        ∀ i (hi : i < ch.length) (hr : i < r.length), r[i] = ch[i] + atomCharge vs ((i : ℤ) + 1) := by
  induction h with
  | nil => intro ch _; exact ⟨ch, rfl, rfl, fun i hi hr => by simp [atomCharge]⟩
  | @cons l v ls vs hl _ ih =>
    intro ch hv
    obtain ⟨h1, h2⟩ := hv v (by simp)
    obtain ⟨r, e, el, er⟩ := ih (ch.modify (v.2 - 1).toNat (· + v.1))
      (fun w hw => by rw [List.length_modify]; exact hv w (by simp [hw]))
    refine ⟨r, ?_, by rw [el, List.length_modify], fun i hi hr => ?_⟩
    · rw [List.foldlM_cons, addLine_ok cv hl ch h1 h2]; exact e
    · rw [er i (by rw [List.length_modify]; exact hi) hr, List.getElem_modify]
      by_cases hc : v.2 = (i : ℤ) + 1
      · rw [if_pos (by omega)]
        simp [atomCharge, hc, add_assoc]
      · rw [if_neg (by omega)]
        simp [atomCharge, hc]

/-- **C128.** `BCF.dat` with two lines of heading, a row for every volume and a closing line: when atoms are numbered
from 1, the result has an entry for every atom up to the largest number, and the entry is the sum of the charges of
the volumes of that atom. -/
theorem C128_bcf [AddCommMonoid K] (cv : Conv K) (h1 h2 last : List String) (ls : List (List String))
    (vs : List (K × ℤ)) (h : List.Forall₂ (ShowsVolume cv.float cv.int) ls vs) (hv : vs ≠ [])
    (hpos : ∀ v ∈ vs, 1 ≤ v.2) :
    ∃ r, bcf cv (h1 :: h2 :: (ls ++ [last])) = .ok r ∧
      (∃ v ∈ vs, v.2 = r.length) ∧ (∀ v ∈ vs, v.2 ≤ r.length) ∧
      ∀ i (hi : i < r.length), r[i] = atomCharge vs ((i : ℤ) + 1) := by
  have hd : dataLines (h1 :: h2 :: (ls ++ [last])) = ls := by simp [dataLines]
  obtain ⟨n, hn⟩ : ∃ n, (vs.map Prod.snd).max? = some n := by
    cases vs with
    | nil => exact absurd rfl hv
    | cons v vs => exact ⟨_, rfl⟩
  obtain ⟨hm, hle⟩ := List.max?_eq_some_iff.1 hn
  obtain ⟨w, hw, rfl⟩ := List.mem_map.1 hm
  have hw1 := hpos w hw
  have hlen : (List.replicate w.2.toNat (0 : K)).length = w.2.toNat := List.length_replicate
  obtain ⟨r, e, el, er⟩ := fold_ok cv h (List.replicate w.2.toNat (0 : K)) (fun v hv' => by
    rw [hlen]; have := hle v.2 (List.mem_map_of_mem hv'); have := hpos v hv'; omega)
  rw [hlen] at el
  refine ⟨r, ?_, ⟨w, hw, by omega⟩, fun v hv' => by have := hle v.2 (List.mem_map_of_mem hv'); omega,
    fun i hi => ?_⟩
  · unfold bcf
    rw [hd, ids_ok cv h]
    show (do let n ← orErr Err.valueError (vs.map Prod.snd).max?; _) = _
    rw [hn]
    show (if w.2 < 0 then _ else _) = _
    rw [if_neg (by omega), e]
  · rw [er i (by omega) hi]
    simp

/-- **C128.** No charge is lost: the charges of the atoms add up to the charges of all volumes. -/
theorem C128_bcf_total [AddCommMonoid K] (cv : Conv K) (h1 h2 last : List String) (ls : List (List String))
    (vs : List (K × ℤ)) (h : List.Forall₂ (ShowsVolume cv.float cv.int) ls vs) (hv : vs ≠ [])
    (hpos : ∀ v ∈ vs, 1 ≤ v.2) :
    ∃ r, bcf cv (h1 :: h2 :: (ls ++ [last])) = .ok r ∧ r.sum = (vs.map Prod.fst).sum := by
  obtain ⟨r, e, hex, hle, hr⟩ := C128_bcf cv h1 h2 last ls vs h hv hpos
  refine ⟨r, e, ?_⟩
  have hsum : r.sum = ∑ i ∈ Finset.range r.length, atomCharge vs ((i : ℤ) + 1) := by
    rw [← Fin.sum_univ_eq_sum_range (fun i => atomCharge vs ((i : ℤ) + 1)), ← List.sum_ofFn]
    congr 1
    apply List.ext_getElem (by simp)
    intro i a b
    simp [hr i a]
  rw [hsum]
  clear hsum hr e h hv hex
  induction vs with
  | nil => simp [atomCharge]
  | cons v vs ih =>
    have hstep : ∀ i : ℕ, atomCharge (v :: vs) ((i : ℤ) + 1)
        = (if i = (v.2 - 1).toNat then v.1 else 0) + atomCharge vs ((i : ℤ) + 1) := by
      intro i
      have := hpos v (by simp)
      by_cases hc : v.2 = (i : ℤ) + 1
      · rw [if_pos (by omega)]; simp [atomCharge, hc]
      · rw [if_neg (by omega)]; simp [atomCharge, hc]
    simp only [hstep]
    rw [Finset.sum_add_distrib, ih (fun w hw => hpos w (by simp [hw])) (fun w hw => hle w (by simp [hw]))]
    have := hpos v (by simp)
    have := hle v (by simp)
    rw [Finset.sum_ite_eq' (Finset.range r.length) (v.2 - 1).toNat (fun _ => v.1),
      if_pos (Finset.mem_range.2 (by omega))]
    simp

/-- **C128.** A file without rows is refused. -/
theorem C128_bcf_empty [AddCommMonoid K] (cv : Conv K) (h1 h2 last : List String) :
    bcf cv [h1, h2, last] = .error .valueError := rfl

/-- **C128 (violated).** After an import, the method that prints the charges never writes the file. -/
theorem C128_print_violation (own : List K) (file : Option (List K)) :
    printCharge none own file = (file, some .nameError) := rfl

/-- **C128 (violated).** In the script, charges of one object are written for another. -/
theorem C128_print_other_violation :
    ∃ own other : List ℤ, own ≠ other ∧ printCharge (some other) own none = (some other, none) :=
  ⟨[1], [2], by decide, rfl⟩

/-- Words for the examples. -/
def exConv : Conv ℤ :=
  ⟨fun w => if w = "7" then .ok 7 else if w = "2" then .ok 2 else .error .valueError,
    fun w => if w = "2" then .ok 2 else if w = "1" then .ok 1 else .error .valueError⟩

/-- Two volumes of the second atom and one of the first. -/
example : bcf exConv [["#"], ["--"], ["1", "x", "y", "z", "7", "2", "d"], ["2", "x", "y", "z", "2", "1", "d"],
    ["3", "x", "y", "z", "2", "2", "d"], ["--"]] = .ok [2, 9] := by decide +kernel

/-- The premises of `C128_bcf` hold for that file. -/
example : List.Forall₂ (ShowsVolume exConv.float exConv.int)
    [["1", "x", "y", "z", "7", "2", "d"], ["2", "x", "y", "z", "2", "1", "d"]] [(7, 2), (2, 1)] :=
  .cons ⟨_, _, _, _, _, _, _, rfl, rfl, rfl⟩ (.cons ⟨_, _, _, _, _, _, _, rfl, rfl, rfl⟩ .nil)

/-- The premise of `C128_acf` holds for a file with a heading and one atom. -/
example : AcfFile exConv.float [["#", "X"], ["12", "x", "y", "z", "7", "d"], ["VACUUM"]] [7] :=
  .text ⟨_, _, rfl, by decide +kernel⟩ (.atom ⟨_, _, _, _, _, _, rfl, by decide +kernel, by decide +kernel, rfl⟩
    (.text ⟨_, _, rfl, by decide +kernel⟩ .nil))

end Verif.Bader
