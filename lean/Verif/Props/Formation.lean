import Verif.Model.Formation
import Verif.Spec.Formation
import Verif.Lemmas.Py
import Mathlib.Tactic.Ring
import Mathlib.Tactic.FieldSimp
import Mathlib.Tactic.NormNum
import Mathlib.Algebra.BigOperators.Ring.Finset
import Mathlib.Algebra.Order.Field.Rat
import Mathlib.Algebra.BigOperators.Field
import Mathlib.LinearAlgebra.Matrix.Notation

/-!
C48: formation energies.
C56: names of the structures on the convex hull.
-/

namespace Verif.Formation
open Verif.Spec Matrix Finset
variable {K : Type} [Field K] [DecidableEq K] {t e : ℕ}

section
variable (pinv : Matrix (Fin t) (Fin e) K → Matrix (Fin e) (Fin t) K) (comps : Fin e → Fin t → K)
  (hp : IsPinv (Composition.new pinv comps).axis (Composition.new pinv comps).inv) (hc : Independent comps)
include hp

omit [DecidableEq K] hp in
theorem axis_mulVec (x : Fin e → K) : (Composition.new pinv comps).axis.mulVec x = mix comps x := by
  funext j
  simp only [Composition.new, Matrix.mulVec, dotProduct, Matrix.of_apply, mix]
  exact sum_congr rfl fun i _ => mul_comm _ _

include hc in
omit [DecidableEq K] in
theorem inv_mix (x : Fin e → K) : (Composition.new pinv comps).inv.mulVec (mix comps x) = x := by
  apply hc
  rw [← axis_mulVec pinv, ← axis_mulVec pinv comps x, Matrix.mulVec_mulVec, Matrix.mulVec_mulVec]
  congr 1
  exact hp.1

omit [DecidableEq K] in
theorem proj_iff (n : Fin t → K) :
    ((Composition.new pinv comps).axis * (Composition.new pinv comps).inv).mulVec n = n ↔ ∃ x, n = mix comps x := by
  constructor
  · intro h
    refine ⟨(Composition.new pinv comps).inv.mulVec n, ?_⟩
    rw [← axis_mulVec pinv, Matrix.mulVec_mulVec, h]
  · rintro ⟨x, rfl⟩
    rw [← axis_mulVec pinv, Matrix.mulVec_mulVec]
    congr 1
    exact hp.1

include hc in
/-- **C48.** The composition of `x i` units of each end member is `x` divided by its sum, and its
entries sum to one. -/
theorem C48_composition (x : Fin e → K) :
    (Composition.new pinv comps).getComposition (mix comps x) = .ok (fun i => x i / ∑ j, x j, x) ∧
      (∑ j, x j ≠ 0 → ∑ i, x i / ∑ j, x j = 1) := by
  refine ⟨?_, fun h => ?_⟩
  · unfold Composition.getComposition
    rw [if_neg (not_not.2 ((proj_iff pinv comps hp _).2 ⟨x, rfl⟩))]
    simp only [inv_mix pinv comps hp hc x]
  · rw [← Finset.sum_div, div_self h]

/-- **C48.** A composition that is not a mixture of the end members is rejected. -/
theorem C48_outside (n : Fin t → K) (h : ¬ ∃ x, n = mix comps x) (es : Option (Fin e → K)) (energy : K) :
    (Composition.new pinv comps).getComposition n = .error .runtimeError ∧
      ({ Composition.new pinv comps with energies := es } : Composition t e K).formationEnergy energy n =
        .error .runtimeError := by
  have h1 : ((Composition.new pinv comps).axis * (Composition.new pinv comps).inv).mulVec n ≠ n := by
    rw [ne_eq, proj_iff pinv comps hp]; exact h
  refine ⟨if_pos h1, ?_⟩
  unfold Composition.formationEnergy Composition.getComposition
  rw [if_pos h1]; rfl

include hc in
/-- **C48.** The formation energy is the energy minus that of the mixture of end members, per unit. -/
theorem C48_formation_energy (es : Fin e → K) (x : Fin e → K) (energy : K) :
    ({ Composition.new pinv comps with energies := some es } : Composition t e K).formationEnergy energy (mix comps x) =
      .ok ((energy - ∑ i, x i * es i) / ∑ i, x i) := by
  unfold Composition.formationEnergy Composition.getComposition
  rw [if_neg (not_not.2 ((proj_iff pinv comps hp _).2 ⟨x, rfl⟩))]
  simp only [inv_mix pinv comps hp hc x, orErr, bind, Except.bind, pure, Except.pure]
  simp only [mul_comm]

include hc in
/-- **C48.** An end member has formation energy zero and the composition of that end member. -/
theorem C48_end_member (es : Fin e → K) (i : Fin e) :
    ({ Composition.new pinv comps with energies := some es } : Composition t e K).formationEnergy (es i) (comps i) = .ok 0 ∧
      ∃ p, (Composition.new pinv comps).getComposition (comps i) = .ok (fun j => if j = i then 1 else 0, p) := by
  have hm : comps i = mix comps fun j => if j = i then 1 else 0 := by
    funext k; simp [mix]
  constructor
  · rw [hm, C48_formation_energy pinv comps hp hc]; simp
  · refine ⟨fun j => if j = i then 1 else 0, ?_⟩
    rw [hm, (C48_composition pinv comps hp hc _).1]; simp

include hc in
/-- **C48.** The formation energy per unit does not change if the structure is repeated `c` times. -/
theorem C48_scale (es : Fin e → K) (x : Fin e → K) (energy c : K) (h : c ≠ 0) :
    ({ Composition.new pinv comps with energies := some es } : Composition t e K).formationEnergy (c * energy)
        (fun j => c * mix comps x j) =
      ({ Composition.new pinv comps with energies := some es } : Composition t e K).formationEnergy energy (mix comps x) := by
  have hm : (fun j => c * mix comps x j) = mix comps fun i => c * x i := by
    funext j; simp only [mix, mul_sum, mul_assoc]
  rw [hm, C48_formation_energy pinv comps hp hc, C48_formation_energy pinv comps hp hc]
  congr 1
  simp only [mul_assoc, ← mul_sum, ← mul_sub]
  exact mul_div_mul_left _ _ h

omit hp in
/-- **C48.** Many structures at once: the same results as one by one; one structure outside the span
rejects all. -/
theorem C48_many (c : Composition t e K) (energies : List K) (ns : List (Fin t → K)) (hl : energies.length = ns.length)
    (es : Fin e → K) (hes : c.energies = some es) :
    match (energies.zip ns).mapM fun p => c.formationEnergy p.1 p.2 with
    | .ok fs => ∃ rows, c.formationEnergies energies ns = .ok rows ∧ rows.map (·.2) = fs ∧
        rows.map (fun r => Except.ok (ε := Err) r.1) = ns.map fun n => (c.getComposition n).map (·.1)
    | .error err => c.formationEnergies energies ns = .error err := by
  by_cases hall : ∀ n ∈ ns, (c.axis * c.inv).mulVec n = n
  · have hf : ∀ p ∈ energies.zip ns, c.formationEnergy p.1 p.2 =
        .ok ((p.1 - ∑ i, es i * c.inv.mulVec p.2 i) / ∑ i, c.inv.mulVec p.2 i) := by
      intro p hpm
      unfold Composition.formationEnergy Composition.getComposition
      rw [if_neg (not_not.2 (hall p.2 (List.of_mem_zip hpm).2)), hes]
      rfl
    have hm : (energies.zip ns).mapM (fun p => c.formationEnergy p.1 p.2) =
        .ok ((energies.zip ns).map fun p => (p.1 - ∑ i, es i * c.inv.mulVec p.2 i) / ∑ i, c.inv.mulVec p.2 i) :=
      mapM_except_ok _ _ _ hf
    rw [hm]
    have hany : (ns.any fun n => decide ((c.axis * c.inv).mulVec n ≠ n)) = false := by
      rw [List.any_eq_false]
      intro n hn
      simpa using hall n hn
    refine ⟨List.zipWith (fun energy n => (fun i => c.inv.mulVec n i / ∑ j, c.inv.mulVec n j,
        (energy - ∑ i, es i * c.inv.mulVec n i) / ∑ i, c.inv.mulVec n i)) energies ns, ?_, ?_, ?_⟩
    · unfold Composition.formationEnergies Composition.getCompositions
      rw [hany]
      simp only [Bool.false_eq_true, if_false, hes, orErr, hl, if_true, bind, Except.bind, pure, Except.pure]
      rw [List.zipWith_map_right]
    · rw [List.map_zipWith, List.zip, List.map_zipWith]
    · rw [List.map_zipWith]
      clear hm hf hany
      induction ns generalizing energies with
      | nil => simp
      | cons n ns ih =>
        cases energies with
        | nil => simp at hl
        | cons a energies =>
          simp only [List.zipWith_cons_cons, List.map_cons]
          rw [ih energies (by simpa using hl) fun m hm => hall m (by simp [hm])]
          congr 1
          unfold Composition.getComposition
          rw [if_neg (not_not.2 (hall n (by simp)))]
          rfl
  · push Not at hall
    obtain ⟨n, hn, hne⟩ := hall
    have h1 : c.formationEnergies energies ns = .error .runtimeError := by
      unfold Composition.formationEnergies Composition.getCompositions
      rw [if_pos (List.any_eq_true.2 ⟨n, hn, by simpa using hne⟩)]; rfl
    have h2 : (energies.zip ns).mapM (fun p => c.formationEnergy p.1 p.2) = .error .runtimeError := by
      clear h1
      induction ns generalizing energies with
      | nil => simp at hn
      | cons m ns ih =>
        cases energies with
        | nil => simp at hl
        | cons a energies =>
          rw [List.zip_cons_cons, List.mapM_cons]
          by_cases hm : (c.axis * c.inv).mulVec m = m
          · have hn' : n ∈ ns := by
              rcases List.mem_cons.1 hn with rfl | h
              · exact absurd hm hne
              · exact h
            rw [ih energies (by simpa using hl) hn']
            unfold Composition.formationEnergy Composition.getComposition
            rw [if_neg (not_not.2 hm), hes]; rfl
          · unfold Composition.formationEnergy Composition.getComposition
            rw [if_pos hm]; rfl
    rw [h2]; exact h1

end

/-! ## The class used on structures -/

theorem independent_unit (n : ℕ) : Independent (fun i j : Fin n => if i = j then (1 : K) else 0) := by
  intro x y h
  funext j
  have := congrFun h j
  simpa [mix] using this

/-- **C48.** With energies per atom of the elements as end members, the formation energy is the
energy minus the sum of the elemental energies, per atom of the given elements. -/
theorem C48_elements (elements : List String)
    (pinv : (e : ℕ) → Matrix (Fin e) (Fin e) K → Matrix (Fin e) (Fin e) K) (hp : IsPinv (1 : Matrix (Fin elements.length) (Fin elements.length) K) (pinv _ 1))
    (ends : Fin elements.length → K) (st : List String) (energy : K) :
    ∃ c, ((Composition.new (pinv elements.length) fun i j => if i = j then (1 : K) else 0).setEnergies (List.ofFn ends)) = .ok c ∧
    compute elements (some c) [st] [energy] =
      .ok [(fun i => (st.count elements[i] : K) / ∑ j : Fin elements.length, (st.count elements[j] : K),
        (energy - ∑ i : Fin elements.length, (st.count elements[i] : K) * ends i) /
          ∑ j : Fin elements.length, (st.count elements[j] : K))] := by
  have hp' : IsPinv (Composition.new (pinv elements.length) fun i j => if i = j then (1 : K) else 0).axis
      (Composition.new (pinv elements.length) fun i j => if i = j then (1 : K) else 0).inv := by
    have : (Matrix.of fun i j : Fin elements.length => if j = i then (1 : K) else 0) = 1 := by
      ext i j; simp [Matrix.one_apply, eq_comm]
    unfold Composition.new
    simp only [this]
    exact hp
  refine ⟨{ Composition.new (pinv elements.length) fun i j => if i = j then (1 : K) else 0 with energies := some ends }, ?_, ?_⟩
  · unfold Composition.setEnergies
    rw [dif_neg (by simp)]
    simp
  · have hm : nAtomsOf elements st = mix (fun i j : Fin elements.length => if i = j then (1 : K) else 0)
        fun i => (st.count elements[i] : K) := by
      funext j; simp [mix, nAtomsOf]
    have h1 := C48_many { Composition.new (pinv elements.length) fun i j => if i = j then (1 : K) else 0 with energies := some ends }
      [energy] [nAtomsOf elements st] rfl ends rfl
    have h2 := C48_formation_energy (pinv elements.length) _ hp' (independent_unit _) ends
      (fun i => (st.count elements[i] : K)) energy
    rw [← hm] at h2
    have h3 := (C48_composition (pinv elements.length) _ hp' (independent_unit _)
      (fun i => (st.count elements[i] : K))).1
    rw [← hm] at h3
    simp only [List.zip_cons_cons, List.zip_nil_left, List.mapM_cons, List.mapM_nil, h2, bind, Except.bind,
      pure, Except.pure] at h1
    obtain ⟨rows, hr, hr1, hr2⟩ := h1
    have h4 : ({ Composition.new (pinv elements.length) fun i j => if i = j then (1 : K) else 0 with energies := some ends } :
      Composition _ _ K).getComposition (nAtomsOf elements st) = _ := h3
    unfold compute
    simp only [orErr, bind, Except.bind, List.length_singleton, if_true, List.map_cons, List.map_nil]
    rw [hr]
    simp only [List.map_cons, List.map_nil, h4, Except.map] at hr2
    have hlen : rows.length = 1 := by simpa using congrArg List.length hr1
    obtain ⟨r, rfl⟩ := List.length_eq_one_iff.1 hlen
    simp only [List.map_cons, List.map_nil, List.cons.injEq, and_true, Except.ok.injEq] at hr1 hr2
    obtain ⟨a, b⟩ := r
    simp only at hr1 hr2
    rw [hr1, hr2]

/-- **C48, remark.** Atoms of an element that is not in the list are silently ignored: the result
depends on the counts of the listed elements only. -/
theorem C48_foreign_ignored (elements : List String) (c : Option (Composition elements.length e K))
    (st foreign : List String) (h : ∀ a ∈ foreign, a ∉ elements) (energy : K) :
    compute elements c [st ++ foreign] [energy] = compute elements c [st] [energy] := by
  have : nAtomsOf (K := K) elements (st ++ foreign) = nAtomsOf elements st := by
    funext i
    unfold nAtomsOf
    have h0 : foreign.count elements[i] = 0 := List.count_eq_zero_of_not_mem fun hm => h _ hm (List.getElem_mem _)
    rw [List.count_append, h0, Nat.add_zero]
  unfold compute
  simp only [List.map_cons, List.map_nil, this, List.length_singleton]

/-- **C48.** Without end members, with the wrong number of energies or of end structures, the calls fail. -/
theorem C48_errors (elements : List String) (c : Composition elements.length e K) (structures : List (List String))
    (energies : List K) (pinv : Matrix (Fin elements.length) (Fin elements.length) K → Matrix (Fin elements.length) (Fin elements.length) K) :
    compute (e := e) elements none structures energies = .error .runtimeError ∧
    (energies.length ≠ structures.length → compute elements (some c) structures energies = .error .runtimeError) ∧
    (e ≠ energies.length → c.setEnergies energies = .error .runtimeError) ∧
    (structures.length ≠ elements.length ∨ energies.length ≠ elements.length →
      defineByStructures elements pinv structures energies = .error .runtimeError) := by
  refine ⟨rfl, fun h => ?_, fun h => ?_, fun h => ?_⟩
  · unfold compute
    simp only [orErr, bind, Except.bind, if_neg h]
  · unfold Composition.setEnergies
    rw [dif_pos h]
  · unfold defineByStructures
    by_cases h1 : structures.length ≠ elements.length
    · rw [dif_pos h1]
    · rw [dif_neg h1, if_pos (h.resolve_left h1)]

/-- Two end members `Ag4` and `Au8` meet the hypotheses; the structure `Ag2Au4`. -/
example :
    let comps : Fin 2 → Fin 2 → ℚ := ![![4, 0], ![0, 8]]
    let pinv : Matrix (Fin 2) (Fin 2) ℚ → Matrix (Fin 2) (Fin 2) ℚ := fun _ => !![1 / 4, 0; 0, 1 / 8]
    IsPinv (Composition.new pinv comps).axis (Composition.new pinv comps).inv ∧ Independent comps ∧
      mix comps (fun _ => 1 / 2) = ![2, 4] ∧
      ({ Composition.new pinv comps with energies := some ![-8, -24] } : Composition 2 2 ℚ).formationEnergy (-17) ![2, 4] = .ok (-1) := by
  intro comps pinv
  refine ⟨?_, ?_, ?_, ?_⟩
  · unfold IsPinv; decide +kernel
  · intro x y h
    have h0 := congrFun h 0
    have h1 := congrFun h 1
    simp only [mix, Fin.sum_univ_two, comps] at h0 h1
    simp at h0 h1
    funext i
    fin_cases i
    · exact h0
    · exact h1
  · decide +kernel
  · decide +kernel

/-! ## Finding end members -/

section
variable [LinearOrder K]

/-- The candidates for an element: single-type structures whose first atom is that element. -/
def IsCand (ele : String) (c : Cand) : Prop := c.nAtoms.length ≤ 1 ∧ c.elements.head? = some ele

theorem endStep_loop (ele : String) (cands : List (Cand × K)) (hne : ∀ p ∈ cands, p.1.nAtoms.length ≤ 1 → p.1.elements ≠ [])
    (s0 : K × Option Cand) :
    ∃ s, cands.foldlM (endStep ele) s0 = .ok s ∧ s.1 ≤ s0.1 ∧
      (∀ p ∈ cands, IsCand ele p.1 → s.1 ≤ p.2 / (p.1.elements.length : K)) ∧
      (s = s0 ∨ (s.1 < s0.1 ∧ ∃ p ∈ cands, IsCand ele p.1 ∧ s = (p.2 / (p.1.elements.length : K), some p.1))) := by
  induction cands generalizing s0 with
  | nil => exact ⟨s0, rfl, le_refl _, by simp, .inl rfl⟩
  | cons p cands ih =>
    have ih' := ih fun q hq => hne q (by simp [hq])
    rw [List.foldlM_cons]
    have skip : ¬ IsCand ele p.1 → ∃ s, cands.foldlM (endStep ele) s0 = .ok s ∧ s.1 ≤ s0.1 ∧
      (∀ q ∈ p :: cands, IsCand ele q.1 → s.1 ≤ q.2 / (q.1.elements.length : K)) ∧
      (s = s0 ∨ (s.1 < s0.1 ∧ ∃ q ∈ p :: cands, IsCand ele q.1 ∧ s = (q.2 / (q.1.elements.length : K), some q.1))) := by
      intro hnc
      obtain ⟨s, h1, h2, h3, h4⟩ := ih' s0
      refine ⟨s, h1, h2, ?_, ?_⟩
      · intro q hq hqc
        rcases List.mem_cons.1 hq with rfl | hq
        · exact absurd hqc hnc
        · exact h3 q hq hqc
      · rcases h4 with h4 | ⟨h4, q, hq, h5⟩
        · exact .inl h4
        · exact .inr ⟨h4, q, by simp [hq], h5⟩
    by_cases h1 : p.1.nAtoms.length > 1
    · have : endStep ele s0 p = .ok s0 := by unfold endStep; rw [if_pos h1]
      rw [this]
      exact skip fun hc => by have := hc.1; omega
    · obtain ⟨a, l, hl⟩ := List.exists_cons_of_ne_nil (hne p (by simp) (by omega))
      by_cases h2 : a = ele
      · have hcand : IsCand ele p.1 := ⟨by omega, by rw [hl, h2]; rfl⟩
        by_cases h3 : p.2 / (p.1.elements.length : K) < s0.1
        · have : endStep ele s0 p = .ok (p.2 / (p.1.elements.length : K), some p.1) := by
            unfold endStep
            rw [if_neg h1]
            rw [hl, h2] at h3
            rw [hl]
            simp only [h2, ne_eq, not_true_eq_false, if_false]
            rw [if_pos h3]
          rw [this]
          obtain ⟨s, g1, g2, g3, g4⟩ := ih' (p.2 / (p.1.elements.length : K), some p.1)
          refine ⟨s, g1, g2.trans h3.le, ?_, .inr ⟨lt_of_le_of_lt g2 h3, ?_⟩⟩
          · intro q hq hqc
            rcases List.mem_cons.1 hq with rfl | hq
            · exact g2
            · exact g3 q hq hqc
          · rcases g4 with g4 | ⟨-, q, hq, g5⟩
            · exact ⟨p, by simp, hcand, g4⟩
            · exact ⟨q, by simp [hq], g5⟩
        · have : endStep ele s0 p = .ok s0 := by
            unfold endStep
            rw [if_neg h1]
            rw [hl, h2] at h3
            rw [hl]
            simp only [h2, ne_eq, not_true_eq_false, if_false]
            rw [if_neg h3]
          rw [this]
          obtain ⟨s, g1, g2, g3, g4⟩ := ih' s0
          refine ⟨s, g1, g2, ?_, ?_⟩
          · intro q hq hqc
            rcases List.mem_cons.1 hq with rfl | hq
            · exact g2.trans (not_lt.1 h3)
            · exact g3 q hq hqc
          · rcases g4 with g4 | ⟨g4, q, hq, g5⟩
            · exact .inl g4
            · exact .inr ⟨g4, q, by simp [hq], g5⟩
      · have : endStep ele s0 p = .ok s0 := by
          unfold endStep
          rw [if_neg h1, hl]
          simp only [ne_eq, h2, not_false_eq_true, if_true]
        rw [this]
        refine skip fun hc => h2 ?_
        have := hc.2
        rw [hl] at this
        exact Option.some.inj this

/-- **C48.** The end member found for each element is a single-type structure of that element with the
lowest energy per atom, which is returned with it; if an element has no candidate (below `1e10`) the
call fails. -/
theorem C48_find_endmembers (big : K) (cands : List (Cand × K))
    (hne : ∀ p ∈ cands, p.1.nAtoms.length ≤ 1 → p.1.elements ≠ []) (elements : List String) :
    ((∀ ele ∈ elements, ∃ p ∈ cands, IsCand ele p.1 ∧ p.2 / (p.1.elements.length : K) < big) →
      ∃ res, findEndmembers big cands elements = .ok res ∧ List.Forall₂ (fun ele r =>
        IsCand ele r.1 ∧ (∃ p ∈ cands, p.1 = r.1 ∧ r.2 = p.2 / (p.1.elements.length : K)) ∧
        ∀ p ∈ cands, IsCand ele p.1 → r.2 ≤ p.2 / (p.1.elements.length : K)) elements res) ∧
    ((∃ ele ∈ elements, ∀ p ∈ cands, IsCand ele p.1 → ¬ p.2 / (p.1.elements.length : K) < big) →
      findEndmembers big cands elements = .error .runtimeError) := by
  unfold findEndmembers
  have found : ∀ ele, (∃ p ∈ cands, IsCand ele p.1 ∧ p.2 / (p.1.elements.length : K) < big) →
      ∃ r : Cand × K, (do
        let s ← cands.foldlM (endStep ele) (big, none)
        let st ← orErr .runtimeError s.2
        return (st, s.1)) = Except.ok r ∧ IsCand ele r.1 ∧ (∃ p ∈ cands, p.1 = r.1 ∧ r.2 = p.2 / (p.1.elements.length : K)) ∧
        ∀ p ∈ cands, IsCand ele p.1 → r.2 ≤ p.2 / (p.1.elements.length : K) := by
    rintro ele ⟨p, hp, hpc, hlt⟩
    obtain ⟨s, h1, h2, h3, h4⟩ := endStep_loop ele cands hne (big, none)
    rcases h4 with h4 | ⟨-, q, hq, hqc, h5⟩
    · exfalso
      have := h3 p hp hpc
      rw [h4] at this
      exact absurd hlt (not_lt.2 this)
    · refine ⟨(q.1, s.1), ?_, hqc, ⟨q, hq, rfl, by rw [h5]⟩, h3⟩
      rw [h1]
      simp only [bind, Except.bind, h5, orErr, pure, Except.pure]
  have missing : ∀ ele, (∀ p ∈ cands, IsCand ele p.1 → ¬ p.2 / (p.1.elements.length : K) < big) →
      (do
        let s ← cands.foldlM (endStep ele) (big, none)
        let st ← orErr .runtimeError s.2
        return (st, s.1) : Except Err (Cand × K)) = .error .runtimeError := by
    intro ele h
    obtain ⟨s, h1, h2, h3, h4⟩ := endStep_loop ele cands hne (big, none)
    rcases h4 with h4 | ⟨hlt, q, hq, hqc, h5⟩
    · rw [h1, h4]; rfl
    · exfalso
      rw [h5] at hlt
      exact h q hq hqc hlt
  constructor
  · intro h
    induction elements with
    | nil => exact ⟨[], rfl, .nil⟩
    | cons ele elements ih =>
      obtain ⟨r, hr, hr2⟩ := found ele (h ele (by simp))
      obtain ⟨res, g1, g2⟩ := ih fun e he => h e (by simp [he])
      refine ⟨r :: res, ?_, .cons hr2 g2⟩
      rw [List.mapM_cons, hr, g1]; rfl
  · intro h
    induction elements with
    | nil => simp at h
    | cons ele elements ih =>
      rw [List.mapM_cons]
      by_cases hf : ∃ p ∈ cands, IsCand ele p.1 ∧ p.2 / (p.1.elements.length : K) < big
      · obtain ⟨r, hr, -⟩ := found ele hf
        obtain ⟨ele', he', h'⟩ := h
        rw [hr, ih ⟨ele', by
          rcases List.mem_cons.1 he' with rfl | he'
          · obtain ⟨p, hp, hpc, hlt⟩ := hf
            exact absurd hlt (h' p hp hpc)
          · exact he', h'⟩]
        rfl
      · rw [missing ele fun p hp hpc hlt => hf ⟨p, hp, hpc, hlt⟩]; rfl

example : findEndmembers (100 : ℚ) [(⟨[2], ["Ag", "Ag"]⟩, -4), (⟨[1, 1], ["Ag", "Au"]⟩, -50), (⟨[1], ["Ag"]⟩, -3),
    (⟨[1], ["Au"]⟩, -5)] ["Au", "Ag"] = .ok [(⟨[1], ["Au"]⟩, -5), (⟨[1], ["Ag"]⟩, -3)] := by decide +kernel

/-! ## Names on the convex hull -/

/-- Names and rows belong together: `index i` is row `i` of the computed data, `ends i` the row of
end member `i`. -/
def Named (nEle : ℕ) (rows : List (List K)) (name : Name) (row : List K) : Prop :=
  match name with
  | .index i => rows[i]? = some row
  | .ends i => 1 ≤ i ∧ i ≤ nEle ∧ row = target nEle (i - 1)

/-- All names of a state belong to their rows. -/
def AllNamed (nEle : ℕ) (rows : List (List K)) (h : Hull K) : Prop :=
  ∃ names, h.names = some names ∧ List.Forall₂ (Named nEle rows) names h.data

omit [LinearOrder K] in
theorem appendEnds_named (nEle : ℕ) (rows : List (List K)) (h : Hull K) (hn : AllNamed nEle rows h) :
    AllNamed nEle rows (appendEnds nEle h) ∧ (∀ r ∈ h.data, r ∈ (appendEnds nEle h).data) ∧
      ∀ i, i < nEle → target nEle i ∈ (appendEnds nEle h).data := by
  unfold appendEnds
  have key : ∀ m, m ≤ nEle → let s := (List.range m).foldl (fun (s : Hull K) i =>
      if h.data.any fun row => decide (row = target nEle i) then s
      else ⟨s.data ++ [target nEle i], s.names.map (· ++ [.ends (i + 1)])⟩) h
      AllNamed nEle rows s ∧ (∀ r ∈ h.data, r ∈ s.data) ∧ ∀ i, i < m → target nEle i ∈ s.data := by
    intro m
    induction m with
    | zero => intro _; exact ⟨hn, fun r hr => hr, by simp⟩
    | succ m ih =>
      intro hm
      obtain ⟨⟨names, g1, g2⟩, g3, g4⟩ := ih (by omega)
      simp only at g1 g2 g3 g4 ⊢
      rw [List.range_succ, List.foldl_append, List.foldl_cons, List.foldl_nil]
      by_cases ha : (h.data.any fun row => decide (row = target nEle m)) = true
      · rw [if_pos ha]
        refine ⟨⟨names, g1, g2⟩, g3, fun i hi => ?_⟩
        rcases Nat.lt_succ_iff_lt_or_eq.1 hi with hi | rfl
        · exact g4 i hi
        · rw [List.any_eq_true] at ha
          obtain ⟨row, hrow, he⟩ := ha
          rw [← of_decide_eq_true he]
          exact g3 row hrow
      · rw [if_neg ha]
        refine ⟨⟨names ++ [.ends (m + 1)], by simp only [g1]; rfl, ?_⟩, ?_, ?_⟩
        · exact List.rel_append g2 (.cons ⟨by omega, hm, rfl⟩ .nil)
        · intro r hr; exact List.mem_append_left _ (g3 r hr)
        · intro i hi
          rcases Nat.lt_succ_iff_lt_or_eq.1 hi with hi | rfl
          · exact List.mem_append_left _ (g4 i hi)
          · simp
  exact key nEle (le_refl _)

theorem gather_forall₂ {α β : Type} (R : α → β → Prop) (xs : List α) (ys : List β) (h : List.Forall₂ R xs ys)
    (ids : List ℕ) (ys' : List β) (hy : gather ys ids = .ok ys') :
    ∃ xs', gather xs ids = .ok xs' ∧ List.Forall₂ R xs' ys' := by
  have hb : ∀ i ∈ ids, i < ys.length := by
    intro i hi
    by_contra hn
    have : gather ys ids = .error .indexError := by
      clear hy
      unfold gather
      induction ids with
      | nil => simp at hi
      | cons a ids ih =>
        rw [List.mapM_cons]
        rcases List.mem_cons.1 hi with rfl | hi
        · rw [List.getElem?_eq_none (by omega)]; rfl
        · cases hya : ys[a]? with
          | none => rfl
          | some y => rw [ih hi]; rfl
    rw [this] at hy; cases hy
  have hl := h.length_eq
  rw [gather_eq ys ids hb] at hy
  refine ⟨_, gather_eq xs ids fun i hi => by rw [hl]; exact hb i hi, ?_⟩
  cases hy
  induction ids with
  | nil => exact .nil
  | cons a ids ih =>
    have ha := hb a (by simp)
    rw [List.filterMap_cons, List.filterMap_cons, List.getElem?_eq_getElem ha,
      List.getElem?_eq_getElem (by rw [hl]; exact ha)]
    exact .cons (h.get _ _) (ih fun i hi => hb i (by simp [hi]))

omit [Field K] [DecidableEq K] [LinearOrder K] in
theorem sliceHull_named [Field K] [DecidableEq K] (nEle : ℕ) (rows : List (List K)) (h h' : Hull K) (ids : List ℕ)
    (hn : AllNamed nEle rows h) (hs : sliceHull h ids = .ok h') : AllNamed nEle rows h' := by
  obtain ⟨names, g1, g2⟩ := hn
  unfold sliceHull at hs
  cases hd : gather h.data ids with
  | error e => rw [hd] at hs; cases hs
  | ok d =>
    obtain ⟨ns, hns, hf⟩ := gather_forall₂ _ _ _ g2 ids d hd
    rw [hd] at hs
    simp only [bind, Except.bind, g1, sliceNames, hns, Except.map, pure, Except.pure, Except.ok.injEq] at hs
    rw [← hs]
    exact ⟨ns, rfl, hf⟩

/-- **C56.** After `compute` without names, `convex_hull` labels every row on the hull with the
structure it was computed from, or with the end member it stands for; every end member gets a row. -/
theorem C56_names_partial (hull lexsort : List (List K) → List ℕ) (nEle : ℕ) (tol : K) (h0 : Hull K) (rows : List (List K))
    (h1 res : Hull K) (hr : convexHull hull lexsort nEle tol (setData h0 rows false) = .ok (h1, res)) :
    AllNamed nEle rows res ∧ AllNamed nEle rows h1 ∧ ∀ i, i < nEle → target nEle i ∈ h1.data := by
  have hn : AllNamed nEle rows (setData h0 rows false) := by
    refine ⟨(List.range rows.length).map .index, rfl, ?_⟩
    rw [List.forall₂_iff_get]
    refine ⟨by simp [setData], fun i h1 h2 => ?_⟩
    simp only [setData] at h2 ⊢
    simp [Named, List.get_eq_getElem, List.getElem?_eq_getElem h2]
  obtain ⟨a1, a2, a3⟩ := appendEnds_named nEle rows _ hn
  unfold convexHull at hr
  simp only [bind, Except.bind] at hr
  cases e1 : sliceHull (appendEnds nEle (setData h0 rows false))
      (whereTrue ((appendEnds nEle (setData h0 rows false)).data.map fun row => decide (row.getLast?.getD 0 < tol))) with
  | error e => rw [e1] at hr; cases hr
  | ok h2 =>
    rw [e1] at hr
    simp only at hr
    have n2 := sliceHull_named nEle rows _ _ _ a1 e1
    cases e2 : sliceConvex hull nEle h2 with
    | error e => rw [e2] at hr; cases hr
    | ok h3 =>
      rw [e2] at hr
      simp only at hr
      have n3 : AllNamed nEle rows h3 := by
        unfold sliceConvex at e2
        split_ifs at e2 with hc
        · exact sliceHull_named nEle rows _ _ _ n2 e2
        · cases e2; exact n2
      cases e3 : sliceHull h3 (lexsort h3.data) with
      | error e => rw [e3] at hr; cases hr
      | ok h4 =>
        rw [e3] at hr
        simp only [pure, Except.pure, Except.ok.injEq, Prod.mk.injEq] at hr
        obtain ⟨rfl, rfl⟩ := hr
        exact ⟨sliceHull_named nEle rows _ _ _ n3 e3, a1, a3⟩

/-- **C56 is violated** if names are passed: they are ignored, and after an earlier call the names of
the earlier structures are used, so that the hull of a larger set fails with `IndexError`. -/
theorem C56_names_ignored :
    (∀ (h : Hull ℚ) rows, (setData h rows true).names = h.names) ∧
    convexHull (K := ℚ) (fun d => List.range d.length) (fun d => List.range d.length) 1 0
      (setData (setData ⟨[], none⟩ [[1, -1]] false) [[1, -2], [1, -3], [1, -4]] true) = .error .indexError := by
  refine ⟨fun _ _ => rfl, by decide +kernel⟩

/-- A hull of two computed rows and one missing end member. -/
example : (convexHull (K := ℚ) (fun d => List.range d.length) (fun d => (List.range d.length).reverse) 2 (1 / 100)
    (setData ⟨[], none⟩ [[1 / 2, 1 / 2, -1], [1, 0, 0], [1 / 4, 3 / 4, 2]] false)).map (·.2) =
    .ok ⟨[[0, 1, 0], [1, 0, 0], [1 / 2, 1 / 2, -1]], some [.ends 2, .index 1, .index 0]⟩ := by decide +kernel

end

end Verif.Formation
