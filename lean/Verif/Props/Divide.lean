import Verif.Model.Divide
import Verif.Spec.Divide
import Verif.Props.Split
import Verif.Lemmas.Dict
import Verif.Lemmas.AtomOrder
import Mathlib.Data.List.Induction
import Mathlib.Tactic.Linarith
import Mathlib.Tactic.NormNum
import Mathlib.Tactic.Ring

/-!
C40: automatic division of data sets.
-/

namespace Verif.Divide
open Verif.Split Verif.Spec
variable {K : Type} [Field K] [LinearOrder K]

/-! ## Extracted properties -/

theorem extract_loop (std : List K → K) (forces : List K) (natoms : List ℕ) (acc : List K) (b : ℕ) :
    natoms.foldl (fun (s : List K × ℕ) n =>
      (s.1 ++ [std (slice forces s.2 (s.2 + 3 * n))], s.2 + 3 * n)) (acc, b) =
    (acc ++ (List.range natoms.length).map fun (i : ℕ) =>
        std (slice forces (b + 3 * (natoms.take i).sum) (b + 3 * (natoms.take (i + 1)).sum)),
      b + 3 * natoms.sum) := by
  induction natoms generalizing acc b with
  | nil => simp
  | cons n natoms ih =>
    rw [List.foldl_cons, ih]
    have h1 : ∀ i : ℕ, std (slice forces (b + 3 * n + 3 * (natoms.take i).sum)
        (b + 3 * n + 3 * (natoms.take (i + 1)).sum)) =
        std (slice forces (b + 3 * ((n :: natoms).take (i + 1)).sum) (b + 3 * ((n :: natoms).take (i + 2)).sum)) := by
      intro i
      simp only [List.take_succ_cons, List.sum_cons]
      congr 2 <;> ring
    have h2 : b + 3 * n + 3 * natoms.sum = b + 3 * (n :: natoms).sum := by
      rw [List.sum_cons]; ring
    simp only [h1, h2]
    rw [List.length_cons, List.range_succ_eq_map, List.map_cons, List.map_map, List.append_assoc,
      List.singleton_append]
    simp [Function.comp_def]

/-- **C40.** The properties compared with the thresholds: the energy per atom, and the deviation of
the structure's own force components. -/
theorem C40_extract (std : List K → K) (energies : List K) (natoms : List ℕ) (forces : List (List K))
    (he : energies.length = natoms.length)
    (hf : List.Forall₂ (fun fs n => fs.length = 3 * n) forces natoms) :
    extract std energies natoms forces.flatten =
      (List.zipWith (fun (e : K) (n : ℕ) => e / (n : K)) energies natoms, forces.map std) := by
  unfold extract
  rw [extract_loop]
  refine Prod.ext ?_ ?_
  · simp [List.zip, List.map_zipWith]
  · simp only [List.nil_append, Nat.zero_add]
    clear he
    induction hf with
    | nil => rfl
    | @cons fs n forces natoms h _ ih =>
      rw [List.length_cons, List.range_succ_eq_map, List.map_cons, List.map_cons, ← ih, List.map_map]
      congr 1
      · simp only [List.take_zero, List.sum_nil, List.take_succ_cons, List.sum_cons, slice]
        simp [← h]
      · apply List.map_congr_left
        intro i _
        simp only [Function.comp_apply, List.take_succ_cons, List.sum_cons, slice, List.flatten_cons]
        congr 1
        have : ∀ a : ℕ, 3 * (n + a) = fs.length + 3 * a := by intro a; rw [h]; ring
        rw [this, this, List.take_length_add_append, List.drop_length_add_append]

example : extract (fun l : List ℚ => l.sum) [4, 9] [1, 3] [1, 2, 3, 0, 0, 0, 0, 0, 0, 0, 0, 5] = ([4, 3], [6, 5]) := by
  decide +kernel

/-! ## Assigning groups -/

theorem assign_loop (values : List K) (th : ℕ → K) (m : ℕ) :
    (List.range m).foldl (fun g i => assign values (th i) i g) (List.replicate values.length 0) =
      values.map fun e => (List.range m).foldl (fun v i => if e ≤ th i then i + 1 else v) 0 := by
  induction m with
  | zero => simp [List.map_const']
  | succ m ih =>
    rw [List.range_succ, List.foldl_append, ih]
    simp only [List.foldl_append, List.foldl_cons, List.foldl_nil, assign]
    clear ih
    induction values with
    | nil => rfl
    | cons v values ih2 => simp [ih2]

theorem foldl_pair {α β γ : Type} (f : α → γ → α) (g : β → γ → β) (l : List γ) (a : α) (b : β) :
    l.foldl (fun (s : α × β) i => (f s.1 i, g s.2 i)) (a, b) = (l.foldl f a, l.foldl g b) := by
  induction l generalizing a b with
  | nil => rfl
  | cons i l ih => simp only [List.foldl_cons]; exact ih _ _

/-- The last index of the loop that satisfies the condition, plus one. -/
theorem lastHit (P : ℕ → Prop) [DecidablePred P] (m : ℕ) :
    let v := (List.range m).foldl (fun v i => if P i then i + 1 else v) 0
    v ≤ m ∧ (0 < v → P (v - 1)) ∧ ∀ k, v ≤ k → k < m → ¬ P k := by
  induction m with
  | zero => simp
  | succ m ih =>
    simp only at ih ⊢
    rw [List.range_succ, List.foldl_append, List.foldl_cons, List.foldl_nil]
    split_ifs with h
    · exact ⟨le_refl _, fun _ => by simpa using h, fun k h1 h2 => by omega⟩
    · refine ⟨by omega, ih.2.1, fun k h1 h2 => ?_⟩
      by_cases hk : k = m
      · rw [hk]; exact h
      · exact ih.2.2 k h1 (by omega)

theorem max_lastHit (P Q : ℕ → Prop) [DecidablePred P] [DecidablePred Q] (m : ℕ) :
    let v := max ((List.range m).foldl (fun v i => if P i then i + 1 else v) 0)
      ((List.range m).foldl (fun v i => if Q i then i + 1 else v) 0)
    v ≤ m ∧ (0 < v → P (v - 1) ∨ Q (v - 1)) ∧ ∀ k, v ≤ k → k < m → ¬ (P k ∨ Q k) := by
  obtain ⟨a1, a2, a3⟩ := lastHit P m
  obtain ⟨b1, b2, b3⟩ := lastHit Q m
  simp only at *
  set a := (List.range m).foldl (fun v i => if P i then i + 1 else v) 0
  set b := (List.range m).foldl (fun v i => if Q i then i + 1 else v) 0
  refine ⟨max_le a1 b1, fun h => ?_, fun k h1 h2 => ?_⟩
  · rcases le_total a b with hab | hab
    · rw [max_eq_right hab] at h ⊢; exact .inr (b2 h)
    · rw [max_eq_left hab] at h ⊢; exact .inl (a2 h)
  · have h3 := le_max_left a b
    have h4 := le_max_right a b
    rintro (h | h)
    · exact a3 k (by omega) h2 h
    · exact b3 k (by omega) h2 h

theorem minOf_ok (xs : List K) (h : xs ≠ []) :
    ∃ m, minOf xs = .ok m ∧ m ∈ xs ∧ ∀ x ∈ xs, m ≤ x := by
  obtain ⟨a, l, rfl⟩ := List.exists_cons_of_ne_nil h
  refine ⟨l.foldl min a, rfl, ?_⟩
  clear h
  induction l generalizing a with
  | nil => simp
  | cons b l ih =>
    rw [List.foldl_cons]
    obtain ⟨h1, h2⟩ := ih (min a b)
    refine ⟨?_, ?_⟩
    · rcases List.mem_cons.1 h1 with h | h
      · rw [h]
        rcases le_total a b with hab | hab
        · rw [min_eq_left hab]; simp
        · rw [min_eq_right hab]; simp
      · simp [h]
    · intro x hx
      have hm := h2 (min a b) (by simp)
      rcases List.mem_cons.1 hx with rfl | hx
      · exact hm.trans (min_le_left _ _)
      · rcases List.mem_cons.1 hx with rfl | hx
        · exact hm.trans (min_le_right _ _)
        · exact h2 x (by simp [hx])

/-- **C40.** Every structure gets the group of the last threshold that it meets. -/
theorem C40_groups (pow2 : K → K) (eAll fAll : List K) (n : ℕ) (hne : eAll ≠ [])
    (hl : eAll.length = fAll.length) :
    ∃ (groups : List ℕ) (eMin : K), split pow2 eAll fAll n = .ok groups ∧
      groups.length = eAll.length ∧ (eMin ∈ eAll ∧ ∀ e ∈ eAll, eMin ≤ e) ∧
      ∀ (i : ℕ) (e f : K), eAll[i]? = some e → fAll[i]? = some f →
        ∃ g, groups[i]? = some g ∧ InGroup pow2 n eMin (fAll.sum / (fAll.length : K)) e f g := by
  obtain ⟨eMin, hm, hmem, hle⟩ := minOf_ok eAll hne
  refine ⟨(eAll.zip fAll).map fun p =>
    max ((List.range (n - 1)).foldl (fun v i => if p.1 ≤ eThreshold n eMin i then i + 1 else v) 0)
      ((List.range (n - 1)).foldl (fun v i => if p.2 ≤ fThreshold pow2 n (average fAll) i then i + 1 else v) 0),
    eMin, ?_, by simp [hl], ⟨hmem, hle⟩, ?_⟩
  · unfold split
    rw [hm]
    simp only [bind, Except.bind, pure, Except.pure]
    rw [foldl_pair (fun g i => assign eAll (eThreshold n eMin i) i g)
      (fun g i => assign fAll (fThreshold pow2 n (average fAll) i) i g), assign_loop]
    rw [show List.replicate eAll.length 0 = List.replicate fAll.length 0 by rw [hl], assign_loop]
    rw [List.zip_map, List.map_map]
    rfl
  · intro i e f he hf
    have hz : (eAll.zip fAll)[i]? = some (e, f) := by
      rw [List.getElem?_zip_eq_some]; exact ⟨he, hf⟩
    refine ⟨_, by rw [List.getElem?_map, hz, Option.map_some], ?_⟩
    have := max_lastHit (fun i => e ≤ eThreshold n eMin i)
      (fun i => f ≤ fThreshold pow2 n (average fAll) i) (n - 1)
    simp only at this
    have heq : ∀ k, Meets pow2 n eMin (fAll.sum / (fAll.length : K)) e f k ↔
        (e ≤ eThreshold n eMin k ∨ f ≤ fThreshold pow2 n (average fAll) k) := by
      intro k
      unfold Meets eThreshold fThreshold average
      have : (2 : K) + (k : K) * ((-4 - 2) / ((n - 1 : ℕ) : K)) = 2 - 6 * (k : K) / ((n - 1 : ℕ) : K) := by ring
      rw [this]
    unfold InGroup
    simp only [heq]
    exact this

/-! ## Splitting each group -/

theorem mem_whereEq (groups : List ℕ) (g i : ℕ) : i ∈ whereEq groups g ↔ groups[i]? = some g := by
  unfold whereEq
  rw [mem_whereTrue, List.getElem?_map]
  cases groups[i]? <;> simp

theorem whereEq_nodup (groups : List ℕ) (g : ℕ) : (whereEq groups g).Nodup :=
  (whereTrue_sorted _).imp fun h => Nat.ne_of_lt h

theorem groupPart_ok (ratio : ℚ) (h0 : 0 ≤ ratio) (h1 : ratio ≤ 1) (groups : List ℕ) (g : ℕ) :
    ∃ tr te, groupPart ratio groups g = .ok (.attr tr te) ∧ (tr ++ te).Perm (whereEq groups g) := by
  obtain ⟨tr, te, h, -, -, hp, -⟩ := C02_split_files (whereEq groups g) ratio h0 h1
  exact ⟨tr, te, by unfold groupPart; rw [h]; rfl, hp⟩

/-- Every structure index appears in exactly one group, on exactly one side. -/
theorem parts_cover (ratio : ℚ) (h0 : 0 ≤ ratio) (h1 : ratio ≤ 1) (groups : List ℕ) (m : ℕ)
    (hm : ∀ g ∈ groups, g < m) :
    ∃ ps : List (List ℕ × List ℕ),
      (List.range m).mapM (groupPart ratio groups) = .ok (ps.map fun p => .attr p.1 p.2) ∧
      ps.length = m ∧
      (∀ (g : ℕ) (tr te : List ℕ), ps[g]? = some (tr, te) → ∀ i, (i ∈ tr ∨ i ∈ te) ↔ groups[i]? = some g) ∧
      (ps.flatMap fun p => p.1 ++ p.2).Perm (List.range groups.length) := by
  choose tr te hok hperm using groupPart_ok ratio h0 h1 groups
  refine ⟨(List.range m).map fun g => (tr g, te g), ?_, by simp, ?_, ?_⟩
  · rw [List.map_map]
    exact mapM_except_ok _ _ _ fun g _ => hok g
  · intro g a b hg i
    have hgm : g < m := by
      have := (List.getElem?_eq_some_iff.mp hg).1; simpa using this
    rw [List.getElem?_map, List.getElem?_range hgm] at hg
    simp only [Option.map_some, Option.some.injEq, Prod.mk.injEq] at hg
    obtain ⟨rfl, rfl⟩ := hg
    rw [← List.mem_append, (hperm g).mem_iff, mem_whereEq]
  · rw [List.flatMap_map]
    have hp : ((List.range m).flatMap fun g => tr g ++ te g).Perm
        ((List.range m).flatMap fun g => whereEq groups g) :=
      List.Perm.flatMap_left _ fun g _ => hperm g
    refine hp.trans ?_
    rw [List.perm_ext_iff_of_nodup ?_ List.nodup_range]
    · intro i
      rw [List.mem_flatMap, List.mem_range]
      constructor
      · rintro ⟨g, -, hg⟩
        exact (List.getElem?_eq_some_iff.mp ((mem_whereEq _ _ _).1 hg)).1
      · intro hi
        refine ⟨groups[i], List.mem_range.2 (hm _ (List.getElem_mem hi)), ?_⟩
        rw [mem_whereEq, List.getElem?_eq_getElem hi]
    · rw [List.nodup_flatMap]
      refine ⟨fun g _ => whereEq_nodup _ _, List.nodup_range.imp ?_⟩
      intro a b hab i hi hj
      rw [mem_whereEq] at hi hj
      rw [hi] at hj
      exact hab (Option.some.inj hj)

/-- **C40.** Elemental systems, at least two groups: every structure is in exactly one of the groups,
on exactly one side, and its group is that of the last threshold it meets. -/
theorem C40_elemental (pow2 : K → K) (ratio : ℚ) (h0 : 0 ≤ ratio) (h1 : ratio ≤ 1) (eAll fAll : List K)
    (n : ℕ) (hn : 2 ≤ n) (hne : eAll ≠ []) (hl : eAll.length = fAll.length) :
    ∃ (ps : List (List ℕ × List ℕ)) (eMin : K),
      splitDatasets pow2 ratio eAll fAll n = .ok (ps.map fun p => .attr p.1 p.2) ∧ ps.length = n ∧
      (ps.flatMap fun p => p.1 ++ p.2).Perm (List.range eAll.length) ∧
      (eMin ∈ eAll ∧ ∀ e ∈ eAll, eMin ≤ e) ∧
      ∀ (g : ℕ) (tr te : List ℕ), ps[g]? = some (tr, te) → ∀ i, i ∈ tr ∨ i ∈ te →
        ∃ e f, eAll[i]? = some e ∧ fAll[i]? = some f ∧
          InGroup pow2 n eMin (fAll.sum / (fAll.length : K)) e f g := by
  obtain ⟨groups, eMin, hs, hgl, hmin, hg⟩ := C40_groups pow2 eAll fAll n hne hl
  have key : ∀ (i g : ℕ), groups[i]? = some g → ∃ e f, eAll[i]? = some e ∧ fAll[i]? = some f ∧
      InGroup pow2 n eMin (fAll.sum / (fAll.length : K)) e f g := by
    intro i g hi
    have hil := (List.getElem?_eq_some_iff.mp hi).1
    have e1 := List.getElem?_eq_getElem (l := eAll) (i := i) (by omega)
    have e2 := List.getElem?_eq_getElem (l := fAll) (i := i) (by omega)
    obtain ⟨g', hg', hin⟩ := hg i _ _ e1 e2
    rw [hi] at hg'
    cases hg'
    exact ⟨_, _, e1, e2, hin⟩
  obtain ⟨ps, hp, hpl, hmem, hperm⟩ := parts_cover ratio h0 h1 groups n (by
    intro g hgm
    obtain ⟨i, hi⟩ := List.getElem?_of_mem hgm
    obtain ⟨_, _, _, _, hin⟩ := key i g hi
    have := hin.1; omega)
  refine ⟨ps, eMin, ?_, hpl, hgl ▸ hperm, hmin, fun g tr te hps i hi => key i g ((hmem g tr te hps i).1 hi)⟩
  unfold splitDatasets
  rw [if_neg (by omega), hs]
  exact hp

/-- **C40.** An empty data set raises `ValueError`. -/
theorem C40_empty (pow2 : K → K) (ratio : ℚ) (fAll : List K) (n : ℕ) (hn : 2 ≤ n) :
    splitDatasets pow2 ratio [] fAll n = .error .valueError := by
  unfold splitDatasets
  rw [if_neg (by omega)]; rfl

/-- **C40, violation.** With fewer than two groups the function returns a bare tuple, on which the
caller fails with `AttributeError`. -/
theorem C40_one_group_crash {α : Type} (pow2 : K → K) (ratio : ℚ) (h0 : 0 ≤ ratio) (h1 : ratio ≤ 1)
    (eAll fAll : List K) (n : ℕ) (hn : n < 2) (files : List α) :
    ∃ parts, splitDatasets pow2 ratio eAll fAll n = .ok parts ∧
      writeAll files false n parts = .error .attributeError := by
  obtain ⟨tr, te, h, -⟩ := C02_split_files (List.range eAll.length) ratio h0 h1
  refine ⟨[.tuple tr te], ?_, ?_⟩
  · unfold splitDatasets; rw [if_pos hn, h]; rfl
  · rcases (by omega : n = 0 ∨ n = 1) with rfl | rfl <;> rfl

/-! ## Alloys -/

section Alloy
variable {κ : Type} [DecidableEq κ]

omit [Field K] [LinearOrder K] in
theorem compIds_snoc (keys : List κ) (c : κ) :
    compIds (keys ++ [c]) =
      (compIds keys).set c ((((compIds keys).get? c).getD []) ++ [keys.length]) := by
  unfold compIds
  rw [List.zipIdx_append, List.foldl_append]
  simp

theorem compIds_spec (keys : List κ) :
    (compIds keys).keys.Nodup ∧ (∀ c, c ∈ (compIds keys).keys ↔ c ∈ keys) ∧
      ∀ c, c ∈ keys → (compIds keys).get? c = some (idsOfComp keys c) := by
  induction keys using List.reverseRecOn with
  | nil => simp [compIds, Dict.keys]
  | append_singleton keys c ih =>
    obtain ⟨h1, h2, h3⟩ := ih
    rw [compIds_snoc]
    refine ⟨Dict.nodup_keys_set h1 _ _, ?_, ?_⟩
    · intro c'
      rw [Dict.keys_set]
      split_ifs with h
      · rw [h2]
        constructor
        · intro h'; simp [h']
        · intro h'
          rcases List.mem_append.1 h' with h' | h'
          · exact h'
          · rw [List.mem_singleton.1 h']; exact (h2 c).1 h
      · simp [h2]
    · intro c' hc'
      have hids : ∀ d, idsOfComp (keys ++ [c]) d =
          idsOfComp keys d ++ if c = d then [keys.length] else [] := by
        intro d
        unfold idsOfComp
        rw [List.length_append, List.length_singleton, List.range_succ, List.filter_append]
        congr 1
        · apply List.filter_congr
          intro i hi
          rw [List.getElem?_append_left (List.mem_range.1 hi)]
        · rw [List.filter_singleton, List.getElem?_append_right (le_refl _), Nat.sub_self]
          by_cases hcd : c = d <;> simp [hcd]
      rw [Dict.get?_set, hids]
      by_cases hcc : c' = c
      · subst hcc
        rw [if_pos rfl, if_pos rfl]
        congr 2
        by_cases hm : c' ∈ keys
        · rw [h3 c' hm]; rfl
        · have : (compIds keys).get? c' = none := by
            rw [Dict.get?_eq_none, h2]; exact hm
          rw [this]
          symm
          unfold idsOfComp
          rw [List.filter_eq_nil_iff.2]
          · rfl
          · intro i _ hi
            exact hm (List.mem_of_getElem? (by simpa using hi))
      · rw [if_neg hcc, if_neg (Ne.symm hcc), List.append_nil]
        exact h3 c' (by simpa [hcc] using hc')

theorem mem_idsOfComp (keys : List κ) (c : κ) (i : ℕ) : i ∈ idsOfComp keys c ↔ keys[i]? = some c := by
  unfold idsOfComp
  rw [List.mem_filter, List.mem_range, decide_eq_true_eq]
  exact ⟨fun h => h.2, fun h => ⟨(List.getElem?_eq_some_iff.mp h).1, h⟩⟩

theorem nodup_idsOfComp (keys : List κ) (c : κ) : (idsOfComp keys c).Nodup := List.nodup_range.filter _

theorem get?_zipIdx (f : ℕ → ℕ) (l : List κ) (hn : l.Nodup) (k : ℕ) (c : κ) (i : ℕ) (hi : l[i]? = some c) :
    Dict.get? ((l.zipIdx k).map fun p => (p.1, f p.2)) c = some (f (k + i)) := by
  induction l generalizing k i with
  | nil => simp at hi
  | cons a l ih =>
    rw [List.nodup_cons] at hn
    unfold Dict.get?
    rw [List.zipIdx_cons, List.map_cons, List.find?_cons]
    cases i with
    | zero =>
      simp only [List.getElem?_cons_zero, Option.some.injEq] at hi
      simp [hi]
    | succ i =>
      rw [List.getElem?_cons_succ] at hi
      have : a ≠ c := by rintro rfl; exact hn.1 (List.mem_of_getElem? hi)
      simp only [this, decide_false]
      have := ih hn.2 (k + 1) i hi
      unfold Dict.get? at this
      rw [this]; congr 2; omega

theorem endComp_eq (isEnd : κ → Bool) (n : ℕ) (comps : List κ) (hn : comps.Nodup) :
    endComp isEnd n comps = (comps.filter isEnd).zipIdx.map fun p => (p.1, n * (p.2 + 1)) := by
  have key : comps.foldl (fun (s : Dict κ ℕ × ℕ) c =>
      if isEnd c then (if (s.1.get? c).isSome then s else (s.1.set c s.2, s.2 + n)) else s) ([], n) =
      ((comps.filter isEnd).zipIdx.map fun p => (p.1, n * (p.2 + 1)), n * ((comps.filter isEnd).length + 1)) := by
    induction comps using List.reverseRecOn with
    | nil => simp
    | append_singleton comps c ih =>
      rw [List.nodup_append] at hn
      have hc : c ∉ comps := fun h => hn.2.2 c h c (by simp) rfl
      rw [List.foldl_append, ih hn.1, List.foldl_cons, List.foldl_nil, List.filter_append]
      by_cases he : isEnd c = true
      · have hk : c ∉ Dict.keys ((comps.filter isEnd).zipIdx.map fun p => (p.1, n * (p.2 + 1))) := by
          unfold Dict.keys
          rw [List.map_map]
          intro h
          rw [List.mem_map] at h
          obtain ⟨p, hp, rfl⟩ := h
          have := (List.mem_zipIdx' hp).2
          exact hc (by
            have hm : p.1 ∈ comps.filter isEnd := by
              rw [List.mem_iff_getElem]; exact ⟨p.2, (List.mem_zipIdx' hp).1, this.symm⟩
            exact List.mem_of_mem_filter hm)
        rw [if_pos he, List.filter_singleton, he, cond_true]
        simp only
        rw [if_neg (by rw [← Dict.mem_keys_iff]; exact hk), List.zipIdx_append, List.map_append]
        refine Prod.ext ?_ ?_
        · simp only
          unfold Dict.set
          rw [if_neg]
          · simp
          · intro ha
            rw [List.any_eq_true] at ha
            obtain ⟨q, hq, hqc⟩ := ha
            apply hk
            unfold Dict.keys
            rw [List.mem_map]
            exact ⟨q, hq, by simpa using hqc⟩
        · simp only [List.length_append, List.length_singleton]; ring
      · rw [if_neg he, List.filter_singleton, Bool.eq_false_of_not_eq_true he, cond_false]; simp
  unfold endComp
  rw [key]

/-- Where the offset of a composition comes from. -/
def offset (isEnd : κ → Bool) (n : ℕ) (comps : List κ) (c : κ) : ℕ :=
  ((endComp isEnd n comps).get? c).getD 0

theorem offset_spec (isEnd : κ → Bool) (n : ℕ) (comps : List κ) (hn : comps.Nodup) :
    (∀ c, isEnd c = false → offset isEnd n comps c = 0) ∧
    (∀ c ∈ comps, isEnd c = true → ∃ j, (comps.filter isEnd)[j]? = some c ∧
      offset isEnd n comps c = n * (j + 1)) := by
  unfold offset
  rw [endComp_eq isEnd n comps hn]
  refine ⟨fun c hc => ?_, fun c hc he => ?_⟩
  · have : Dict.get? ((comps.filter isEnd).zipIdx.map fun p => (p.1, n * (p.2 + 1))) c = none := by
      rw [Dict.get?_eq_none]
      unfold Dict.keys
      rw [List.map_map]
      intro h
      rw [List.mem_map] at h
      obtain ⟨p, hp, hpc⟩ := h
      have h2 := List.mem_zipIdx' hp
      have hm : p.1 ∈ comps.filter isEnd := by
        rw [List.mem_iff_getElem]; exact ⟨p.2, h2.1, h2.2.symm⟩
      have h3 := List.of_mem_filter hm
      simp only [Function.comp_apply] at hpc
      rw [hpc, hc] at h3
      exact absurd h3 (by simp)
    rw [this]; rfl
  · obtain ⟨j, hj⟩ := List.getElem?_of_mem (List.mem_filter.2 ⟨hc, he⟩)
    refine ⟨j, hj, ?_⟩
    rw [get?_zipIdx (fun i => n * (i + 1)) _ (hn.filter _) 0 c j hj]
    simp

theorem scatter_get (groups ids vals : List ℕ) (hl : ids.length = vals.length) (hn : ids.Nodup)
    (hb : ∀ i ∈ ids, i < groups.length) :
    (scatter groups ids vals).length = groups.length ∧
    (∀ i : ℕ, i ∉ ids → (scatter groups ids vals)[i]? = groups[i]?) ∧
    (∀ (k i : ℕ), ids[k]? = some i → (scatter groups ids vals)[i]? = vals[k]?) := by
  unfold scatter
  induction ids generalizing groups vals with
  | nil => simp
  | cons a ids ih =>
    cases vals with
    | nil => simp at hl
    | cons v vals =>
      rw [List.nodup_cons] at hn
      obtain ⟨h1, h2, h3⟩ := ih (groups.set a v) vals (by simpa using hl) hn.2
        (fun i hi => by rw [List.length_set]; exact hb i (by simp [hi]))
      rw [List.zip_cons_cons, List.foldl_cons]
      refine ⟨by rw [h1, List.length_set], fun i hi => ?_, fun k i hk => ?_⟩
      · simp only [List.mem_cons, not_or] at hi
        rw [h2 i hi.2, List.getElem?_set_ne (Ne.symm hi.1)]
      · cases k with
        | zero =>
          simp only [List.getElem?_cons_zero, Option.some.injEq] at hk
          subst hk
          rw [h2 a hn.1, List.getElem?_set_self (hb a (by simp))]
          rfl
        | succ k =>
          rw [List.getElem?_cons_succ] at hk ⊢
          exact h3 k i hk

theorem filterMap_getElem {α : Type} (xs : List α) (ids : List ℕ) (h : ∀ i ∈ ids, i < xs.length) :
    (ids.filterMap (xs[·]?)).length = ids.length ∧
      ∀ (k i : ℕ), ids[k]? = some i → (ids.filterMap (xs[·]?))[k]? = xs[i]? := by
  induction ids with
  | nil => simp
  | cons a ids ih =>
    obtain ⟨h1, h2⟩ := ih fun i hi => h i (by simp [hi])
    have ha := h a (by simp)
    rw [List.filterMap_cons, List.getElem?_eq_getElem ha]
    refine ⟨by simp [h1], fun k i hk => ?_⟩
    cases k with
    | zero =>
      simp only [List.getElem?_cons_zero, Option.some.injEq] at hk
      subst hk
      simp [ha]
    | succ k => simpa using h2 k i (by simpa using hk)

theorem alloy_loop (pow2 : K → K) (eAll fAll : List K) (n : ℕ) (hl : eAll.length = fAll.length)
    (ends : Dict κ ℕ) (L : List (κ × List ℕ)) :
    ∀ groups0 : List ℕ, groups0.length = eAll.length →
    (∀ p ∈ L, p.2 ≠ [] ∧ p.2.Nodup ∧ ∀ i ∈ p.2, i < eAll.length) →
    (L.Pairwise fun p q => ∀ i ∈ p.2, i ∉ q.2) →
    ∃ groups, L.foldlM (alloyStep pow2 eAll fAll n ends) groups0 = .ok groups ∧
      groups.length = eAll.length ∧
      (∀ i : ℕ, (∀ p ∈ L, i ∉ p.2) → groups[i]? = groups0[i]?) ∧
      (∀ p ∈ L, ∀ i ∈ p.2, ∃ g, groups[i]? = some (g + ((ends.get? p.1).getD 0)) ∧
        LocalGroup pow2 eAll fAll n p.2 i g) := by
  induction L with
  | nil => intro groups0 h0 _ _; exact ⟨groups0, rfl, h0, fun _ _ => rfl, by simp⟩
  | cons p L ih =>
    intro groups0 h0 hL hd
    rw [List.pairwise_cons] at hd
    obtain ⟨hne, hnd, hb⟩ := hL p (by simp)
    have hbf : ∀ i ∈ p.2, i < fAll.length := fun i hi => hl ▸ hb i hi
    obtain ⟨le, ge⟩ := filterMap_getElem eAll p.2 hb
    obtain ⟨lf, gf⟩ := filterMap_getElem fAll p.2 hbf
    have hne' : p.2.filterMap (eAll[·]?) ≠ [] := by
      intro h
      have := congrArg List.length h
      rw [le] at this
      exact hne (List.length_eq_zero_iff.1 (by simpa using this))
    obtain ⟨loc, eMin, hs, hll, ⟨hm1, hm2⟩, hin⟩ := C40_groups pow2 (p.2.filterMap (eAll[·]?))
      (p.2.filterMap (fAll[·]?)) n hne' (by rw [le, lf])
    have hstep : alloyStep pow2 eAll fAll n ends groups0 p =
        .ok (scatter groups0 p.2 (loc.map (· + ((ends.get? p.1).getD 0)))) := by
      unfold alloyStep
      rw [gather_eq _ _ hb, gather_eq _ _ hbf]
      simp only [bind, Except.bind, pure, Except.pure, hs]
    obtain ⟨s1, s2, s3⟩ := scatter_get groups0 p.2 (loc.map (· + ((ends.get? p.1).getD 0)))
      (by rw [List.length_map, hll, le]) hnd (fun i hi => h0 ▸ hb i hi)
    obtain ⟨groups, hf, hgl, hout, hinn⟩ := ih _ (s1.trans h0) (fun q hq => hL q (by simp [hq])) hd.2
    refine ⟨groups, ?_, hgl, fun i hi => ?_, fun q hq i hi => ?_⟩
    · rw [List.foldlM_cons, hstep]; exact hf
    · rw [hout i fun q hq => hi q (by simp [hq]), s2 i (hi p (by simp))]
    · rcases List.mem_cons.1 hq with rfl | hq
      · obtain ⟨k, hk⟩ := List.getElem?_of_mem hi
        have e1 := ge k i hk
        have f1 := gf k i hk
        rw [List.getElem?_eq_getElem (hb i hi)] at e1
        rw [List.getElem?_eq_getElem (hbf i hi)] at f1
        obtain ⟨g, hg, hig⟩ := hin k _ _ e1 f1
        refine ⟨g, ?_, eMin, eAll[i]'(hb i hi), fAll[i]'(hbf i hi), ⟨?_, ?_⟩, ?_, ?_, ?_⟩
        · rw [hout i fun q' hq' => hd.1 q' hq' i hi, s3 k i hk, List.getElem?_map, hg]; rfl
        · rw [List.mem_filterMap] at hm1
          obtain ⟨j, hj, hje⟩ := hm1
          exact ⟨j, hj, hje⟩
        · intro j hj e' he'
          exact hm2 e' (List.mem_filterMap.2 ⟨j, hj, he'⟩)
        · exact List.getElem?_eq_getElem _
        · exact List.getElem?_eq_getElem _
        · rw [lf] at hig; exact hig
      · exact hinn q hq i hi

/-- The group of every structure of an alloy data set. -/
theorem alloyGroups_spec (pow2 : K → K) (isEnd : κ → Bool) (eAll fAll : List K) (keys : List κ) (n : ℕ)
    (hl : eAll.length = fAll.length) (hk : keys.length = eAll.length) :
    ∃ groups, alloyGroups pow2 isEnd eAll fAll keys n = .ok groups ∧ groups.length = eAll.length ∧
      ∀ (i : ℕ) (c : κ), keys[i]? = some c → ∃ g,
        groups[i]? = some (g + offset isEnd n (compIds keys).keys c) ∧
        LocalGroup pow2 eAll fAll n (idsOfComp keys c) i g := by
  obtain ⟨k1, k2, k3⟩ := compIds_spec keys
  have hmemL : ∀ p ∈ compIds keys, p.1 ∈ keys ∧ p.2 = idsOfComp keys p.1 := by
    intro p hp
    have hpk : p.1 ∈ (compIds keys).keys := List.mem_map_of_mem hp
    have hpk' := (k2 p.1).1 hpk
    refine ⟨hpk', ?_⟩
    have h3 := Dict.mem_of_get? (k3 p.1 hpk')
    by_contra hne
    obtain ⟨a, ha, hpa⟩ := List.getElem_of_mem hp
    obtain ⟨b, hb, hpb⟩ := List.getElem_of_mem h3
    have hab : a = b := by
      have ha' : (compIds keys).keys[a]'(by simpa [Dict.keys] using ha) = p.1 := by
        simp [Dict.keys, hpa]
      have hb' : (compIds keys).keys[b]'(by simpa [Dict.keys] using hb) = p.1 := by
        simp [Dict.keys, hpb]
      exact (List.Nodup.getElem_inj_iff k1).1 (ha'.trans hb'.symm)
    subst hab
    rw [hpa] at hpb
    exact hne (congrArg Prod.snd hpb)
  obtain ⟨groups, hf, hgl, -, hin⟩ := alloy_loop pow2 eAll fAll n hl
    (endComp isEnd n (compIds keys).keys) (compIds keys) (List.replicate eAll.length 0) (by simp)
    (fun p hp => by
      obtain ⟨h1, h2⟩ := hmemL p hp
      rw [h2]
      refine ⟨?_, nodup_idsOfComp _ _, fun i hi => ?_⟩
      · obtain ⟨i, hi⟩ := List.getElem?_of_mem h1
        exact List.ne_nil_of_mem ((mem_idsOfComp keys p.1 i).2 hi)
      · rw [mem_idsOfComp] at hi
        have := (List.getElem?_eq_some_iff.mp hi).1; omega)
    (by
      have : (compIds keys).Pairwise fun p q => p.1 ≠ q.1 := by
        have := k1
        unfold Dict.keys at this
        exact List.pairwise_map.1 this
      refine this.imp_of_mem ?_
      intro p q hp hq hpq i hi hj
      rw [(hmemL p hp).2, mem_idsOfComp] at hi
      rw [(hmemL q hq).2, mem_idsOfComp] at hj
      rw [hi] at hj
      exact hpq (Option.some.inj hj))
  refine ⟨groups, hf, hgl, fun i c hic => ?_⟩
  have hck : c ∈ keys := List.mem_of_getElem? hic
  obtain ⟨g, hg, hloc⟩ := hin (c, idsOfComp keys c) (Dict.mem_of_get? (k3 c hck)) i
    ((mem_idsOfComp keys c i).2 hic)
  exact ⟨g, hg, hloc⟩

theorem foldl_max_spec (l : List ℕ) (a : Option ℕ) :
    (l = [] ∧ l.foldl (fun (a : Option ℕ) g => some (max (a.getD 0) g)) a = a) ∨
      ∃ m, l.foldl (fun (a : Option ℕ) g => some (max (a.getD 0) g)) a = some m ∧
        (∀ g ∈ l, g ≤ m) ∧ a.getD 0 ≤ m ∧ (m ∈ l ∨ m = a.getD 0) := by
  induction l generalizing a with
  | nil => exact .inl ⟨rfl, rfl⟩
  | cons x l ih =>
    right
    rw [List.foldl_cons]
    rcases ih (some (max (a.getD 0) x)) with ⟨rfl, h⟩ | ⟨m, h, h1, h2, h3⟩
    · refine ⟨max (a.getD 0) x, by rw [h], by simp, le_max_left _ _, ?_⟩
      rcases le_total (a.getD 0) x with hx | hx
      · left; rw [max_eq_right hx]; simp
      · right; rw [max_eq_left hx]
    · simp only [Option.getD_some] at h2 h3
      refine ⟨m, h, ?_, (le_max_left _ _).trans h2, ?_⟩
      · intro g hg
        rcases List.mem_cons.1 hg with rfl | hg
        · exact (le_max_right _ _).trans h2
        · exact h1 g hg
      · rcases h3 with h3 | h3
        · left; simp [h3]
        · rcases le_total (a.getD 0) x with hx | hx
          · left; rw [h3, max_eq_right hx]; simp
          · right; rw [h3, max_eq_left hx]

/-- **C40.** Alloys: every structure is in exactly one group on exactly one side.  Its group is the
group of the last threshold it meets among the structures of the same composition, shifted by a
multiple of the number of groups that is zero for inner compositions and different and positive for
different end compositions. -/
theorem C40_alloy (pow2 : K → K) (ratio : ℚ) (h0 : 0 ≤ ratio) (h1 : ratio ≤ 1) (isEnd : κ → Bool)
    (eAll fAll : List K) (keys : List κ) (n : ℕ) (hne : eAll ≠ []) (hl : eAll.length = fAll.length)
    (hk : keys.length = eAll.length) :
    ∃ (ps : List (List ℕ × List ℕ)) (shift : κ → ℕ),
      splitDatasetsAlloy pow2 ratio isEnd eAll fAll keys n = .ok (ps.map fun p => .attr p.1 p.2) ∧
      (ps.flatMap fun p => p.1 ++ p.2).Perm (List.range eAll.length) ∧
      (∀ c, isEnd c = false → shift c = 0) ∧
      (∀ c ∈ keys, isEnd c = true → ∃ j, shift c = n * (j + 1)) ∧
      (1 ≤ n → ∀ c ∈ keys, ∀ c' ∈ keys, isEnd c = true → isEnd c' = true → shift c = shift c' → c = c') ∧
      (∀ (g : ℕ) (tr te : List ℕ), ps[g]? = some (tr, te) → ∀ i, i ∈ tr ∨ i ∈ te →
        ∃ c v, keys[i]? = some c ∧ g = v + shift c ∧
          LocalGroup pow2 eAll fAll n (idsOfComp keys c) i v) ∧
      (∃ i c v, keys[i]? = some c ∧ ps.length = v + shift c + 1 ∧
        LocalGroup pow2 eAll fAll n (idsOfComp keys c) i v) := by
  obtain ⟨groups, hg, hgl, hspec⟩ := alloyGroups_spec pow2 isEnd eAll fAll keys n hl hk
  have hgne : groups ≠ [] := by
    intro h; rw [h] at hgl
    exact hne (List.length_eq_zero_iff.1 (by simpa using hgl.symm))
  obtain ⟨k1, k2, k3⟩ := compIds_spec keys
  obtain ⟨o1, o2⟩ := offset_spec isEnd n (compIds keys).keys k1
  rcases foldl_max_spec groups none with ⟨h, -⟩ | ⟨m, hm, hm1, -, hm3⟩
  · exact absurd h hgne
  have key : ∀ (i g : ℕ), groups[i]? = some g → ∃ c v, keys[i]? = some c ∧
      g = v + offset isEnd n (compIds keys).keys c ∧ LocalGroup pow2 eAll fAll n (idsOfComp keys c) i v := by
    intro i g hi
    have hil := (List.getElem?_eq_some_iff.mp hi).1
    have e1 := List.getElem?_eq_getElem (l := keys) (i := i) (by omega)
    obtain ⟨v, hv, hloc⟩ := hspec i _ e1
    rw [hi] at hv
    exact ⟨_, v, e1, Option.some.inj hv, hloc⟩
  obtain ⟨ps, hp, hpl, hmem, hperm⟩ := parts_cover ratio h0 h1 groups (m + 1)
    (fun g hgm => Nat.lt_succ_of_le (hm1 g hgm))
  refine ⟨ps, offset isEnd n (compIds keys).keys, ?_, hgl ▸ hperm, o1, ?_, ?_,
    fun g tr te hps i hi => key i g ((hmem g tr te hps i).1 hi), ?_⟩
  · unfold splitDatasetsAlloy
    rw [hg]
    simp only [bind, Except.bind, hm, orErr]
    exact hp
  · intro c hc he
    obtain ⟨j, -, hj⟩ := o2 c ((k2 c).2 hc) he
    exact ⟨j, hj⟩
  · intro hn c hc c' hc' he he' heq
    obtain ⟨j, hj, hj'⟩ := o2 c ((k2 c).2 hc) he
    obtain ⟨j2, hj2, hj2'⟩ := o2 c' ((k2 c').2 hc') he'
    rw [hj', hj2'] at heq
    have : j = j2 := by
      have := Nat.eq_of_mul_eq_mul_left (by omega) heq; omega
    subst this
    rw [hj] at hj2
    exact Option.some.inj hj2
  · have hmg : m ∈ groups := by
      rcases hm3 with h | h
      · exact h
      · obtain ⟨a, ha⟩ := List.exists_mem_of_ne_nil _ hgne
        have := hm1 a ha
        simp only [Option.getD_none] at h
        have : a = m := by omega
        rwa [this] at ha
    obtain ⟨i, hi⟩ := List.getElem?_of_mem hmg
    obtain ⟨c, v, h1, h2, h3⟩ := key i m hi
    exact ⟨i, c, v, h1, by rw [hpl, h2], h3⟩

/-! ## Writing the groups -/

theorem weights_get (n i : ℕ) (hi : i < n) :
    (weights n)[i]? = some (if i = 0 ∧ n ≠ 1 then 1 else 10) := by
  unfold weights
  by_cases h1 : n = 1
  · subst h1; obtain rfl : i = 0 := by omega
    simp
  · by_cases h2 : n = 2
    · subst h2
      rcases (by omega : i = 0 ∨ i = 1) with rfl | rfl <;> rfl
    · rw [if_neg h1, if_neg h2]
      cases i with
      | zero => simp [h1]
      | succ i =>
        rw [List.getElem?_cons_succ, List.getElem?_replicate, if_pos (by omega), if_neg (by omega)]

theorem weights_length (n : ℕ) (hn : 1 ≤ n) : (weights n).length = n := by
  unfold weights
  split_ifs with h1 h2
  · simp [h1]
  · simp [h2]
  · simp; omega

theorem tile_get {α : Type} (xs : List α) (k i : ℕ) (hi : i < k * xs.length) :
    (tile k xs)[i]? = xs[i % xs.length]? := by
  unfold tile
  induction k generalizing i with
  | zero => simp at hi
  | succ k ih =>
    rw [List.replicate_succ, List.flatten_cons]
    by_cases h : i < xs.length
    · rw [List.getElem?_append_left h, Nat.mod_eq_of_lt h]
    · rw [List.getElem?_append_right (by omega), ih (i - xs.length) (by
        rw [Nat.add_mul, Nat.one_mul] at hi; omega)]
      rw [← Nat.mod_eq_sub_mod (by omega)]

/-- The lines of one group. -/
theorem writeGroup_ok {α : Type} (files : List α) (ws : List ℕ) (i w : ℕ) (tr te : List ℕ)
    (hw : ws[i]? = some w) (hb : ∀ j, j ∈ tr ∨ j ∈ te → j < files.length) :
    ∃ ls, writeGroup files ws i (.attr tr te) = .ok ls ∧
      (ls.flatMap Line.files) = (tr ++ te).filterMap (files[·]?) ∧
      ∀ l ∈ ls, l.group = i + 1 ∧ l.weight = w ∧ l.files ≠ [] ∧
        l.files = (if l.train then tr else te).filterMap (files[·]?) := by
  simp only [writeGroup, hw, orErr, bind, Except.bind, pure, Except.pure,
    gather_eq files tr fun j hj => hb j (.inl hj), gather_eq files te fun j hj => hb j (.inr hj)]
  refine ⟨_, rfl, ?_, ?_⟩
  · rw [List.filterMap_append]
    by_cases h1 : tr = [] <;> by_cases h2 : te = [] <;> simp [h1, h2]
  · have ne : ∀ l : List ℕ, l ≠ [] → (∀ j ∈ l, j < files.length) → l.filterMap (files[·]?) ≠ [] := by
      intro l hl hj h
      have := (filterMap_getElem files l hj).1
      rw [h] at this
      exact hl (List.length_eq_zero_iff.1 (by simpa using this.symm))
    intro l hl
    rcases List.mem_append.1 hl with hl | hl
    · split_ifs at hl with h
      · simp at hl
      · rw [List.mem_singleton.1 hl]
        exact ⟨rfl, rfl, ne tr h fun j hj => hb j (.inl hj), rfl⟩
    · split_ifs at hl with h
      · simp at hl
      · rw [List.mem_singleton.1 hl]
        exact ⟨rfl, rfl, ne te h fun j hj => hb j (.inr hj), rfl⟩

theorem mapM_zipIdx_ok {α : Type} (files : List α) (ws : List ℕ) (wf : ℕ → ℕ) (ps : List (List ℕ × List ℕ))
    (k : ℕ) (hw : ∀ i, i < ps.length → ws[k + i]? = some (wf (k + i)))
    (hb : ∀ p ∈ ps, ∀ j, j ∈ p.1 ∨ j ∈ p.2 → j < files.length) :
    ∃ ls : List (List (Line α)), (((ps.map fun p => Part.attr p.1 p.2).zipIdx k).mapM fun p =>
        writeGroup files ws p.2 p.1) = .ok ls ∧
      (ls.flatten.flatMap Line.files) = (ps.flatMap fun p => p.1 ++ p.2).filterMap (files[·]?) ∧
      ∀ l ∈ ls.flatten, ∃ i tr te, ps[i]? = some (tr, te) ∧ l.group = k + i + 1 ∧ l.weight = wf (k + i) ∧
        l.files ≠ [] ∧ l.files = (if l.train then tr else te).filterMap (files[·]?) := by
  induction ps generalizing k with
  | nil => exact ⟨[], rfl, rfl, by simp⟩
  | cons p ps ih =>
    obtain ⟨ls, h1, h2, h3⟩ := ih (k + 1) (fun i hi => by
      rw [show k + 1 + i = k + (i + 1) by omega]; exact hw (i + 1) (by simpa using hi))
      fun q hq => hb q (by simp [hq])
    obtain ⟨l0, g1, g2, g3⟩ := writeGroup_ok files ws k (wf k) p.1 p.2 (hw 0 (by simp)) (hb p (by simp))
    refine ⟨l0 :: ls, ?_, ?_, ?_⟩
    · rw [List.map_cons, List.zipIdx_cons, List.mapM_cons, g1, h1]; rfl
    · rw [List.flatten_cons, List.flatMap_append, g2, h2, List.flatMap_cons, ← List.filterMap_append]
    · intro l hl
      rw [List.flatten_cons] at hl
      rcases List.mem_append.1 hl with hl | hl
      · obtain ⟨a, b, c, d⟩ := g3 l hl
        exact ⟨0, p.1, p.2, rfl, a, b, c, d⟩
      · obtain ⟨i, tr, te, a, b, c, d⟩ := h3 l hl
        exact ⟨i + 1, tr, te, a, by rw [b]; omega, by rw [c]; congr 1; omega, d⟩

/-- **C40.** The written files: every file of every group is copied, in the group's training or test
line; the lines of a group have the group's number; the first group of each series of `n` groups has
weight `0.1` (unless `n = 1`), all others weight `1`. -/
theorem C40_written {α : Type} (files : List α) (alloy : Bool) (n : ℕ) (hn : 1 ≤ n)
    (ps : List (List ℕ × List ℕ)) (hlen : if alloy then n ∣ ps.length else ps.length = n)
    (hcov : (ps.flatMap fun p => p.1 ++ p.2).Perm (List.range files.length)) :
    ∃ lines, writeAll files alloy n (ps.map fun p => .attr p.1 p.2) = .ok lines ∧
      (lines.flatMap Line.files).Perm files ∧
      ∀ l ∈ lines, ∃ g tr te, ps[g]? = some (tr, te) ∧ l.group = g + 1 ∧ l.files ≠ [] ∧
        l.files = (if l.train then tr else te).filterMap (files[·]?) ∧
        l.weight = if g % n = 0 ∧ n ≠ 1 then 1 else 10 := by
  have hb : ∀ p ∈ ps, ∀ j, j ∈ p.1 ∨ j ∈ p.2 → j < files.length := by
    intro p hp j hj
    rw [← List.mem_range, ← hcov.mem_iff, List.mem_flatMap]
    exact ⟨p, hp, by simpa using hj⟩
  obtain ⟨ws, hws, hw⟩ : ∃ ws, allWeights alloy n ps.length = .ok ws ∧
      ∀ i, i < ps.length → ws[0 + i]? = some (if (0 + i) % n = 0 ∧ n ≠ 1 then 1 else 10) := by
    cases alloy with
    | true =>
      refine ⟨_, by rw [allWeights, if_pos rfl, if_neg (by omega)], fun i hi => ?_⟩
      rw [if_pos rfl] at hlen
      rw [Nat.zero_add, tile_get _ _ _ (by rw [weights_length n hn, Nat.div_mul_cancel hlen]; exact hi),
        weights_length n hn, weights_get n _ (Nat.mod_lt _ hn)]
    | false =>
      refine ⟨_, rfl, fun i hi => ?_⟩
      simp only [Bool.false_eq_true, if_false] at hlen
      rw [Nat.zero_add, weights_get n i (by omega), Nat.mod_eq_of_lt (by omega)]
  obtain ⟨ls, h1, h2, h3⟩ := mapM_zipIdx_ok files ws (fun i => if i % n = 0 ∧ n ≠ 1 then 1 else 10) ps 0 hw hb
  refine ⟨ls.flatten, ?_, ?_, ?_⟩
  · unfold writeAll
    rw [List.length_map, hws]
    simp only [bind, Except.bind, pure, Except.pure, h1]
  · rw [h2]
    have := hcov.filterMap (files[·]?)
    rwa [range_filterMap_get] at this
  · intro l hl
    obtain ⟨g, tr, te, a, b, c, d, e⟩ := h3 l hl
    simp only [Nat.zero_add] at b c
    exact ⟨g, tr, te, a, b, d, e, c⟩

/-- **C40.** An alloy data set is written completely if in each composition the lowest energy per
atom is not positive, as it is for cohesive energies of bound structures. -/
theorem C40_alloy_written_partial [IsStrictOrderedRing K] {α : Type} (pow2 : K → K) (ratio : ℚ) (h0 : 0 ≤ ratio) (h1 : ratio ≤ 1)
    (isEnd : κ → Bool) (eAll fAll : List K) (keys : List κ) (n : ℕ) (hn : 1 ≤ n) (files : List α)
    (hne : eAll ≠ []) (hl : eAll.length = fAll.length) (hk : keys.length = eAll.length)
    (hf : files.length = eAll.length)
    (hneg : ∀ c ∈ keys, ∃ (i : ℕ) (e : K), keys[i]? = some c ∧ eAll[i]? = some e ∧ e ≤ 0) :
    ∃ (parts : List Part) (lines : List (Line α)),
      splitDatasetsAlloy pow2 ratio isEnd eAll fAll keys n = .ok parts ∧
      writeAll files true n parts = .ok lines ∧ (lines.flatMap Line.files).Perm files := by
  obtain ⟨ps, shift, hs, hperm, s1, s2, s3, hmem, ⟨i0, c0, v0, hi0, hv0, hloc0⟩⟩ :=
    C40_alloy pow2 ratio h0 h1 isEnd eAll fAll keys n hne hl hk
  have hc0 : c0 ∈ keys := List.mem_of_getElem? hi0
  have hv0n : v0 ≤ n - 1 := by
    obtain ⟨_, _, _, _, _, _, h⟩ := hloc0
    exact h.1
  have hdiv : n ∣ ps.length := by
    obtain ⟨eMin, -, -, ⟨⟨j, hj, hje⟩, hmin⟩, -⟩ := hloc0
    have hjk := (mem_idsOfComp keys c0 j).1 hj
    have hle : eMin ≤ 0 := by
      obtain ⟨i, e, hik, hie, he⟩ := hneg c0 hc0
      exact (hmin i ((mem_idsOfComp keys c0 i).2 hik) e hie).trans he
    have hjl := (List.getElem?_eq_some_iff.mp hje).1
    have hjm : j ∈ ps.flatMap fun p => p.1 ++ p.2 := (hperm.mem_iff).2 (List.mem_range.2 hjl)
    rw [List.mem_flatMap] at hjm
    obtain ⟨p, hp, hjp⟩ := hjm
    obtain ⟨g, hg⟩ := List.getElem?_of_mem hp
    obtain ⟨c, v, hc, hgv, eMin', e', f', ⟨⟨a, ha, hae⟩, hmin'⟩, he', hf', hin⟩ :=
      hmem g p.1 p.2 hg j (by simpa using hjp)
    rw [hjk] at hc
    obtain rfl := Option.some.inj hc
    rw [hje] at he'
    obtain rfl := Option.some.inj he'
    have heq : eMin' = eMin := le_antisymm (hmin' j hj _ hje) (hmin a ha _ hae)
    subst heq
    have hvn : v = n - 1 := by
      rcases Nat.lt_or_ge v (n - 1) with h | h
      · exfalso
        refine hin.2.2 (n - 2) (by omega) (by omega) (.inl ?_)
        have hq : ((n - 2 : ℕ) : K) / ((n - 1 : ℕ) : K) ≤ 1 := by
          rw [div_le_one (by exact_mod_cast (by omega : 0 < n - 1))]
          exact_mod_cast (by omega : n - 2 ≤ n - 1)
        nlinarith
      · have := hin.1; omega
    have hgl := (List.getElem?_eq_some_iff.mp hg).1
    have : ps.length = n + shift c0 := by omega
    rw [this]
    cases he : isEnd c0 with
    | false => rw [s1 c0 he]; simp
    | true =>
      obtain ⟨k, hk⟩ := s2 c0 hc0 he
      rw [hk]
      exact (dvd_refl n).add (dvd_mul_right n _)
  obtain ⟨lines, hw, hp, -⟩ := C40_written files true n hn ps (by rw [if_pos rfl]; exact hdiv) (by rw [hf]; exact hperm)
  exact ⟨_, lines, hs, hw, hp⟩

/-- **C40 is violated** for an end composition whose energies are all positive: the number of groups
is then not a multiple of `n_divide` and the weights run out. -/
theorem C40_alloy_violation :
    (splitDatasetsAlloy (fun x : ℚ => if x = 2 then 4 else 1 / 2) (9 / 10)
      (fun c : ℕ => c == 1) [1, 2] [1, 1] [1, 1] 3 >>= writeAll ["a", "b"] true 3) =
        .error .indexError := by
  decide +kernel


/-- A division into three groups, elemental and alloy (composition `1` is an end composition), that
meets the hypotheses of `C40_elemental`, `C40_alloy` and `C40_alloy_written_partial`. -/
example :
    (splitDatasets (fun x : ℚ => if x = 2 then 4 else 1 / 2) (1 / 2) [-4, -1, 3, -4] [1, 2, 100, 1] 3 >>=
      writeAll ["a", "b", "c", "d"] false 3) =
      .ok [⟨false, 2, ["c"], 10⟩, ⟨true, 3, ["b", "d"], 10⟩, ⟨false, 3, ["a"], 10⟩] ∧
    (splitDatasetsAlloy (fun x : ℚ => if x = 2 then 4 else 1 / 2) (1 / 2) (fun c : ℕ => c == 1)
      [-4, -1, 3, -4] [1, 2, 100, 1] [1, 2, 1, 2] 3 >>= writeAll ["a", "b", "c", "d"] true 3) =
      .ok [⟨false, 2, ["b"], 10⟩, ⟨false, 3, ["d"], 10⟩, ⟨false, 5, ["c"], 10⟩, ⟨false, 6, ["a"], 10⟩] ∧
    ∃ (parts : List Part) (lines : List (Line String)),
      splitDatasetsAlloy (fun x : ℚ => if x = 2 then 4 else 1 / 2) (1 / 2) (fun c : ℕ => c == 1)
        [-4, -1, 3, -4] [1, 2, 100, 1] [1, 2, 1, 2] 3 = .ok parts ∧
      writeAll ["a", "b", "c", "d"] true 3 parts = .ok lines ∧
      (lines.flatMap Line.files).Perm ["a", "b", "c", "d"] := by
  refine ⟨by decide +kernel, by decide +kernel, C40_alloy_written_partial _ _ (by norm_num) (by norm_num) _ _ _ _ _
    (by decide) _ (by decide) rfl rfl rfl ?_⟩
  intro c hc
  simp only [List.mem_cons, List.not_mem_nil, or_false] at hc
  rcases hc with rfl | rfl | rfl | rfl
  · exact ⟨0, -4, rfl, rfl, by norm_num⟩
  · exact ⟨1, -1, rfl, rfl, by norm_num⟩
  · exact ⟨0, -4, rfl, rfl, by norm_num⟩
  · exact ⟨1, -1, rfl, rfl, by norm_num⟩

end Alloy

end Verif.Divide
