import Verif.Model.MlpFiles
import Verif.Props.HybridEval

/-!
# C34: order of the files of a hybrid potential
-/

namespace Verif.MlpFiles
open Verif.HybridEval

theorem strLe_total (a b : List Char) : strLe a b = true ∨ strLe b a = true := by
  induction a generalizing b with
  | nil => simp [strLe]
  | cons x a ih =>
    cases b with
    | nil => simp [strLe]
    | cons y b =>
      simp only [strLe]
      by_cases h1 : x.toNat < y.toNat
      · simp [h1]
      · by_cases h2 : x.toNat = y.toNat
        · simpa [h2] using ih b
        · right
          rw [if_pos (by omega)]

theorem strLe_trans (a b c : List Char) (h1 : strLe a b = true) (h2 : strLe b c = true) :
    strLe a c = true := by
  induction a generalizing b c with
  | nil => simp [strLe]
  | cons x a ih =>
    cases b with
    | nil => simp [strLe] at h1
    | cons y b =>
      cases c with
      | nil => simp [strLe] at h2
      | cons z c =>
        simp only [strLe] at h1 h2 ⊢
        split at h1
        · split at h2
          · rw [if_pos (by omega)]
          · split at h2
            · rw [if_pos (by omega)]
            · cases h2
        · split at h1
          · split at h2
            · rw [if_pos (by omega)]
            · split at h2
              · rw [if_neg (by omega), if_pos (by omega)]
                exact ih b c h1 h2
              · cases h2
          · cases h1

theorem strLe_antisymm (a b : List Char) (h1 : strLe a b = true) (h2 : strLe b a = true) :
    a = b := by
  induction a generalizing b with
  | nil =>
    cases b with
    | nil => rfl
    | cons y b => simp [strLe] at h2
  | cons x a ih =>
    cases b with
    | nil => simp [strLe] at h1
    | cons y b =>
      simp only [strLe] at h1 h2
      split at h1
      · rw [if_neg (by omega), if_neg (by omega)] at h2
        cases h2
      · split at h1
        · rename_i hxy
          rw [if_neg (by omega), if_pos hxy.symm] at h2
          rw [ih b h1 h2]
          have : x = y := Char.ext (UInt32.toNat_inj.1 hxy)
          rw [this]
        · cases h1

theorem strLe_append (p a b : List Char) : strLe (p ++ a) (p ++ b) = strLe a b := by
  induction p with
  | nil => rfl
  | cons x p ih => simp [strLe, ih]

instance : Std.Total (fun a b : String => strLe a.toList b.toList = true) :=
  ⟨fun a b => strLe_total _ _⟩

instance : IsTrans String (fun a b : String => strLe a.toList b.toList = true) :=
  ⟨fun _ _ _ h1 h2 => strLe_trans _ _ _ h1 h2⟩

theorem sortNames_sorted (l : List String) :
    (sortNames l).Pairwise fun a b => strLe a.toList b.toList = true :=
  List.pairwise_insertionSort _ l

theorem sortNames_perm (l : List String) : (sortNames l).Perm l := List.perm_insertionSort _ l

theorem sortNames_unique (l m : List String) (h : m.Perm l)
    (hm : m.Pairwise fun a b => strLe a.toList b.toList = true) : sortNames l = m :=
  ((sortNames_perm l).trans h.symm).eq_of_pairwise
    (fun a b _ _ h1 h2 => String.toList_inj.1 (strLe_antisymm _ _ h1 h2)) (sortNames_sorted l) hm

/-- **C34.** The result does not depend on the order in which the directory lists the files. -/
theorem C34_listing_order (l m : List String) (path : String) (h : l.Perm m) :
    findMlps l path = findMlps m path := by
  have hg : ∀ p, (globStar l p).Perm (globStar m p) := fun p => h.filter _
  have hs : ∀ p, sortNames (globStar l p) = sortNames (globStar m p) := fun p =>
    sortNames_unique _ _ ((sortNames_perm _).trans (hg p).symm) (sortNames_sorted _)
  unfold findMlps
  simp only [(hg _).length_eq, hs]

/-- **C34.** Exactly the files whose path begins with `path/polymlp.yaml` are returned when there is
one. -/
theorem C34_content (l : List String) (path : String)
    (h : ∃ f ∈ l, (path ++ "/polymlp.yaml").toList.isPrefixOf f.toList = true) :
    ∃ r, findMlps l path = some r ∧
      r.Perm (l.filter fun f => (path ++ "/polymlp.yaml").toList.isPrefixOf f.toList) := by
  have : 0 < (globStar l (path ++ "/polymlp.yaml")).length := by
    obtain ⟨f, h1, h2⟩ := h
    exact List.length_pos_of_mem (List.mem_filter.2 ⟨h1, h2⟩)
  refine ⟨sortNames (globStar l (path ++ "/polymlp.yaml")), ?_, sortNames_perm _⟩
  unfold findMlps
  simp only [gt_iff_lt, this, if_true]

theorem subName_toList (file : String) (i : ℕ) :
    (subName file i).toList = file.toList ++ ('.' :: (toString (i + 1)).toList) := by
  unfold subName
  rw [String.toList_append, String.toList_append, List.append_assoc]
  rfl

theorem prefix_subName (file : String) (i : ℕ) :
    file.toList.isPrefixOf (subName file i).toList = true := by
  rw [List.isPrefixOf_iff_prefix, subName_toList]
  exact List.prefix_append _ _

/-- **C34.** If the directory contains, in any order, the files written for a hybrid model of `n`
sub-models (and no other potential files), they are found in the order of the sub-models exactly when
`n ≤ 9`.  (Missing from the property: larger `n`, where it is false.) -/
theorem C34_order_partial (path : String) (n : ℕ) (hn : 0 < n) (listing : List String)
    (hl : listing.Perm ((List.range n).map (subName (path ++ "/polymlp.yaml")))) :
    findMlps listing path = some ((List.range n).map (subName (path ++ "/polymlp.yaml"))) ↔
      n ≤ 9 := by
  have hfind : findMlps listing path =
      some (sortNames ((List.range n).map (subName (path ++ "/polymlp.yaml")))) := by
    rw [C34_listing_order _ _ path hl]
    have hg : globStar ((List.range n).map (subName (path ++ "/polymlp.yaml")))
        (path ++ "/polymlp.yaml") = (List.range n).map (subName (path ++ "/polymlp.yaml")) := by
      apply List.filter_eq_self.2
      intro f hf
      obtain ⟨i, _, rfl⟩ := List.mem_map.1 hf
      exact prefix_subName _ _
    unfold findMlps
    simp only [hg, List.length_map, List.length_range, gt_iff_lt, hn, if_true]
  rw [hfind, Option.some.injEq]
  constructor
  · intro h
    by_contra hgt
    have hs := sortNames_sorted ((List.range n).map (subName (path ++ "/polymlp.yaml")))
    rw [h, List.pairwise_iff_getElem] at hs
    have := hs 1 9 (by simp; omega) (by simp; omega) (by omega)
    simp only [List.getElem_map, List.getElem_range, subName_toList, strLe_append] at this
    revert this
    decide +kernel
  · intro h
    apply sortNames_unique _ _ (List.Perm.refl _)
    rw [List.pairwise_map]
    refine List.Pairwise.imp_of_mem (R := fun i j => i < j) ?_ List.pairwise_lt_range
    intro i j hi hj hij
    rw [subName_toList, subName_toList, strLe_append]
    have hi := List.mem_range.1 hi
    have hj := List.mem_range.1 hj
    have key : ∀ j < 9, ∀ i < j,
        strLe ('.' :: (toString (i + 1)).toList) ('.' :: (toString (j + 1)).toList) = true := by
      decide +kernel
    exact key j (by omega) i hij

/-- With ten files the second one found is the tenth one written. -/
theorem C34_ten_files :
    findMlps ((List.range 10).map (subName "d/polymlp.yaml")) "d" =
      some (["1", "10", "2", "3", "4", "5", "6", "7", "8", "9"].map ("d/polymlp.yaml." ++ ·)) := by
  decide +kernel

/-- Files of an earlier, larger model in the same directory are found as well. -/
theorem C34_stale_files :
    findMlps ["d/polymlp.yaml.3", "d/polymlp.yaml.1", "d/polymlp.yaml.2", "d/polymlp.yaml"] "d" =
      some ["d/polymlp.yaml", "d/polymlp.yaml.1", "d/polymlp.yaml.2", "d/polymlp.yaml.3"] := by
  decide +kernel

example : findMlps ["d/polymlp.yaml.2", "d/x", "d/polymlp.yaml.1"] "d" =
    some ["d/polymlp.yaml.1", "d/polymlp.yaml.2"] := by decide +kernel
example : findMlps ["d/polymlp.lammps.2", "d/polymlp.lammps.1"] "d" =
    some ["d/polymlp.lammps.1", "d/polymlp.lammps.2"] := by decide +kernel

/-! ## The order does not matter for predictions -/

variable {A P K : Type}

theorem add_force [AddCommMonoid K] (a b : Prop3 K) : a.add b = b.add a := by
  unfold Prop3.add
  congr 1
  · exact add_comm _ _
  · exact List.zipWith_comm_of_comm (fun x y => add_comm x y)
  · exact add_comm _ _

theorem add_assoc' [AddCommMonoid K] (a b c : Prop3 K) : (a.add b).add c = a.add (b.add c) := by
  unfold Prop3.add
  congr 1
  · exact add_assoc _ _ _
  · apply List.ext_getElem?
    intro i
    simp only [List.getElem?_zipWith]
    cases a.force[i]? <;> cases b.force[i]? <;> cases c.force[i]? <;> simp [add_assoc]
  · exact add_assoc _ _ _

theorem foldl_add_swap [AddCommMonoid K] (l : List (Prop3 K)) (a b : Prop3 K) :
    l.foldl Prop3.add (a.add b) = a.add (l.foldl Prop3.add b) := by
  induction l generalizing b with
  | nil => rfl
  | cons c l ih => rw [List.foldl_cons, add_assoc', ih, List.foldl_cons]

/-- Sum of results, at least one. -/
def sumAll [Add K] : List (Prop3 K) → Except Err (Prop3 K)
  | [] => .error .indexError
  | a :: r => .ok (r.foldl Prop3.add a)

theorem evalHybrid_ok [AddCommMonoid K] (subs : List (PSub A P K)) (st : PStr A P)
    (f : PSub A P K → Prop3 K) (h : ∀ s ∈ subs, evalSingle s st = .ok (f s)) :
    evalHybrid subs st = sumAll (subs.map f) := by
  cases subs with
  | nil => rfl
  | cons s rest =>
    rw [List.map_cons, sumAll]
    simp only [evalHybrid, h s (by simp), bind, Except.bind]
    have h' : ∀ s ∈ rest, evalSingle s st = .ok (f s) := fun t ht => h t (by simp [ht])
    generalize f s = acc
    clear h
    induction rest generalizing acc with
    | nil => rfl
    | cons t rest ih =>
      rw [List.foldlM_cons, h' t (by simp), List.map_cons, List.foldl_cons]
      exact ih (fun u hu => h' u (by simp [hu])) (acc.add (f t))

/-- **C34.** Reading the sub-models in another order does not change any prediction that is possible
(in exact arithmetic). -/
theorem C34_prediction_unaffected [AddCommMonoid K] (subs subs' : List (PSub A P K))
    (h : subs.Perm subs') (st : PStr A P)
    (hok : ∀ s ∈ subs, ∃ r, evalSingle s st = .ok r) :
    evalHybrid subs st = evalHybrid subs' st := by
  classical
  let f : PSub A P K → Prop3 K := fun s => match evalSingle s st with
    | .ok r => r
    | .error _ => ⟨0, [], 0⟩
  have hf : ∀ s ∈ subs, evalSingle s st = .ok (f s) := by
    intro s hs
    obtain ⟨r, hr⟩ := hok s hs
    simp only [f, hr]
  rw [evalHybrid_ok subs st f hf, evalHybrid_ok subs' st f fun s hs => hf s (h.mem_iff.2 hs)]
  have key : ∀ l l' : List (Prop3 K), l.Perm l' → sumAll l = sumAll l' := by
    intro l l' hp
    induction hp with
    | nil => rfl
    | cons a hp ih =>
      rename_i l1 l2
      simp only [sumAll]
      congr 1
      have hr : ∀ (l : List (Prop3 K)) (a : Prop3 K), l ≠ [] →
          ∃ b r, l = b :: r ∧ l.foldl Prop3.add a = a.add (r.foldl Prop3.add b) := by
        intro l a hl
        cases l with
        | nil => exact absurd rfl hl
        | cons b r => exact ⟨b, r, rfl, by rw [List.foldl_cons, foldl_add_swap]⟩
      by_cases hl : l1 = []
      · subst hl
        rw [hp.nil_eq]
      · have hl2 : l2 ≠ [] := by
          rintro rfl
          exact hl hp.eq_nil
        obtain ⟨b, r, e1, e2⟩ := hr l1 a hl
        obtain ⟨b', r', e1', e2'⟩ := hr l2 a hl2
        rw [e2, e2']
        rw [e1, e1'] at ih
        simp only [sumAll, Except.ok.injEq] at ih
        rw [ih]
    | swap a b l =>
      simp only [sumAll, List.foldl_cons]
      rw [add_force]
    | trans _ _ ih1 ih2 => exact ih1.trans ih2
  exact key (subs.map f) (subs'.map f) (h.map f)

end Verif.MlpFiles
