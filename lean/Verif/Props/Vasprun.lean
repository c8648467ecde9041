import Verif.Spec.Vasprun
import Verif.Props.GridSearch

/-!
# Results of VASP

Compressed files are read like the files they are made of; data sets hold, for each file, the records of that file and in
the same order.
-/

namespace Verif.Vasprun
open Verif.Spec
open Verif.Infile (PStr)

/-! ## Searching -/

mutual
theorem inside_eq : ∀ x : Xml, xmlInside x = below x
  | .node _ _ _ ks => by simp only [xmlInside, below]; exact insideAll_eq ks
theorem insideAll_eq : ∀ l : List Xml, xmlInsideAll l = belowAll l
  | [] => by simp only [xmlInsideAll, belowAll]
  | k :: ks => by
    simp only [xmlInsideAll, belowAll, List.cons_append]
    rw [inside_eq k, insideAll_eq ks]
end

theorem belowAll_append (l r : List Xml) : belowAll (l ++ r) = belowAll l ++ belowAll r := by
  induction l with
  | nil => simp [belowAll]
  | cons a l ih => simp [belowAll, ih, List.append_assoc]

theorem findName_first {x y : Xml} {n : String} (h : FirstNamed x n y) : findName x n = some y := by
  obtain ⟨l, r, hl, hy, hn⟩ := h
  unfold findName
  rw [← inside_eq, hl, List.find?_append, List.find?_eq_none.mpr (by simpa using hn)]
  simp [hy]

theorem firstNamed_iff {x y : Xml} {n : String} : FirstNamed x n y ↔ findName x n = some y := by
  refine ⟨findName_first, fun h => ?_⟩
  unfold findName at h
  rw [List.find?_eq_some_iff_append] at h
  obtain ⟨hy, l, r, hl, hn⟩ := h
  exact ⟨l, r, by rw [inside_eq, hl], by simpa using hy, by simpa using hn⟩

theorem only_first {x y : Xml} {n : String} (h : OnlyNamed x n y) : FirstNamed x n y := by
  obtain ⟨l, r, hl, hy, hn, _⟩ := h
  exact ⟨l, r, hl, hy, hn⟩

theorem filter_only {x y : Xml} {n : String} (h : OnlyNamed x n y) :
    ((below x).filter fun z => decide (z.name = some n)) = [y] := by
  obtain ⟨l, r, hl, hy, hn, hr⟩ := h
  rw [← inside_eq, hl, List.filter_append, List.filter_eq_nil_iff.mpr (by simpa using hn), List.filter_cons,
    List.filter_eq_nil_iff.mpr (by simpa using hr)]
  simp [hy]

theorem child_first {x y : Xml} {t : String} (h : FirstTagged x t y) : child x t = some y := by
  obtain ⟨l, r, hl, hy, hn⟩ := h
  unfold child
  rw [hl, List.find?_append, List.find?_eq_none.mpr (by simpa using hn)]
  simp [hy]

/-- Whether a name does not occur in an element and inside it. -/
def Free (n : String) (x : Xml) : Prop := x.name ≠ some n ∧ ∀ y ∈ below x, y.name ≠ some n

theorem free_find {n : String} : ∀ {l : List Xml}, (∀ x ∈ l, Free n x) →
    (belowAll l).find? (fun x => decide (x.name = some n)) = none
  | [], _ => by simp [belowAll]
  | k :: ks, h => by
    have hk := h k List.mem_cons_self
    have ih := free_find (l := ks) fun x hx => h x (List.mem_cons_of_mem _ hx)
    simp only [belowAll]
    rw [List.find?_cons_of_neg (by simpa using hk.1), List.find?_append,
      List.find?_eq_none.mpr (by simpa using hk.2), ih]
    rfl

theorem free_filter {n : String} {l : List Xml} (h : ∀ x ∈ l, Free n x) :
    (belowAll l).filter (fun x => decide (x.name = some n)) = [] := by
  have := free_find h
  rw [List.find?_eq_none] at this
  exact List.filter_eq_nil_iff.mpr this

/-- The first element with a name in a list of children. -/
theorem find_kids {n : String} {l r : List Xml} {y : Xml} (hl : ∀ x ∈ l, Free n x) (hy : y.name = some n) :
    (belowAll (l ++ y :: r)).find? (fun x => decide (x.name = some n)) = some y := by
  rw [belowAll_append, List.find?_append, free_find hl]
  simp [belowAll, hy]

theorem filter_kids {n : String} {l r : List Xml} {y : Xml} (hl : ∀ x ∈ l, Free n x) (hy : y.name = some n)
    (hi : ∀ z ∈ below y, z.name ≠ some n) (hr : ∀ x ∈ r, Free n x) :
    (belowAll (l ++ y :: r)).filter (fun x => decide (x.name = some n)) = [y] := by
  rw [belowAll_append, List.filter_append, free_filter hl]
  simp only [belowAll, List.nil_append]
  rw [List.filter_cons_of_pos (by simpa using hy), List.filter_append,
    List.filter_eq_nil_iff.mpr (by simpa using hi), free_filter hr]
  rfl

/-- The search for names below a list that is wrapped in one element without name. -/
theorem below_wrapped (t t' : String) (x x' : Option PStr) (l : List Xml) :
    below (.node t none x [.node t' none x' l]) = .node t' none x' l :: belowAll l := by
  simp [below, belowAll]

theorem name_node (t : String) (n : Option String) (x : Option PStr) (l : List Xml) : (Xml.node t n x l).name = n := rfl

/-! ## Compression of a single calculation -/

/-- C84: a compressed file can be made of every file that VASP writes for one calculation, and energy, forces, stress,
structure and the history of energies that are read from it are those that are read from the file. -/
theorem C84_compress (cv : Conv) {root c e f s st t a : Xml} (h : PlainVasprun root c e f s st t a)
    (hmd : isMd cv root = false) :
    ∃ z, compress cv (some root) = .ok (some z) ∧ isMd cv z = false ∧ energy cv z = energy cv root ∧
      forces cv z = forces cv root ∧ stress cv z = stress cv root ∧
      (∀ name, structureOf cv name z = structureOf cv name root) ∧ history cv z = history cv root ∧
      ∀ tol, isConvergent cv z tol = isConvergent cv root tol := by
  have hc := child_first h.calculation
  have he := child_first h.energy
  have hf := findName_first h.forces.1
  have hs := findName_first h.stress.1
  have hst := findName_first h.finalpos
  have ht := findName_first (only_first h.atomtypes)
  have ha := findName_first (only_first h.atoms)
  have hfn : f.name = some "forces" := by obtain ⟨l, r, _, hy, _⟩ := h.forces.1; exact hy
  have hsn : s.name = some "stress" := by obtain ⟨l, r, _, hy, _⟩ := h.stress.1; exact hy
  have hstn : st.name = some "finalpos" := by obtain ⟨l, r, _, hy, _⟩ := h.finalpos; exact hy
  have htn : t.name = some "atomtypes" := by obtain ⟨l, r, _, hy, _⟩ := h.atomtypes; exact hy
  have han : a.name = some "atoms" := by obtain ⟨l, r, _, hy, _⟩ := h.atoms; exact hy
  have hetag : e.tag = "energy" := by obtain ⟨l, r, _, hy, _⟩ := h.energy; exact hy
  set kids := [e, f, s, st, t, a] ++ children c "scstep" with hkids
  set z : Xml := .node "modeling" none none [.node "calculation" none none kids] with hz
  have hcomp : compress cv (some root) = .ok (some z) := by
    simp [compress, hmd, hc, he, hf, hs, hst, ht, ha, orErr, bind, Except.bind, pure, Except.pure, hz, hkids]
  have below_z : below z = .node "calculation" none none kids :: belowAll kids := below_wrapped _ _ _ _ _
  have nest : ∀ x ∈ [e, f, s, st, t, a], ∀ n ∈ vaspNames, ∀ y ∈ below x, y.name ≠ some n := by
    intro x hx n hn y hy
    exact h.noNesting x hx y (by rw [inside_eq]; exact hy) n hn
  have freeE : ∀ n ∈ vaspNames, Free n e := fun n hn => ⟨h.energyName n hn, nest e (by simp) n hn⟩
  have freeOf : ∀ x ∈ [e, f, s, st, t, a], ∀ m, x.name = some m → ∀ n ∈ vaspNames, m ≠ n → Free n x := by
    intro x hx m hm n hn hne
    exact ⟨by rw [hm]; simpa using hne, nest x hx n hn⟩
  have freeStep : ∀ n ∈ "IBRION" :: vaspNames, ∀ x ∈ children c "scstep", Free n x := by
    intro n hn x hx
    simp only [children, List.mem_filter, decide_eq_true_eq] at hx
    have h1 := h.steps x hx.1 hx.2
    exact ⟨h1.1 n hn, fun y hy => h1.2 y (by rw [inside_eq]; exact hy) n hn⟩
  have mem (n : String) (hn : n ∈ vaspNames) : n ∈ "IBRION" :: vaspNames := List.mem_cons_of_mem _ hn
  have v1 : "forces" ∈ vaspNames := by simp [vaspNames]
  have v2 : "stress" ∈ vaspNames := by simp [vaspNames]
  have v3 : "finalpos" ∈ vaspNames := by simp [vaspNames]
  have v4 : "atomtypes" ∈ vaspNames := by simp [vaspNames]
  have v5 : "atoms" ∈ vaspNames := by simp [vaspNames]
  have find_z : ∀ (n : String) (l r : List Xml) (y : Xml), kids = l ++ y :: r → (∀ x ∈ l, Free n x) →
      y.name = some n → findName z n = some y := by
    intro n l r y hk hl hy
    unfold findName
    rw [below_z, List.find?_cons_of_neg (by simp [name_node]), hk]
    exact find_kids hl hy
  have zf : findName z "forces" = some f :=
    find_z _ [e] ([s, st, t, a] ++ children c "scstep") f rfl (by simpa using freeE _ v1) hfn
  have zs : findName z "stress" = some s := by
    refine find_z _ [e, f] ([st, t, a] ++ children c "scstep") s rfl ?_ hsn
    intro x hx
    simp only [List.mem_cons, List.not_mem_nil, or_false] at hx
    rcases hx with rfl | rfl
    · exact freeE _ v2
    · exact freeOf _ (by simp) _ hfn _ v2 (by decide)
  have zst : findName z "finalpos" = some st := by
    refine find_z _ [e, f, s] ([t, a] ++ children c "scstep") st rfl ?_ hstn
    intro x hx
    simp only [List.mem_cons, List.not_mem_nil, or_false] at hx
    rcases hx with rfl | rfl | rfl
    · exact freeE _ v3
    · exact freeOf _ (by simp) _ hfn _ v3 (by decide)
    · exact freeOf _ (by simp) _ hsn _ v3 (by decide)
  have filter_z : ∀ (n : String) (l r : List Xml) (y : Xml), kids = l ++ y :: r → (∀ x ∈ l, Free n x) →
      y.name = some n → (∀ w ∈ below y, w.name ≠ some n) → (∀ x ∈ r, Free n x) →
      ((below z).filter fun x => decide (x.name = some n)) = [y] := by
    intro n l r y hk hl hy hi hr
    rw [below_z, List.filter_cons_of_neg (by simp [name_node]), hk]
    exact filter_kids hl hy hi hr
  have zt : findRc z "atomtypes" = findRc root "atomtypes" := by
    unfold findRc
    rw [filter_only h.atomtypes]
    rw [filter_z "atomtypes" [e, f, s, st] ([a] ++ children c "scstep") t rfl ?_ htn (nest t (by simp) _ v4) ?_]
    · intro x hx
      simp only [List.mem_cons, List.not_mem_nil, or_false] at hx
      rcases hx with rfl | rfl | rfl | rfl
      · exact freeE _ v4
      · exact freeOf _ (by simp) _ hfn _ v4 (by decide)
      · exact freeOf _ (by simp) _ hsn _ v4 (by decide)
      · exact freeOf _ (by simp) _ hstn _ v4 (by decide)
    · intro x hx
      simp only [List.mem_append, List.mem_singleton] at hx
      rcases hx with rfl | hx
      · exact freeOf _ (by simp) _ han _ v4 (by decide)
      · exact freeStep _ (mem _ v4) x hx
  have za : findRc z "atoms" = findRc root "atoms" := by
    unfold findRc
    rw [filter_only h.atoms]
    rw [filter_z "atoms" [e, f, s, st, t] (children c "scstep") a rfl ?_ han (nest a (by simp) _ v5)
      (freeStep _ (mem _ v5))]
    intro x hx
    simp only [List.mem_cons, List.not_mem_nil, or_false] at hx
    rcases hx with rfl | rfl | rfl | rfl | rfl
    · exact freeE _ v5
    · exact freeOf _ (by simp) _ hfn _ v5 (by decide)
    · exact freeOf _ (by simp) _ hsn _ v5 (by decide)
    · exact freeOf _ (by simp) _ hstn _ v5 (by decide)
    · exact freeOf _ (by simp) _ htn _ v5 (by decide)
  have zc : child z "calculation" = some (.node "calculation" none none kids) := by
    simp [hz, child, Xml.kids, Xml.tag]
  have zi : findName z "IBRION" = none := by
    unfold findName
    rw [below_z, List.find?_cons_of_neg (by simp [name_node])]
    refine free_find fun x hx => ?_
    rw [hkids, List.mem_append] at hx
    rcases hx with hx | hx
    · have h1 := h.noIbrion x hx
      exact ⟨h1.1, fun y hy => h1.2 y (by rw [inside_eq]; exact hy) _ (by simp)⟩
    · exact freeStep _ (by simp) x hx
  have zsc : children (.node "calculation" none none kids) "scstep" = children c "scstep" := by
    have hd : ∀ x ∈ [e, f, s, st, t, a], x.tag ≠ "scstep" := by
      intro x hx
      rcases List.mem_cons.mp hx with rfl | hx
      · rw [hetag]; decide
      · exact h.tags x hx
    show List.filter _ kids = _
    rw [hkids, List.filter_append, List.filter_eq_nil_iff.mpr (by simpa using hd), List.nil_append]
    simp [children]
  have hhist : history cv z = history cv root := by
    simp only [history, zc, hc, orErr, bind, Except.bind, zsc]
  refine ⟨z, hcomp, ?_, ?_, ?_, ?_, ?_, hhist, ?_⟩
  · simp [isMd, zi]
  · have : child (.node "calculation" none none kids) "energy" = some e := by
      simp [child, Xml.kids, hkids, hetag]
    simp only [energy, zc, hc, energyOf, orErr, bind, Except.bind, this, he]
  · simp only [forces, zf, findName_first h.forces.2]
  · simp only [stress, zs, findName_first h.stress.2]
  · intro name
    simp only [structureOf, zst, hst, orErr, bind, Except.bind, structureAt, nAtomsOf, elementsOf, typesOf, zt, za]
  · intro tol
    simp only [isConvergent, hhist]

/-! ## Compression of molecular dynamics -/

theorem mapM_congr_ok {α β γ : Type} {f : α → Except Err β} {g : β → Except Err γ} {g' : α → Except Err γ} :
    ∀ {l : List α} {m : List β}, l.mapM f = .ok m → (∀ a ∈ l, ∀ b, f a = .ok b → g b = g' a) →
      m.mapM g = l.mapM g'
  | [], m, h, _ => by
    simp only [List.mapM_nil, pure, Except.pure, Except.ok.injEq] at h
    subst h; simp
  | a :: l, m, h, hg => by
    simp only [List.mapM_cons, bind, Except.bind] at h
    cases h1 : f a with
    | error e => simp [h1] at h
    | ok b =>
      cases h2 : l.mapM f with
      | error e => simp [h1, h2] at h
      | ok bs =>
        simp only [h1, h2, pure, Except.pure, Except.ok.injEq] at h
        subst h
        rw [List.mapM_cons, List.mapM_cons, hg a List.mem_cons_self b h1,
          mapM_congr_ok h2 fun x hx => hg x (List.mem_cons_of_mem _ hx)]

theorem mapM_ok_of_forall {α β : Type} {f : α → Except Err β} :
    ∀ {l : List α}, (∀ a ∈ l, ∃ b, f a = .ok b) → ∃ m, l.mapM f = .ok m
  | [], _ => ⟨[], rfl⟩
  | a :: l, h => by
    obtain ⟨b, hb⟩ := h a List.mem_cons_self
    obtain ⟨m, hm⟩ := mapM_ok_of_forall (l := l) fun x hx => h x (List.mem_cons_of_mem _ hx)
    exact ⟨b :: m, by simp [List.mapM_cons, bind, Except.bind, hb, hm, pure, Except.pure]⟩

/-- What the compressed step gives. -/
theorem step_parts (cv : Conv) {c e f s st : Xml} (h : PlainStep c e f s st) :
    ∃ z, compressCal c = .ok z ∧ z.tag = "calculation" ∧ (∀ n ∈ ["atomtypes", "atoms"], Free n z) ∧
      energyOf cv (some z) = energyOf cv (some c) ∧ findName z "forces" = findName c "forces" ∧
      findName z "stress" = findName c "stress" ∧
      ∀ n ∈ ["basis", "positions", "volume"], findName z n = findName c n := by
  have he := child_first h.energy
  have hf := findName_first h.forces
  have hs := findName_first h.stress
  have hst := child_first h.structure_
  have hfn : f.name = some "forces" := by obtain ⟨l, r, _, hy, _⟩ := h.forces; exact hy
  have hsn : s.name = some "stress" := by obtain ⟨l, r, _, hy, _⟩ := h.stress; exact hy
  have hetag : e.tag = "energy" := by obtain ⟨l, r, _, hy, _⟩ := h.energy; exact hy
  have nest : ∀ x ∈ [e, f, s], ∀ n ∈ mdNames, ∀ y ∈ below x, y.name ≠ some n := fun x hx n hn y hy =>
    h.noNesting x hx y (by rw [inside_eq]; exact hy) n hn
  have freeE : ∀ n ∈ mdNames, Free n e := fun n hn => ⟨h.energyName n hn, nest e (by simp) n hn⟩
  have freeOf : ∀ x ∈ [e, f, s], ∀ m, x.name = some m → ∀ n ∈ mdNames, m ≠ n → Free n x := fun x hx m hm n hn hne =>
    ⟨by rw [hm]; simpa using hne, nest x hx n hn⟩
  set z : Xml := .node "calculation" none none [e, f, s, st] with hz
  have below_z : below z = belowAll [e, f, s, st] := by simp [hz, below]
  refine ⟨z, ?_, rfl, ?_, ?_, ?_, ?_, ?_⟩
  · simp [compressCal, he, hf, hs, hst, orErr, bind, Except.bind, pure, Except.pure, hz]
  · intro n hn
    have hm : n ∈ mdNames := by
      simp only [List.mem_cons, List.not_mem_nil, or_false] at hn
      rcases hn with rfl | rfl <;> simp [mdNames]
    have hnf : "forces" ≠ n ∧ "stress" ≠ n := by
      simp only [List.mem_cons, List.not_mem_nil, or_false] at hn
      rcases hn with rfl | rfl <;> decide
    refine ⟨by simp [hz, name_node], ?_⟩
    have : (below z).find? (fun x => decide (x.name = some n)) = none := by
      rw [below_z]
      refine free_find fun x hx => ?_
      simp only [List.mem_cons, List.not_mem_nil, or_false] at hx
      rcases hx with rfl | rfl | rfl | rfl
      · exact freeE n hm
      · exact freeOf _ (by simp) _ hfn n hm hnf.1
      · exact freeOf _ (by simp) _ hsn n hm hnf.2
      · exact ⟨h.structureName n hm, fun y hy => h.noTables y (by rw [inside_eq]; exact hy) n
          (by
            simp only [List.mem_cons, List.not_mem_nil, or_false] at hn ⊢
            rcases hn with rfl | rfl <;> simp)⟩
    rw [List.find?_eq_none] at this
    simpa using this
  · have : child z "energy" = some e := by simp [hz, child, Xml.kids, hetag]
    simp only [energyOf, orErr, bind, Except.bind, this, he]
  · rw [hf]
    show (below z).find? _ = _
    rw [below_z]
    exact find_kids (l := [e]) (by simpa using freeE _ (by simp [mdNames])) hfn
  · rw [hs]
    show (below z).find? _ = _
    rw [below_z]
    refine find_kids (l := [e, f]) ?_ hsn
    intro x hx
    simp only [List.mem_cons, List.not_mem_nil, or_false] at hx
    rcases hx with rfl | rfl
    · exact freeE _ (by simp [mdNames])
    · exact freeOf _ (by simp) _ hfn _ (by simp [mdNames]) (by decide)
  · intro n hn
    obtain ⟨y, h1, h2⟩ := h.parts n hn
    have hm : n ∈ mdNames := by
      simp only [List.mem_cons, List.not_mem_nil, or_false] at hn
      rcases hn with rfl | rfl | rfl <;> simp [mdNames]
    have hnf : "forces" ≠ n ∧ "stress" ≠ n := by
      simp only [List.mem_cons, List.not_mem_nil, or_false] at hn
      rcases hn with rfl | rfl | rfl <;> decide
    rw [findName_first h1]
    show (below z).find? _ = _
    have hlist : belowAll [e, f, s, st] = belowAll [e, f, s] ++ (st :: below st) := by
      rw [show [e, f, s, st] = [e, f, s] ++ [st] from rfl, belowAll_append]
      simp [belowAll]
    rw [below_z, hlist, List.find?_append, free_find (n := n), Option.none_or,
      List.find?_cons_of_neg (by simpa using h.structureName n hm)]
    · exact findName_first h2
    · intro x hx
      simp only [List.mem_cons, List.not_mem_nil, or_false] at hx
      rcases hx with rfl | rfl | rfl
      · exact freeE n hm
      · exact freeOf _ (by simp) _ hfn n hm hnf.1
      · exact freeOf _ (by simp) _ hsn n hm hnf.2

/-- C84: a compressed file can be made of every file that VASP writes for molecular dynamics, and all that is read from
it is what is read from the file. -/
theorem C84_compress_md (cv : Conv) {root i t a : Xml} (h : PlainMd root i t a) :
    ∃ z, compressMd (some root) = .ok (some z) ∧ isMd cv z = isMd cv root ∧
      ∀ name, readMd cv name z = readMd cv name root := by
  have hi := findName_first h.ibrion
  have ht := findName_first (only_first h.atomtypes)
  have ha := findName_first (only_first h.atoms)
  have hin : i.name = some "IBRION" := by obtain ⟨l, r, _, hy, _⟩ := h.ibrion; exact hy
  have htn : t.name = some "atomtypes" := by obtain ⟨l, r, _, hy, _⟩ := h.atomtypes; exact hy
  have han : a.name = some "atoms" := by obtain ⟨l, r, _, hy, _⟩ := h.atoms; exact hy
  have plain : ∀ c ∈ children root "calculation", ∃ e f s st, PlainStep c e f s st := by
    intro c hc
    simp only [children, List.mem_filter, decide_eq_true_eq] at hc
    exact h.steps c hc.1 hc.2
  obtain ⟨cs, hcs⟩ := mapM_ok_of_forall (f := compressCal) (l := children root "calculation") (by
    intro c hc
    obtain ⟨e, f, s, st, hp⟩ := plain c hc
    obtain ⟨z, hz, _⟩ := step_parts cv hp
    exact ⟨z, hz⟩)
  have hall : List.Forall₂ (fun c z => compressCal c = .ok z) (children root "calculation") cs := GridSearch.mapM_all hcs
  have hcsfree : ∀ z ∈ cs, z.tag = "calculation" ∧ ∀ n ∈ ["atomtypes", "atoms"], Free n z := by
    intro z hz
    obtain ⟨k, hk, rfl⟩ := List.getElem_of_mem hz
    have hk' : k < (children root "calculation").length := by rw [hall.length_eq]; exact hk
    have h1 := (List.forall₂_iff_get.mp hall).2 k hk' hk
    obtain ⟨e, f, s, st, hp⟩ := plain _ (List.getElem_mem hk')
    obtain ⟨z', hz', h2, h3, _⟩ := step_parts cv hp
    simp only [List.get_eq_getElem] at h1
    rw [h1] at hz'
    cases hz'
    exact ⟨h2, h3⟩
  set z : Xml := .node "modeling" none none ([i, t, a] ++ cs) with hz
  have below_z : below z = belowAll ([i, t, a] ++ cs) := by simp [hz, below]
  have nest : ∀ x ∈ [i, t, a], ∀ n ∈ ["IBRION", "atomtypes", "atoms"], ∀ y ∈ below x, y.name ≠ some n := fun x hx n hn y hy =>
    h.noNesting x hx y (by rw [inside_eq]; exact hy) n hn
  have zi : findName z "IBRION" = some i := by
    show (below z).find? _ = _
    rw [below_z]
    exact find_kids (l := []) (by simp) hin
  have zt : findRc z "atomtypes" = findRc root "atomtypes" := by
    unfold findRc
    rw [filter_only h.atomtypes, below_z]
    rw [show [i, t, a] ++ cs = [i] ++ t :: ([a] ++ cs) from rfl,
      filter_kids ?_ htn (nest t (by simp) _ (by simp)) ?_]
    · intro x hx
      rw [List.mem_singleton.mp hx]
      exact ⟨by rw [hin]; decide, nest i (by simp) _ (by simp)⟩
    · intro x hx
      rw [List.mem_append, List.mem_singleton] at hx
      rcases hx with rfl | hx
      · exact ⟨by rw [han]; decide, nest _ (by simp) _ (by simp)⟩
      · exact (hcsfree x hx).2 _ (by simp)
  have za : findRc z "atoms" = findRc root "atoms" := by
    unfold findRc
    rw [filter_only h.atoms, below_z]
    rw [show [i, t, a] ++ cs = [i, t] ++ a :: cs from rfl,
      filter_kids ?_ han (nest a (by simp) _ (by simp)) fun x hx => (hcsfree x hx).2 _ (by simp)]
    intro x hx
    simp only [List.mem_cons, List.not_mem_nil, or_false] at hx
    rcases hx with rfl | rfl
    · exact ⟨by rw [hin]; decide, nest _ (by simp) _ (by simp)⟩
    · exact ⟨by rw [htn]; decide, nest _ (by simp) _ (by simp)⟩
  have zcs : children z "calculation" = cs := by
    show List.filter _ ([i, t, a] ++ cs) = _
    rw [List.filter_append, List.filter_eq_nil_iff.mpr (by simpa using h.tags), List.nil_append,
      List.filter_eq_self.mpr (by simpa using fun x hx => (hcsfree x hx).1)]
  have same : ∀ c ∈ children root "calculation", ∀ b, compressCal c = .ok b →
      energyOf cv (some b) = energyOf cv (some c) ∧ findName b "forces" = findName c "forces" ∧
      findName b "stress" = findName c "stress" ∧
      ∀ n ∈ ["basis", "positions", "volume"], findName b n = findName c n := by
    intro c hc b hb
    obtain ⟨e, f, s, st, hp⟩ := plain c hc
    obtain ⟨z', hz', _, _, h4⟩ := step_parts cv hp
    rw [hb] at hz'
    cases hz'
    exact h4
  refine ⟨z, ?_, ?_, ?_⟩
  · simp [compressMd, hi, ht, ha, hcs, orErr, bind, Except.bind, pure, Except.pure, hz]
  · simp only [isMd, zi, hi]
  · intro name
    have h1 : cs.mapM (structureAt cv name z) = (children root "calculation").mapM (structureAt cv name root) := by
      refine mapM_congr_ok hcs fun c hc b hb => ?_
      have := (same c hc b hb).2.2.2
      simp only [structureAt, this "basis" (by simp), this "positions" (by simp), this "volume" (by simp), nAtomsOf,
        elementsOf, typesOf, zt, za]
    have h2 : (cs.mapM fun c => energyOf cv (some c)) = (children root "calculation").mapM fun c => energyOf cv (some c) :=
      mapM_congr_ok hcs fun c hc b hb => (same c hc b hb).1
    have h3 : (cs.mapM fun c => varray cv (findName c "forces")) =
        (children root "calculation").mapM fun c => varray cv (findName c "forces") :=
      mapM_congr_ok hcs fun c hc b hb => by rw [(same c hc b hb).2.1]
    have h4 : (cs.mapM fun c => matrix cv (findName c "stress")) =
        (children root "calculation").mapM fun c => matrix cv (findName c "stress") :=
      mapM_congr_ok hcs fun c hc b hb => by rw [(same c hc b hb).2.2.1]
    simp only [readMd, zcs, h1, h2, h3, h4]

/-! ## Data sets -/

theorem mapM_iff {α β : Type} {f : α → Except Err β} : ∀ {l : List α} {r : List β},
    l.mapM f = .ok r ↔ List.Forall₂ (fun a b => f a = .ok b) l r
  | [], r => by
    simp only [List.mapM_nil, pure, Except.pure, Except.ok.injEq]
    constructor
    · rintro rfl; exact .nil
    · intro h; cases h; rfl
  | a :: l, r => by
    simp only [List.mapM_cons, bind, Except.bind, pure, Except.pure]
    constructor
    · intro h
      cases h1 : f a with
      | error e => simp [h1] at h
      | ok b =>
        cases h2 : l.mapM f with
        | error e => simp [h1, h2] at h
        | ok bs =>
          simp only [h1, h2, Except.ok.injEq] at h
          subst h
          exact .cons h1 (mapM_iff.mp h2)
    · intro h
      cases h with
      | cons h1 h2 => simp [h1, mapM_iff.mpr h2]

theorem child_iff {x y : Xml} {t : String} : FirstTagged x t y ↔ child x t = some y := by
  refine ⟨child_first, fun h => ?_⟩
  unfold child at h
  rw [List.find?_eq_some_iff_append] at h
  obtain ⟨hy, l, r, hl, hn⟩ := h
  exact ⟨l, r, hl, by simpa using hy, by simpa using hn⟩

theorem row_iff {cv : Conv} {x : Xml} {v : V3 ℚ} : row cv x = .ok v ↔ HoldsRow cv x v := by
  unfold HoldsRow
  cases h : x.text with
  | none => simp [row, h, orErr, bind, Except.bind]
  | some t =>
    cases h2 : cv.floats t with
    | error e => simp [row, h, h2, orErr, bind, Except.bind]
    | ok l =>
      simp only [row, h, h2, orErr, bind, Except.bind, Option.some.injEq, exists_eq_left', Except.ok.injEq]
      match l with
      | [] => simp [v3]
      | [_] => simp [v3]
      | [_, _] => simp [v3]
      | [a, b, c] =>
        cases v
        simp [v3]
      | _ :: _ :: _ :: _ :: _ => simp [v3]

theorem varray_iff {cv : Conv} {x : Xml} {n : String} {rows : List (V3 ℚ)} :
    varray cv (findName x n) = .ok rows ↔ TableIn cv x n rows := by
  unfold TableIn
  cases h : findName x n with
  | none => simp [varray, orErr, bind, Except.bind, firstNamed_iff, h]
  | some y => simp [varray, orErr, bind, Except.bind, firstNamed_iff, h, mapM_iff, row_iff]

theorem matrix_iff {cv : Conv} {x : Xml} {n : String} {a : M3 ℚ} :
    matrix cv (findName x n) = .ok a ↔ TableIn cv x n [a.r0, a.r1, a.r2] := by
  rw [← varray_iff]
  cases h : varray cv (findName x n) with
  | error e => simp [matrix, h, bind, Except.bind]
  | ok l =>
    simp only [matrix, h, bind, Except.bind, Except.ok.injEq]
    match l with
    | [] => simp [m3]
    | [_] => simp [m3]
    | [_, _] => simp [m3]
    | [p, q, r] => cases a; simp [m3]
    | _ :: _ :: _ :: _ :: _ => simp [m3]

theorem number_iff {cv : Conv} {y : Xml} {q : ℚ} : number cv (some y) = .ok q ↔ HoldsNumber cv y q := by
  unfold HoldsNumber
  cases h : y.text with
  | none => simp [number, h, orErr, bind, Except.bind]
  | some t => simp [number, h, orErr, bind, Except.bind]

theorem numberIn_iff {cv : Conv} {x : Xml} {n : String} {q : ℚ} :
    number cv (findName x n) = .ok q ↔ ∃ y, FirstNamed x n y ∧ HoldsNumber cv y q := by
  cases h : findName x n with
  | none => simp [number, orErr, bind, Except.bind, firstNamed_iff, h]
  | some y => simp [firstNamed_iff, h, number_iff]

theorem energy_iff {cv : Conv} {c : Xml} {q : ℚ} : energyOf cv (some c) = .ok q ↔ EnergyIn cv c q := by
  unfold EnergyIn
  cases h : child c "energy" with
  | none => simp [energyOf, h, orErr, bind, Except.bind, child_iff]
  | some e =>
    cases h2 : e.kids[1]? with
    | none => simp [energyOf, h, h2, orErr, bind, Except.bind, child_iff]
    | some k => simp [energyOf, h, h2, orErr, bind, Except.bind, child_iff, number_iff]

theorem cell_iff {k : ℕ} {rc : Xml} {t : PStr} :
    (do
      let c ← orErr .indexError (children rc "c")[k]?
      let t ← orErr .attributeError c.text
      return t.filter (· ≠ ' ') : Except Err PStr) = .ok t ↔ CellIs k rc t := by
  unfold CellIs
  change _ ↔ ∃ c raw, (children rc "c")[k]? = some c ∧ _
  cases h : (children rc "c")[k]? with
  | none => simp [orErr, bind, Except.bind]
  | some c =>
    cases h2 : c.text with
    | none => simp [orErr, bind, Except.bind, h2]
    | some raw =>
      simp [orErr, bind, Except.bind, h2, pure, Except.pure]
      exact eq_comm

theorem column_iff {k : ℕ} {rcs : List Xml} {l : List PStr} :
    column k rcs = .ok l ↔ List.Forall₂ (CellIs k) rcs l := by
  unfold column
  rw [mapM_iff]
  simp only [cell_iff]

theorem forall₂_comp {α β γ : Type} {R : α → β → Prop} {S : β → γ → Prop} {l : List α} {n : List γ} :
    (∃ m, List.Forall₂ R l m ∧ List.Forall₂ S m n) ↔ List.Forall₂ (fun a c => ∃ b, R a b ∧ S b c) l n := by
  constructor
  · rintro ⟨m, h1, h2⟩
    induction h1 generalizing n with
    | nil => cases h2; exact .nil
    | cons h _ ih => cases h2 with | cons h' t => exact .cons ⟨_, h, h'⟩ (ih t)
  · intro h
    induction h with
    | nil => exact ⟨[], .nil, .nil⟩
    | cons h _ ih =>
      obtain ⟨b, h1, h2⟩ := h
      obtain ⟨m, h3, h4⟩ := ih
      exact ⟨b :: m, .cons h1 h3, .cons h2 h4⟩

theorem map_eq_forall₂ {α β : Type} {f : α → β} {l : List α} {r : List β} :
    l.map f = r ↔ List.Forall₂ (fun a b => f a = b) l r := by
  constructor
  · rintro rfl
    rw [List.forall₂_map_right_iff, List.forall₂_same]
    intro x _
    rfl
  · intro h
    induction h with
    | nil => rfl
    | cons h _ ih => simp [h, ih]

theorem atomRows_eq (root : Xml) (n : String) : atomRows root n = findRc root n := by
  unfold atomRows findRc
  rw [inside_eq]

theorem ints_iff {cv : Conv} {k : ℕ} {rcs : List Xml} {g : ℤ → ℕ} {l : List ℕ} :
    (do
      let l ← column k rcs
      let n ← l.mapM cv.int
      return n.map g : Except Err (List ℕ)) = .ok l ↔
    List.Forall₂ (fun rc (n : ℕ) => ∃ t i, CellIs k rc t ∧ cv.int t = .ok i ∧ n = g i) rcs l := by
  have hx : List.Forall₂ (fun rc (n : ℕ) => ∃ t i, CellIs k rc t ∧ cv.int t = .ok i ∧ n = g i) rcs l ↔
      ∃ m, List.Forall₂ (CellIs k) rcs m ∧ ∃ p, List.Forall₂ (fun t i => cv.int t = .ok i) m p ∧
        List.Forall₂ (fun i n => g i = n) p l := by
    simp only [forall₂_comp]
    refine iff_of_eq (congrArg (fun R => List.Forall₂ R rcs l) ?_)
    funext rc n
    refine propext ⟨?_, ?_⟩
    · rintro ⟨t, i, h1, h2, h3⟩
      exact ⟨t, h1, i, h2, h3.symm⟩
    · rintro ⟨t, h1, i, h2, h3⟩
      exact ⟨t, i, h1, h2, h3.symm⟩
  rw [hx]
  simp only [← column_iff, ← mapM_iff, ← map_eq_forall₂]
  cases h : column k rcs with
  | error e => simp [bind, Except.bind]
  | ok m =>
    cases h2 : m.mapM cv.int with
    | error e => simp [bind, Except.bind, h2]
    | ok p => simp [bind, Except.bind, h2, pure, Except.pure]

theorem elements_iff {root : Xml} {l : List String} : elementsOf root = .ok l ↔
    List.Forall₂ (fun rc e => ∃ t, CellIs 0 rc t ∧ e = if t = ['r'] then "Zr" else String.ofList t) (atomRows root "atoms") l := by
  have hx : List.Forall₂ (fun rc e => ∃ t, CellIs 0 rc t ∧ e = if t = ['r'] then "Zr" else String.ofList t)
      (atomRows root "atoms") l ↔ ∃ m, List.Forall₂ (CellIs 0) (atomRows root "atoms") m ∧
        List.Forall₂ (fun t e => (if t = ['r'] then "Zr" else String.ofList t) = e) m l := by
    rw [forall₂_comp]
    simp only [eq_comm]
  rw [hx]
  simp only [← column_iff, ← map_eq_forall₂, atomRows_eq, elementsOf]
  cases h : column 0 (findRc root "atoms") with
  | error e => simp [bind, Except.bind]
  | ok m => simp [bind, Except.bind, pure, Except.pure]

theorem structure_iff {cv : Conv} {name : String} {root st : Xml} {s : Structure ℚ} :
    structureAt cv name root st = .ok s ↔ StructureIn cv name root st s := by
  unfold StructureIn
  rw [← varray_iff (n := "positions"), ← numberIn_iff, ← elements_iff, atomRows_eq, atomRows_eq, ← ints_iff, ← ints_iff]
  change _ ↔ _ ∧ _ ∧ _ ∧ nAtomsOf cv root = _ ∧ _ ∧ typesOf cv root = _ ∧ _
  have hm : ∀ a : M3 ℚ, TableIn cv st "basis" [⟨s.axis.r0.x, s.axis.r1.x, s.axis.r2.x⟩,
      ⟨s.axis.r0.y, s.axis.r1.y, s.axis.r2.y⟩, ⟨s.axis.r0.z, s.axis.r1.z, s.axis.r2.z⟩] ↔
      matrix cv (findName st "basis") = .ok (M3.t s.axis) := fun _ => (matrix_iff (a := M3.t s.axis)).symm
  rw [hm s.axis]
  have ht : ∀ a b : M3 ℚ, a = M3.t b ↔ M3.t a = b := by
    intro a b
    constructor <;> (intro h; subst h; rfl)
  unfold structureAt
  cases h1 : matrix cv (findName st "basis") with
  | error e => simp [bind, Except.bind]
  | ok a =>
    cases h2 : varray cv (findName st "positions") with
    | error e => simp [bind, Except.bind]
    | ok p =>
      cases h3 : number cv (findName st "volume") with
      | error e => simp [bind, Except.bind]
      | ok v =>
        cases h4 : nAtomsOf cv root with
        | error e => simp [bind, Except.bind]
        | ok n =>
          cases h5 : elementsOf root with
          | error e => simp [bind, Except.bind]
          | ok e =>
            cases h6 : typesOf cv root with
            | error e => simp [bind, Except.bind]
            | ok t =>
              obtain ⟨sa, sp, sn, se, stt, sv, sm⟩ := s
              simp only [bind, Except.bind, Structure.check, Except.ok.injEq, ht]
              split_ifs with hc
              · simp only [Except.ok.injEq, Structure.mk.injEq]
                constructor
                · rintro ⟨rfl, rfl, rfl, rfl, rfl, rfl, rfl⟩
                  exact ⟨rfl, rfl, rfl, rfl, rfl, rfl, rfl, hc⟩
                · rintro ⟨rfl, rfl, rfl, rfl, rfl, rfl, rfl, _⟩
                  exact ⟨rfl, rfl, rfl, rfl, rfl, rfl, rfl⟩
              · simp only [reduceCtorEq, false_iff, not_and]
                rintro rfl rfl rfl rfl rfl rfl rfl h1 h2 h3
                exact hc ⟨h1, h2, h3⟩

theorem stress_iff {cv : Conv} {x : Xml} {st : Structure ℚ} {p : M3 ℚ} :
    (∃ a, matrix cv (findName x "stress") = .ok a ∧ toEv st a = p) ↔ StressEv cv x st.volume p := by
  unfold StressEv
  constructor
  · rintro ⟨a, h, rfl⟩
    exact ⟨a, matrix_iff.mp h, rfl⟩
  · rintro ⟨a, h, rfl⟩
    exact ⟨a, matrix_iff.mpr h, rfl⟩

theorem md_iff {cv : Conv} {root : Xml} : isMd cv root = true ↔ MdFile cv root := by
  unfold MdFile isMd
  simp only [firstNamed_iff]
  cases h : findName root "IBRION" with
  | none => simp
  | some y =>
    cases h2 : y.text with
    | none => simp [h2]
    | some t =>
      cases h3 : cv.int t with
      | error e => simp [h2, h3]
      | ok i => simp [h2, h3]

theorem history_iff {cv : Conv} {root : Xml} {l : List ℚ} : history cv root = .ok l ↔ EnergyHistory cv root l := by
  unfold EnergyHistory history
  simp only [child_iff]
  have hs : ∀ sc q, (do
      let e ← orErr .attributeError (child sc "energy")
      number cv (findName e "e_0_energy") : Except Err ℚ) = .ok q ↔
      ∃ e k, child sc "energy" = some e ∧ FirstNamed e "e_0_energy" k ∧ HoldsNumber cv k q := by
    intro sc q
    cases h : child sc "energy" with
    | none => simp [orErr, bind, Except.bind]
    | some e => simp [orErr, bind, Except.bind, numberIn_iff]
  cases h : child root "calculation" with
  | none => simp [orErr, bind, Except.bind]
  | some c =>
    simp only [← hs, ← mapM_iff]
    simp [orErr, bind, Except.bind, children]

theorem converged_iff {cv : Conv} {root : Xml} {tol : ℚ} : isConvergent cv root tol = false ↔ NotConverged cv root tol := by
  unfold NotConverged isConvergent
  simp only [← history_iff]
  cases h : history cv root with
  | error e => simp
  | ok l =>
    rcases hr : l.reverse with _ | ⟨a, _ | ⟨b, r⟩⟩
    · have : l = [] := by simpa using hr
      subst this
      simp
    · have : l = [a] := by simpa using congrArg List.reverse hr
      subst this
      simp only [List.reverse_cons, List.reverse_nil, List.nil_append, Bool.true_eq_false, Except.ok.injEq, false_iff]
      rintro ⟨l, x, y, h1, _⟩
      have := congrArg List.length h1
      simp at this
    · have : l = r.reverse ++ [b, a] := by simpa using congrArg List.reverse hr
      subst this
      simp only [hr, decide_eq_false_iff_not, not_lt, Except.ok.injEq]
      constructor
      · intro h1
        exact ⟨r.reverse, b, a, rfl, h1⟩
      · rintro ⟨l, x, y, h1, h2⟩
        have h3 := congrArg List.reverse h1
        simp only [List.reverse_append, List.reverse_cons, List.reverse_nil, List.nil_append, List.reverse_reverse,
          List.cons_append, List.cons.injEq] at h3
        obtain ⟨rfl, rfl, _⟩ := h3
        exact h2

/-- The records of a file, as the loop collects them. -/
theorem parseFile_iff (cv : Conv) {acc a : Arrays} {file : String × Option Xml} : parseFile cv acc file = .ok a ↔
    ∃ rs, FileRecords cv file rs ∧ a = ⟨acc.structures ++ rs.map (·.structure_), acc.energies ++ rs.map (·.energy),
      acc.forces ++ rs.map (·.forces), acc.stresses ++ rs.map (·.stress)⟩ := by
  obtain ⟨name, file⟩ := file
  unfold FileRecords
  cases file with
  | none => simp [parseFile, orErr, bind, Except.bind]
  | some root =>
    simp only [Option.some.injEq, exists_eq_left', ← md_iff, ← converged_iff, RecordIn, ← structure_iff, ← energy_iff,
      ← varray_iff, ← stress_iff, firstNamed_iff, child_iff]
    simp only [parseFile, orErr, bind, Except.bind]
    by_cases hmd : isMd cv root = true
    · simp only [hmd, if_true, not_true, false_and, false_or, true_and]
      change _ ↔ ∃ rs, List.Forall₂ _ (children root "calculation") rs ∧ _
      simp only [readMd, bind, Except.bind, pure, Except.pure]
      have key : ∀ (cals : List Xml) (rs : List Rec),
          List.Forall₂ (fun c r => structureAt cv name root c = .ok r.structure_ ∧ energyOf cv (some c) = .ok r.energy ∧
            varray cv (findName c "forces") = .ok r.forces ∧
            ∃ p, matrix cv (findName c "stress") = .ok p ∧ toEv r.structure_ p = r.stress) cals rs ↔
          cals.mapM (structureAt cv name root) = .ok (rs.map (·.structure_)) ∧
          (cals.mapM fun c => energyOf cv (some c)) = .ok (rs.map (·.energy)) ∧
          (cals.mapM fun c => varray cv (findName c "forces")) = .ok (rs.map (·.forces)) ∧
          ∃ ps, (cals.mapM fun c => matrix cv (findName c "stress")) = .ok ps ∧
            List.zipWith (fun s st => toEv st s) ps (rs.map (·.structure_)) = rs.map (·.stress) := by
        intro cals rs
        simp only [mapM_iff, List.forall₂_map_right_iff]
        constructor
        · intro h
          induction h with
          | nil => exact ⟨.nil, .nil, .nil, [], .nil, rfl⟩
          | cons h _ ih =>
            obtain ⟨h1, h2, h3, p, h4, h5⟩ := h
            obtain ⟨i1, i2, i3, ps, i4, i5⟩ := ih
            exact ⟨.cons h1 i1, .cons h2 i2, .cons h3 i3, p :: ps, .cons h4 i4, by simp [h5, i5]⟩
        · rintro ⟨h1, h2, h3, ps, h4, h5⟩
          induction h1 generalizing ps with
          | nil => exact .nil
          | cons h1 _ ih =>
            cases h2 with
            | cons h2 t2 =>
              cases h3 with
              | cons h3 t3 =>
                cases h4 with
                | cons h4 t4 =>
                  simp only [List.map_cons, List.zipWith_cons_cons, List.cons.injEq] at h5
                  exact .cons ⟨h1, h2, h3, _, h4, h5.1⟩ (ih t2 t3 _ t4 h5.2)
      simp only [key]
      constructor
      · intro h
        cases h1 : (children root "calculation").mapM (structureAt cv name root) with
        | error e => simp [h1] at h
        | ok ss =>
          cases h2 : (children root "calculation").mapM fun c => energyOf cv (some c) with
          | error e => simp [h1, h2] at h
          | ok es =>
            cases h3 : (children root "calculation").mapM fun c => varray cv (findName c "forces") with
            | error e => simp [h1, h2, h3] at h
            | ok fs =>
              cases h4 : (children root "calculation").mapM fun c => matrix cv (findName c "stress") with
              | error e => simp [h1, h2, h3, h4] at h
              | ok ps =>
                simp only [h1, h2, h3, h4, Except.ok.injEq] at h
                subst h
                have l1 := (mapM_iff.mp h1).length_eq
                have l2 := (mapM_iff.mp h2).length_eq
                have l3 := (mapM_iff.mp h3).length_eq
                have l4 := (mapM_iff.mp h4).length_eq
                have build : ∀ (ss : List (Structure ℚ)) (es : List ℚ) (fs : List (List (V3 ℚ))) (ps : List (M3 ℚ)),
                    es.length = ss.length → fs.length = ss.length → ps.length = ss.length →
                    ∃ rs : List Rec, rs.map (·.structure_) = ss ∧ rs.map (·.energy) = es ∧ rs.map (·.forces) = fs ∧
                      rs.map (·.stress) = List.zipWith (fun s st => toEv st s) ps ss := by
                  intro ss
                  induction ss with
                  | nil =>
                    intro es fs ps h1 h2 h3
                    have := List.length_eq_zero_iff.mp h1
                    have := List.length_eq_zero_iff.mp h2
                    subst_vars
                    exact ⟨[], rfl, rfl, rfl, by simp⟩
                  | cons s ss ih =>
                    intro es fs ps h1 h2 h3
                    match es, fs, ps, h1, h2, h3 with
                    | e :: es, f :: fs, p :: ps, h1, h2, h3 =>
                      obtain ⟨rs, e1, e2, e3, e4⟩ := ih es fs ps (by simpa using h1) (by simpa using h2) (by simpa using h3)
                      exact ⟨⟨s, e, f, toEv s p⟩ :: rs, by simp [e1], by simp [e2], by simp [e3], by simp [e4]⟩
                obtain ⟨rs, e1, e2, e3, e4⟩ := build ss es fs ps (by omega) (by omega) (by omega)
                exact ⟨rs, ⟨by rw [e1], by rw [e2], by rw [e3], ps, rfl, by rw [e1, e4]⟩, by rw [e1, e2, e3, e4]⟩
      · rintro ⟨rs, ⟨h1, h2, h3, ps, h4, h5⟩, rfl⟩
        simp only [h1, h2, h3, h4, h5]
    · simp only [hmd, Bool.false_eq_true, if_false, not_false_eq_true, true_and, false_and, or_false]
      by_cases hc : isConvergent cv root (1 / 1000) = false
      · simp only [hc, if_true, pure, Except.pure, true_and, not_true, false_and, or_false, exists_eq_left,
          List.map_nil, List.append_nil, Except.ok.injEq]
        exact eq_comm
      · rw [Bool.not_eq_false] at hc
        simp only [hc, Bool.true_eq_false, if_false, false_and, false_or, not_false_eq_true, true_and]
        unfold structureOf energy forces stress
        cases h0 : findName root "finalpos" with
        | none => simp [orErr, bind, Except.bind]
        | some st =>
          cases h1 : structureAt cv name root st with
          | error e => simp [orErr, bind, Except.bind, h1]
          | ok s =>
            cases h2 : child root "calculation" with
            | none => simp [orErr, bind, Except.bind, h1, energyOf]
            | some c =>
              cases h3 : energyOf cv (some c) with
              | error e => simp [orErr, bind, Except.bind, h1, h3]
              | ok e =>
                cases h4 : varray cv (findName root "forces") with
                | error e => simp [orErr, bind, Except.bind, h1, h3]
                | ok f =>
                  cases h5 : matrix cv (findName root "stress") with
                  | error e => simp [orErr, bind, Except.bind, h1, h3]
                  | ok p =>
                    simp only [orErr, bind, Except.bind, h1, h3, pure, Except.pure, Except.ok.injEq, Option.some.injEq]
                    constructor
                    · rintro rfl
                      exact ⟨[⟨s, e, f, toEv s p⟩], ⟨_, st, c, rfl, rfl, rfl, by simp [h1], by simp [h3], by simp, p, rfl, rfl⟩,
                        by simp⟩
                    · rintro ⟨_, ⟨⟨r1, r2, r3, r4⟩, _, _, rfl, rfl, rfl, q1, q2, q3, p', q5, q4⟩, rfl⟩
                      simp only [h1, h3, Except.ok.injEq] at q1 q2 q3 q5 q4
                      subst q1 q2 q3 q5
                      simp [q4]

theorem parseFiles_from (cv : Conv) : ∀ {files : List (String × Option Xml)} {acc a : Arrays},
    files.foldlM (parseFile cv) acc = .ok a ↔
    ∃ recs : List (List Rec), List.Forall₂ (FileRecords cv) files recs ∧
      a = ⟨acc.structures ++ recs.flatten.map (·.structure_), acc.energies ++ recs.flatten.map (·.energy),
        acc.forces ++ recs.flatten.map (·.forces), acc.stresses ++ recs.flatten.map (·.stress)⟩
  | [], acc, a => by
    simp only [List.foldlM_nil, pure, Except.pure, Except.ok.injEq]
    constructor
    · rintro rfl
      exact ⟨[], .nil, by simp⟩
    · rintro ⟨_, h, rfl⟩
      cases h
      simp
  | f :: fs, acc, a => by
    simp only [List.foldlM_cons, bind, Except.bind]
    constructor
    · intro h
      cases h1 : parseFile cv acc f with
      | error e => simp [h1] at h
      | ok b =>
        simp only [h1] at h
        obtain ⟨rs, hr, rfl⟩ := (parseFile_iff cv).mp h1
        obtain ⟨recs, hrs, rfl⟩ := (parseFiles_from cv).mp h
        exact ⟨rs :: recs, .cons hr hrs, by simp⟩
    · rintro ⟨_, h, rfl⟩
      cases h with
      | cons h1 h2 =>
        rw [(parseFile_iff cv).mpr ⟨_, h1, rfl⟩]
        refine (parseFiles_from cv).mpr ⟨_, h2, ?_⟩
        simp

/-- C84: files are read, and `a` is the result, exactly if every file has records and `a` holds them: the structures,
energies, forces and stresses are those of one list of records, those of the first file, of the second, and so on. -/
theorem C84_records (cv : Conv) (files : List (String × Option Xml)) (a : Arrays) :
    parseFiles cv files = .ok a ↔
    ∃ recs : List (List Rec), List.Forall₂ (FileRecords cv) files recs ∧
      a.structures = recs.flatten.map (·.structure_) ∧ a.energies = recs.flatten.map (·.energy) ∧
      a.forces = recs.flatten.map (·.forces) ∧ a.stresses = recs.flatten.map (·.stress) := by
  obtain ⟨a1, a2, a3, a4⟩ := a
  unfold parseFiles
  rw [parseFiles_from]
  simp

/-- C84: the records of a file are determined by the file. -/
theorem C84_records_unique (cv : Conv) (file : String × Option Xml) (rs rs' : List Rec) (h : FileRecords cv file rs)
    (h' : FileRecords cv file rs') : rs.map (fun r => (r.structure_, r.energy, r.forces, r.stress)) =
      rs'.map fun r => (r.structure_, r.energy, r.forces, r.stress) := by
  have h1 := (parseFile_iff cv (acc := {})).mpr ⟨rs, h, rfl⟩
  have h2 := (parseFile_iff cv (acc := {})).mpr ⟨rs', h', rfl⟩
  rw [h1] at h2
  simp only [List.nil_append, Except.ok.injEq, Arrays.mk.injEq] at h2
  obtain ⟨e1, e2, e3, e4⟩ := h2
  clear h h' h1
  induction rs generalizing rs' with
  | nil =>
    cases rs' with
    | nil => rfl
    | cons r rs' => simp at e1
  | cons r rs ih =>
    cases rs' with
    | nil => simp at e1
    | cons r' rs' =>
      simp only [List.map_cons, List.cons.injEq] at e1 e2 e3 e4
      simp [e1.1, e2.1, e3.1, e4.1, ih rs' e1.2 e2.2 e3.2 e4.2]

/-- C84: a calculation counts as converged exactly if it is not the case that its last two energies are known and differ
by at least the tolerance. -/
theorem C84_converged (cv : Conv) (root : Xml) (tol : ℚ) :
    isConvergent cv root tol = true ↔ ¬ NotConverged cv root tol := by
  rw [← converged_iff]
  simp

/-- C84: the test of a file accepts exactly the files that can be read and whose last two energies, if known, differ by less
than the fixed tolerance. -/
theorem C84_tested (cv : Conv) (file : Option Xml) (tol : ℚ) :
    testConvergence cv file tol = true ↔ ∃ root, file = some root ∧ ¬ NotConverged cv root (1 / 1000) := by
  cases file with
  | none => simp [testConvergence]
  | some root => simp [testConvergence, C84_converged]

/-- C84: molecular dynamics is refused by the compression for one calculation, and files that cannot be read give nothing. -/
theorem C84_compress_refused (cv : Conv) (root : Xml) (h : MdFile cv root) :
    compress cv (some root) = .error .runtimeError ∧ compress cv none = .ok none ∧ compressMd none = .ok none := by
  refine ⟨?_, rfl, rfl⟩
  simp [compress, md_iff.2 h]

/-- Finding: a calculation with fewer than two steps of self-consistency counts as converged. -/
theorem C84_one_step_violation (cv : Conv) (root : Xml) (tol q : ℚ) (h : EnergyHistory cv root [q]) :
    isConvergent cv root tol = true := by
  rw [← history_iff] at h
  simp [isConvergent, h]

/-! ## Findings -/

/-- Finding: one file that is no xml stops the reading of all files; the branch for files that cannot be read is not
reached. -/
theorem C84_unreadable_violation (cv : Conv) (files : List (String × Option Xml)) {name : String}
    (h : (name, none) ∈ files) : ∃ e, parseFiles cv files = .error e := by
  cases hp : parseFiles cv files with
  | error e => exact ⟨e, rfl⟩
  | ok a =>
    obtain ⟨recs, h1, _⟩ := (C84_records cv _ _).mp hp
    obtain ⟨k, hk, hk'⟩ := List.getElem_of_mem h
    have h2 := (List.forall₂_iff_get.mp h1).2 k hk (by rw [← h1.length_eq]; exact hk)
    simp only [List.get_eq_getElem, hk'] at h2
    obtain ⟨root, hr, _⟩ := h2
    cases hr

/-- Finding: the tolerance that is given to the test of convergence has no effect. -/
theorem C84_tolerance_violation (cv : Conv) (file : Option Xml) (tol tol' : ℚ) :
    testConvergence cv file tol = testConvergence cv file tol' := rfl

/-- Text of the examples: each character is a number. -/
def exConv : Conv where
  floats s := .ok (s.map fun c => ((c.toNat : ℚ) - 48))
  float s := .ok (((s.headD '0').toNat : ℚ) - 48)
  int s := .ok (((s.headD '0').toNat : ℤ) - 48)

/-- A row of a table. -/
def exV (s : String) : Xml := .node "v" none (some s.toList) []

/-- A table. -/
def exTable (name : String) (rows : List String) : Xml := .node "varray" (some name) none (rows.map exV)

/-- An energy. -/
def exEnergy (s : String) : Xml :=
  .node "energy" none none
    [.node "i" (some "e_fr_energy") (some ['0']) [], .node "i" (some "e_wo_entrp") (some s.toList) [],
      .node "i" (some "e_0_energy") (some s.toList) []]

/-- A structure. -/
def exStructure (name : Option String) (pos : String) : Xml :=
  .node "structure" name none
    [.node "crystal" none none
      [exTable "basis" ["300", "030", "003"], .node "i" (some "volume") (some ['9']) []], exTable "positions" [pos]]

/-- A step of self-consistency. -/
def exScf (s : String) : Xml := .node "scstep" none none [exEnergy s]

/-- A calculation. -/
def exCalc (scf : List String) (e f : String) (pos : String) : Xml :=
  .node "calculation" none none
    (scf.map exScf ++ [exStructure none pos, exTable "forces" [f], exTable "stress" ["100", "020", "003"], exEnergy e])

/-- A row of a table of atoms. -/
def exRc (cs : List String) : Xml := .node "rc" none none (cs.map fun c => .node "c" none (some c.toList) [])

/-- A table of atoms. -/
def exArray (name : String) (rows : List (List String)) : Xml :=
  .node "array" (some name) none [.node "set" none none (rows.map exRc)]

/-- A file. -/
def exRoot (ibrion : String) (cals : List Xml) (final : String) : Xml :=
  .node "modeling" none none
    ([.node "incar" none none [.node "i" (some "IBRION") (some ibrion.toList) []], exArray "atoms" [["r ", "1"]],
      exArray "atomtypes" [["1", "Zr"]]] ++ cals ++ [exStructure (some "finalpos") final])

/-- A relaxation of two steps. -/
def exRelax : Xml := exRoot "2" [exCalc ["1", "1"] "1" "500" "100", exCalc ["2", "2"] "2" "000" "200"] "200"

/-- Finding: the record of a relaxation has the structure of the last step, but the energy and the forces of the first. -/
theorem C84_relaxation_violation :
    ∃ st, parseFiles exConv [("vasprun.xml", some exRelax)] =
      .ok ⟨[st], [1], [[⟨5, 0, 0⟩]], [toEv st ⟨⟨1, 0, 0⟩, ⟨0, 2, 0⟩, ⟨0, 0, 3⟩⟩]⟩ ∧ st.positions = [⟨2, 0, 0⟩] ∧
      ((children exRelax "calculation").map fun c => (structureAt exConv "vasprun.xml" exRelax c).toOption.map (·.positions),
        (children exRelax "calculation").map fun c => (energyOf exConv (some c)).toOption) =
        ([some [⟨1, 0, 0⟩], some [⟨2, 0, 0⟩]], [some 1, some 2]) :=
  ⟨⟨⟨⟨3, 0, 0⟩, ⟨0, 3, 0⟩, ⟨0, 0, 3⟩⟩, [⟨2, 0, 0⟩], [1], ["Zr"], [0], 9, some "vasprun.xml"⟩, by decide +kernel, rfl,
    by decide +kernel⟩

/-- A file of one calculation. -/
def exSingle : Xml := exRoot "2" [exCalc ["1", "1"] "1" "500" "200"] "200"

example : PlainVasprun exSingle (exCalc ["1", "1"] "1" "500" "200") (exEnergy "1") (exTable "forces" ["500"])
    (exTable "stress" ["100", "020", "003"]) (exStructure (some "finalpos") "200") (exArray "atomtypes" [["1", "Zr"]])
    (exArray "atoms" [["r ", "1"]]) := by
  constructor
  · exact ⟨exSingle.kids.take 3, exSingle.kids.drop 4, rfl, rfl, by decide +kernel⟩
  · exact ⟨(exCalc ["1", "1"] "1" "500" "200").kids.take 5, [], rfl, rfl, by decide +kernel⟩
  · exact ⟨firstNamed_iff.mpr rfl, firstNamed_iff.mpr rfl⟩
  · exact ⟨firstNamed_iff.mpr rfl, firstNamed_iff.mpr rfl⟩
  · exact firstNamed_iff.mpr rfl
  · exact ⟨(xmlInside exSingle).take 7, (xmlInside exSingle).drop 8, rfl, rfl, by decide +kernel, by decide +kernel⟩
  · exact ⟨(xmlInside exSingle).take 2, (xmlInside exSingle).drop 3, rfl, rfl, by decide +kernel, by decide +kernel⟩
  · decide +kernel
  · unfold NoneInside; decide +kernel
  · unfold NoneInside; decide +kernel
  · decide +kernel
  · unfold NoneInside; decide +kernel

example : isMd exConv exSingle = false := by decide +kernel

/-- A file of molecular dynamics with two steps. -/
def exMd : Xml := exRoot "0" [exCalc [] "1" "500" "100", exCalc [] "2" "000" "200"] "200"

theorem exStep (e f pos : String) :
    PlainStep (exCalc [] e f pos) (exEnergy e) (exTable "forces" [f]) (exTable "stress" ["100", "020", "003"])
      (exStructure none pos) := by
  constructor
  · exact ⟨(exCalc [] e f pos).kids.take 3, [], rfl, rfl, by
      intro z hz
      simp only [exCalc, Xml.kids, List.map_nil, List.nil_append, List.take, List.mem_cons, List.not_mem_nil, or_false] at hz
      rcases hz with rfl | rfl | rfl <;> simp [exStructure, exTable, Xml.tag]⟩
  · exact firstNamed_iff.mpr rfl
  · exact firstNamed_iff.mpr rfl
  · exact ⟨[], (exCalc [] e f pos).kids.drop 1, rfl, rfl, by simp⟩
  · intro n hn
    simp only [List.mem_cons, List.not_mem_nil, or_false] at hn
    rcases hn with rfl | rfl | rfl
    · exact ⟨exTable "basis" ["300", "030", "003"], firstNamed_iff.mpr rfl, firstNamed_iff.mpr rfl⟩
    · exact ⟨exTable "positions" [pos], firstNamed_iff.mpr rfl, firstNamed_iff.mpr rfl⟩
    · exact ⟨.node "i" (some "volume") (some ['9']) [], firstNamed_iff.mpr rfl, firstNamed_iff.mpr rfl⟩
  · simp [exEnergy, Xml.name]
  · simp [exStructure, Xml.name]
  · intro x hx y hy n hn
    simp only [List.mem_cons, List.not_mem_nil, or_false] at hx
    simp only [mdNames, List.mem_cons, List.not_mem_nil, or_false] at hn
    rcases hx with rfl | rfl | rfl <;>
      simp [exEnergy, exTable, exV, xmlInside, xmlInsideAll] at hy <;> rcases hy with h | h | h <;>
        subst_vars <;> simp_all [Xml.name] <;> rcases hn with rfl | rfl | rfl | rfl | rfl | rfl | rfl <;> decide
  · intro y hy n hn
    simp only [List.mem_cons, List.not_mem_nil, or_false] at hn
    simp [exStructure, exTable, exV, xmlInside, xmlInsideAll] at hy
    rcases hy with h | h | h | h | h | h | h | h <;> subst_vars <;> simp [Xml.name] <;>
      rcases hn with rfl | rfl | rfl | rfl <;> decide

example : PlainMd exMd (.node "i" (some "IBRION") (some ['0']) []) (exArray "atomtypes" [["1", "Zr"]])
    (exArray "atoms" [["r ", "1"]]) := by
  constructor
  · exact firstNamed_iff.mpr rfl
  · exact ⟨(xmlInside exMd).take 7, (xmlInside exMd).drop 8, rfl, rfl, by decide +kernel, by decide +kernel⟩
  · exact ⟨(xmlInside exMd).take 2, (xmlInside exMd).drop 3, rfl, rfl, by decide +kernel, by decide +kernel⟩
  · unfold NoneInside; decide +kernel
  · decide +kernel
  · intro c hc ht
    simp only [exMd, exRoot, Xml.kids, List.cons_append, List.nil_append, List.mem_cons, List.not_mem_nil, or_false] at hc
    rcases hc with rfl | rfl | rfl | rfl | rfl | rfl
    · simp [Xml.tag] at ht
    · simp [exArray, Xml.tag] at ht
    · simp [exArray, Xml.tag] at ht
    · exact ⟨_, _, _, _, exStep "1" "500" "100"⟩
    · exact ⟨_, _, _, _, exStep "2" "000" "200"⟩
    · simp [exStructure, Xml.tag] at ht

/-- Files of both kinds, and one that did not converge, are read. -/
example : (parseFiles exConv [("a", some exMd), ("b", some (exRoot "2" [exCalc ["1", "2"] "1" "500" "200"] "200")),
    ("c", some exSingle)]).toOption.map (fun a => (a.energies, a.structures.map (·.name))) =
    some ([1, 2, 1], [some "a", some "a", some "c"]) := by decide +kernel

end Verif.Vasprun
