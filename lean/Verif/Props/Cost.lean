import Verif.Spec.Cost
import Mathlib.Tactic.NormNum
import Mathlib.Tactic.FieldSimp
import Mathlib.Tactic.Ring

/-!
# C112: computational costs of potentials
-/

namespace Verif.Cost
open Verif.Spec

variable {S : Type}

theorem perAtom_ok {t : ℚ} {a n : ℕ} {c : ℚ} (h : perAtom t a n = .ok c) : a ≠ 0 ∧ n ≠ 0 ∧ c * (a * n) = 1000 * t := by
  unfold perAtom at h
  split at h
  · cases h
  · rename_i hn
    rw [not_or] at hn
    cases h
    have h1 : (a : ℚ) ≠ 0 := by exact_mod_cast hn.1
    have h2 : (n : ℚ) ≠ 0 := by exact_mod_cast hn.2
    exact ⟨hn.1, hn.2, by field_simp⟩

theorem runSingle_ok {ext : Ext S} {o : Obj S} {pot : List String} {n : ℕ} {c : ℚ × ℚ}
    (h : runSingle ext o pot n = .ok c) (sys : List String) : CostOf ext pot o.cell n ⟨sys, c.1, c.2⟩ := by
  unfold runSingle at h
  cases h2 : ext.time pot o.cell (n * 10) true with
  | error e => simp [h2, bind, Except.bind] at h
  | ok t2 =>
    cases h3 : perAtom t2 (ext.nAtoms o.cell) (n * 10) with
    | error e => simp [h2, h3, bind, Except.bind] at h
    | ok c2 =>
      cases h4 : ext.time pot o.cell n false with
      | error e => simp [h2, h3, h4, bind, Except.bind] at h
      | ok t1 =>
        cases h5 : perAtom t1 (ext.nAtoms o.cell) n with
        | error e => simp [h2, h3, h4, h5, bind, Except.bind] at h
        | ok c1 =>
          simp [h2, h3, h4, h5, bind, Except.bind, pure, Except.pure] at h
          subst h
          refine ⟨t1, t2, h4, h2, (perAtom_ok h5).2.2, ?_⟩
          have := (perAtom_ok h3).2.2
          push_cast at this
          exact this

theorem create_ok {ext : Ext S} {pot dirs : Option (List String)} {poscar : Option String} {size : ℕ × ℕ × ℕ} {o : Obj S}
    (h : create ext pot dirs poscar size = .ok o) : o.pot = pot ∧ o.dirs = dirs ∧
      parseElements ext pot dirs = .ok o.elements ∧
      ∃ u, unitcell ext poscar o.elements = .ok u ∧ ext.supercell u size = .ok o.cell := by
  unfold create at h
  cases h1 : parseElements ext pot dirs with
  | error e => simp [h1, bind, Except.bind] at h
  | ok els =>
    cases h2 : unitcell ext poscar els with
    | error e => simp [h1, h2, bind, Except.bind] at h
    | ok u =>
      cases h3 : ext.supercell u size with
      | error e => simp [h1, h2, h3, bind, Except.bind] at h
      | ok s =>
        simp [h1, h2, h3, bind, Except.bind, pure, Except.pure] at h
        subst h
        exact ⟨rfl, rfl, rfl, u, h2, h3⟩

/-- What the loop over directories leaves, also when it ends with an exception. -/
theorem runDirs_spec (ext : Ext S) (o : Obj S) (n : ℕ) (ds : List String) (fs : Files) :
    (∀ d, (runDirs ext o n true ds fs).1 d = fs d ∨ ∃ x ∈ ds, d = some x ∧ ∃ p f, ext.find x = some p ∧
      (runDirs ext o n true ds fs).1 d = some f ∧ f.system = o.elements ∧ CostOf ext p o.cell n f) ∧
    ((runDirs ext o n true ds fs).2 = .ok () → ∀ x ∈ ds, ∀ p, ext.find x = some p →
      ∃ f, (runDirs ext o n true ds fs).1 (some x) = some f ∧ f.system = o.elements ∧ CostOf ext p o.cell n f) := by
  induction ds generalizing fs with
  | nil => exact ⟨fun d => .inl rfl, fun _ x hx => by simp at hx⟩
  | cons a ds ih =>
    rw [runDirs]
    cases ha : ext.find a with
    | none =>
      dsimp only
      obtain ⟨i1, i2⟩ := ih fs
      refine ⟨fun d => ?_, fun h x hx p hp => ?_⟩
      · rcases i1 d with h | ⟨x, hx, h⟩
        · exact .inl h
        · exact .inr ⟨x, by simp [hx], h⟩
      · rcases List.mem_cons.1 hx with rfl | hx
        · rw [ha] at hp; cases hp
        · exact i2 h x hx p hp
    | some p =>
      dsimp only
      cases hr : runSingle ext o p n with
      | error e => exact ⟨fun d => .inl rfl, fun h => by simp at h⟩
      | ok c =>
        simp only [if_true]
        obtain ⟨i1, i2⟩ := ih (put fs (some a) ⟨o.elements, c.1, c.2⟩)
        have hnew : ∃ p' f, ext.find a = some p' ∧
            (runDirs ext o n true ds (put fs (some a) ⟨o.elements, c.1, c.2⟩)).1 (some a) =
            some f ∧ f.system = o.elements ∧ CostOf ext p' o.cell n f := by
          rcases i1 (some a) with h | ⟨x, hx, he, p', f, hf⟩
          · refine ⟨p, ⟨o.elements, c.1, c.2⟩, ha, ?_, rfl, runSingle_ok hr _⟩
            rw [h]; simp [put]
          · cases he
            exact ⟨p', f, hf⟩
        refine ⟨fun d => ?_, fun h x hx p' hp => ?_⟩
        · by_cases hd : d = some a
          · subst hd
            exact .inr ⟨a, by simp, rfl, hnew⟩
          · rcases i1 d with h | ⟨x, hx, h⟩
            · left; rw [h]; simp [put, hd]
            · exact .inr ⟨x, by simp [hx], h⟩
        · rcases List.mem_cons.1 hx with rfl | hx
          · obtain ⟨p'', f, hp'', hf⟩ := hnew
            rw [hp] at hp''; cases hp''
            exact ⟨f, hf⟩
          · exact i2 h x hx p' hp

theorem runDirs_free (ext : Ext S) (o : Obj S) (n : ℕ) (ds : List String) (fs : Files) :
    (runDirs ext o n false ds fs).1 = fs := by
  induction ds with
  | nil => rfl
  | cons a ds ih =>
    rw [runDirs]
    cases ext.find a with
    | none => exact ih
    | some p =>
      dsimp only
      cases runSingle ext o p n with
      | error e => rfl
      | ok c => exact ih

theorem defaultCell_ok {els : List String} {d : Default} (h : defaultCell els = .ok d) : GoodDefault els d := by
  match els, h with
  | [a], h =>
    cases h
    refine ⟨rfl, rfl, fun k hk => ?_, rfl, (by dsimp only; decide), by simp⟩
    have : k = 0 := by simp at hk; omega
    subst this; dsimp only; decide
  | [a, b], h =>
    cases h
    refine ⟨rfl, rfl, fun k hk => ?_, rfl, (by dsimp only; decide), by simp⟩
    have : k = 0 ∨ k = 1 := by simp at hk; omega
    rcases this with rfl | rfl <;> (dsimp only; decide)
  | [a, b, c], h =>
    cases h
    refine ⟨rfl, rfl, fun k hk => ?_, rfl, (by dsimp only; decide), by simp⟩
    have : k = 0 ∨ k = 1 ∨ k = 2 := by simp at hk; omega
    rcases this with rfl | rfl | rfl <;> (dsimp only; decide)
  | [a, b, c, e], h =>
    cases h
    refine ⟨rfl, rfl, fun k hk => ?_, rfl, (by dsimp only; decide), by simp⟩
    have : k = 0 ∨ k = 1 ∨ k = 2 ∨ k = 3 := by simp at hk; omega
    rcases this with rfl | rfl | rfl | rfl <;> (dsimp only; decide)

/-- **C112** The structure that is timed: a supercell of the given file or of a cell with four atoms that has every
element of the potential; without a file, potentials with five elements or more are refused. -/
theorem C112_structure (ext : Ext S) (pot dirs : Option (List String)) (poscar : Option String) (size : ℕ × ℕ × ℕ)
    (o : Obj S) (hc : create ext pot dirs poscar size = .ok o) :
    ∃ u, ext.supercell u size = .ok o.cell ∧ (∀ p, poscar = some p → ext.poscar p = .ok u) ∧
      (poscar = none → 1 ≤ o.elements.length ∧ o.elements.length ≤ 4 ∧
        ∃ d, GoodDefault o.elements d ∧ u = ext.build d) := by
  obtain ⟨-, -, -, u, hu, hs⟩ := create_ok hc
  refine ⟨u, hs, fun p hp => ?_, fun hp => ?_⟩
  · subst hp; exact hu
  · subst hp
    unfold unitcell at hu
    cases hd : defaultCell o.elements with
    | error e => simp [hd, Except.map] at hu
    | ok d =>
      simp [hd, Except.map] at hu
      refine ⟨?_, ?_, d, defaultCell_ok hd, hu.symm⟩
      · cases he : o.elements with
        | nil => simp [he, defaultCell] at hd
        | cons a l => simp
      · rcases he : o.elements with _ | ⟨a, _ | ⟨b, _ | ⟨c, _ | ⟨e, _ | ⟨f, l⟩⟩⟩⟩⟩ <;> simp
        simp [he, defaultCell] at hd

/-- **C112** For a potential without directories, only `polymlp_cost.yaml` in the current directory is written, only
after success and on demand, with the elements of the first file and the costs of the whole potential. -/
theorem C112_single (ext : Ext S) (pot : List String) (poscar : Option String) (size : ℕ × ℕ × ℕ) (o : Obj S) (n : ℕ)
    (save : Bool) (fs : Files) (hc : create ext (some pot) none poscar size = .ok o) :
    (∀ d, d ≠ none → (run ext o n save fs).1 d = fs d) ∧
    (save = false ∨ (run ext o n save fs).2 ≠ .ok () → (run ext o n save fs).1 = fs) ∧
    ((run ext o n save fs).2 = .ok () → save = true → ∃ f first, (run ext o n save fs).1 none = some f ∧
      pot.head? = some first ∧ ext.elements first = .ok f.system ∧ CostOf ext pot o.cell n f) := by
  obtain ⟨h1, h2, h3, -⟩ := create_ok hc
  have hrun : run ext o n save fs = match runSingle ext o pot n with
      | .error e => (fs, .error e)
      | .ok c => (if save then put fs none ⟨o.elements, c.1, c.2⟩ else fs, .ok ()) := by
    unfold run; rw [h2, h1]; rfl
  rw [hrun]
  cases hr : runSingle ext o pot n with
  | error e => exact ⟨fun d _ => rfl, fun _ => rfl, fun h => by simp at h⟩
  | ok c =>
    dsimp only
    refine ⟨fun d hd => ?_, fun h => ?_, fun _ hs => ?_⟩
    · cases save <;> simp [put, hd]
    · rcases h with h | h
      · simp [h]
      · exact absurd rfl h
    · subst hs
      refine ⟨⟨o.elements, c.1, c.2⟩, ?_⟩
      cases pot with
      | nil => simp [parseElements, elementsFile] at h3
      | cons f l => exact ⟨f, by simp [put], rfl, by simpa [parseElements, elementsFile] using h3, runSingle_ok hr _⟩

/-- **C112** For directories: whatever happens, files outside of them and in directories without a potential are kept,
and a file that is written has the costs of the potential of its directory; after success every directory with a
potential has its file. -/
theorem C112_dirs (ext : Ext S) (hsort : ∀ l, (ext.sorted l).Perm l) (pot : Option (List String)) (ds : List String)
    (poscar : Option String) (size : ℕ × ℕ × ℕ) (o : Obj S) (n : ℕ) (fs : Files)
    (hc : create ext pot (some ds) poscar size = .ok o) :
    (run ext o n false fs).1 = fs ∧ (run ext o n true fs).1 none = fs none ∧
    (∀ d, d ∉ ds ∨ ext.find d = none → (run ext o n true fs).1 (some d) = fs (some d)) ∧
    (∀ d p, d ∈ ds → ext.find d = some p → (run ext o n true fs).1 (some d) = fs (some d) ∨
      ∃ f, (run ext o n true fs).1 (some d) = some f ∧ CostOf ext p o.cell n f) ∧
    ((run ext o n true fs).2 = .ok () → ∀ d p, d ∈ ds → ext.find d = some p →
      ∃ f, (run ext o n true fs).1 (some d) = some f ∧ f.system = o.elements ∧ CostOf ext p o.cell n f) := by
  obtain ⟨h1, h2, h3, -⟩ := create_ok hc
  have hrun : ∀ b, run ext o n b fs = runDirs ext o n b (ext.sorted ds) fs := fun b => by unfold run; rw [h2]
  obtain ⟨i1, i2⟩ := runDirs_spec ext o n (ext.sorted ds) fs
  simp only [hrun]
  refine ⟨runDirs_free .., ?_, fun d hd => ?_, fun d p hd hp => ?_, fun h d p hd hp => i2 h d ((hsort ds).mem_iff.2 hd) p hp⟩
  · rcases i1 none with h | ⟨x, _, he, _⟩
    · exact h
    · cases he
  · rcases i1 (some d) with h | ⟨x, hx, he, p, f, hf, _⟩
    · exact h
    · cases he
      rcases hd with hd | hd
      · exact absurd ((hsort ds).mem_iff.1 hx) hd
      · rw [hd] at hf; cases hf
  · rcases i1 (some d) with h | ⟨x, hx, he, p', f, hf, h, _, hco⟩
    · exact .inl h
    · cases he
      rw [hp] at hf; cases hf
      exact .inr ⟨f, h, hco⟩

/-- **C112** No evaluations, no cost: `n_calc = 0` never gives costs. -/
theorem C112_zero (ext : Ext S) (pot : List String) (poscar : Option String) (size : ℕ × ℕ × ℕ) (o : Obj S) (save : Bool)
    (fs : Files) (hc : create ext (some pot) none poscar size = .ok o) :
    (run ext o 0 save fs).2 ≠ .ok () ∧ (run ext o 0 save fs).1 = fs := by
  obtain ⟨h1, h2, h3, -⟩ := create_ok hc
  have : ∃ e, runSingle ext o pot 0 = .error e := by
    unfold runSingle
    cases h4 : ext.time pot o.cell (0 * 10) true with
    | error e => exact ⟨e, rfl⟩
    | ok t => exact ⟨.zeroDivision, by simp [bind, Except.bind, perAtom]⟩
  obtain ⟨e, he⟩ := this
  unfold run
  rw [h2, h1]
  simp [he]

/-- **C112** With directories, the elements are those of the first file of the first directory, also if potential files
are given; if the first directory has no potential, the constructor raises `TypeError`. -/
theorem C112_elements (ext : Ext S) (pot : Option (List String)) (ds : List String) (poscar : Option String)
    (size : ℕ × ℕ × ℕ) :
    (∀ o, create ext pot (some ds) poscar size = .ok o →
      ∃ d f l, ds.head? = some d ∧ ext.find d = some (f :: l) ∧ ext.elements f = .ok o.elements) ∧
    (∀ d, ds.head? = some d → ext.find d = none → create ext pot (some ds) poscar size = .error .typeError) := by
  refine ⟨fun o hc => ?_, fun d hd hf => ?_⟩
  · obtain ⟨-, -, h3, -⟩ := create_ok hc
    cases ds with
    | nil => simp [parseElements, elementsFile, firstOfDirs] at h3
    | cons d ds =>
      simp only [parseElements, elementsFile, firstOfDirs] at h3
      cases hf : ext.find d with
      | none => simp [hf] at h3
      | some l =>
        cases l with
        | nil => simp [hf] at h3
        | cons f l =>
          simp only [hf] at h3
          exact ⟨d, f, l, rfl, hf, h3⟩
  · cases ds with
    | nil => simp at hd
    | cons d' ds =>
      simp only [List.head?_cons, Option.some.injEq] at hd
      subst hd
      simp [create, parseElements, elementsFile, firstOfDirs, hf, bind, Except.bind]

/-- Two systems, `a` and `b`, and a directory `c` without a potential; a second for each evaluation and element of the
structure. -/
def exampleExt : Ext (List String) where
  find d := if d = "a" then some ["a/polymlp.yaml"] else if d = "b" then some ["b/polymlp.yaml"] else none
  elements f := if f = "a/polymlp.yaml" then .ok ["Mg", "O"] else .ok ["Si"]
  poscar _ := .error .runtimeError
  build d := d.elements
  supercell s n := .ok (List.flatten (List.replicate (n.1 * n.2.1 * n.2.2) s))
  nAtoms s := s.length
  time _ s n all := .ok (if all then n * s.length / 4 else n * s.length)
  sorted l := l

example : (create exampleExt (some ["b/polymlp.yaml"]) none none (2, 1, 1)).toOption.map (fun o => (run exampleExt o 3 true (fun _ => none)).1 none) =
    some (some ⟨["Si"], 1000, 250⟩) := by decide +kernel

example : (create exampleExt none (some ["b", "c"]) none (1, 1, 1)).toOption.map (fun o => ((run exampleExt o 3 true (fun _ => none)).1 (some "b"), (run exampleExt o 3 true (fun _ => none)).1 (some "c"), (run exampleExt o 3 true (fun _ => none)).2.toOption)) =
    some (some ⟨["Si"], 1000, 250⟩, none, some ()) := by decide +kernel

/-- **C112** A first directory without a potential makes the tool fail, also when another has one; such directories
are skipped at every other place of the list. -/
theorem C112_first_violation : ∃ ds : List String, (∃ d ∈ ds, exampleExt.find d ≠ none) ∧
    (create exampleExt none (some ("c" :: ds)) none (1, 1, 1)).toOption.isNone ∧
    (create exampleExt none (some (ds ++ ["c"])) none (1, 1, 1)).toOption.isSome :=
  ⟨["a"], ⟨"a", by simp, by decide +kernel⟩, by decide +kernel, by decide +kernel⟩

example : (create exampleExt (some ["b/polymlp.yaml"]) (some ["a", "b"]) none (1, 1, 1)).toOption.map (·.elements) =
    some ["Mg", "O"] ∧ (create exampleExt none (some ["c", "a"]) none (1, 1, 1)).toOption.isNone :=
  ⟨by decide +kernel, by decide +kernel⟩

/-- **C112** The file of a directory names the elements of the first directory, not those of its potential. -/
theorem C112_system_violation : ∃ (ds : List String) (o : Obj (List String)) (d f : String) (x : File),
    create exampleExt none (some ds) none (1, 1, 1) = .ok o ∧ d ∈ ds ∧ exampleExt.find d = some [f] ∧
    (run exampleExt o 1 true (fun _ => none)).2.toOption = some () ∧
    (run exampleExt o 1 true (fun _ => none)).1 (some d) = some x ∧ (exampleExt.elements f).toOption ≠ some x.system :=
  ⟨["a", "b"], ⟨none, some ["a", "b"], ["Mg", "O"], ["Mg", "Mg", "O", "O"]⟩, "b", "b/polymlp.yaml", ⟨["Mg", "O"], 1000, 250⟩,
    rfl, by simp, by decide +kernel, by decide +kernel, by decide +kernel, by decide +kernel⟩

end Verif.Cost
