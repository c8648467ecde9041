import Verif.Spec.YamlData
import Verif.Props.Vasprun

/-!
# Structures and properties in yaml files

What is saved is read again; data of lists of files are aligned.
-/

namespace Verif.YamlData
open Verif.Spec
open Verif.Vasprun (mapM_iff)

/-! ## Entries -/

theorem get_iff {d : List (String × Yaml)} {k : String} {y : Yaml} : get d k = .ok y ↔ HasEntry d k y := by
  unfold get HasEntry
  constructor
  · intro h
    cases hf : d.reverse.find? (fun e => decide (e.1 = k)) with
    | none => simp [hf, orErr] at h
    | some e =>
      simp only [hf, Option.map_some, orErr, Except.ok.injEq] at h
      rw [List.find?_eq_some_iff_append] at hf
      obtain ⟨hk, l, r, hl, hn⟩ := hf
      have hd : d = r.reverse ++ e :: l.reverse := by simpa using congrArg List.reverse hl
      obtain ⟨e1, e2⟩ := e
      have hk' : e1 = k := by simpa using hk
      subst hk'
      have h' : e2 = y := h
      subst h'
      exact ⟨r.reverse, l.reverse, hd, by simpa using hn⟩
  · rintro ⟨l, r, rfl, hr⟩
    have : ((l ++ (k, y) :: r).reverse.find? fun e => decide (e.1 = k)) = some (k, y) := by
      rw [List.find?_eq_some_iff_append]
      exact ⟨by simp, r.reverse, l.reverse, by simp, by simpa using hr⟩
    rw [this]
    rfl

theorem has_of_entry {d : List (String × Yaml)} {k : String} {y : Yaml} (h : HasEntry d k y) : has d k = true := by
  obtain ⟨l, r, rfl, _⟩ := h
  simp [has]

theorem asFloat_write (plain : ℚ → Bool) (q : ℚ) : asFloat (write plain q) = .ok q := by
  unfold write
  by_cases h : plain q = true <;> simp [h, asFloat]

theorem asNat_num (n : ℕ) : asNat (.num (n : ℚ)) = .ok n := by
  simp [asNat]

theorem asInt_num (n : ℤ) : asInt (.num (n : ℚ)) = .ok n := by
  simp [asInt]

theorem floats3_writeRow (plain : ℚ → Bool) (v : V3 ℚ) : floats3 (writeRow plain v) = .ok v := by
  simp [floats3, writeRow, row3, asFloat_write, bind, Except.bind, pure, Except.pure]

theorem ints3_writeInts (v : V3 ℤ) : ints3 (writeInts v) = .ok v := by
  simp [ints3, writeInts, row3, asInt_num, bind, Except.bind, pure, Except.pure]

theorem mapM_map_ok {α β γ : Type} {f : β → Except Err γ} {g : α → β} {h : α → γ} (hf : ∀ a, f (g a) = .ok (h a))
    (l : List α) : (l.map g).mapM f = .ok (l.map h) := by
  rw [mapM_iff, List.forall₂_map_left_iff, List.forall₂_map_right_iff, List.forall₂_same]
  intro a _
  exact hf a

theorem mapM_map_id {α β : Type} {f : β → Except Err α} {g : α → β} (hf : ∀ a, f (g a) = .ok a) (l : List α) :
    (l.map g).mapM f = .ok l := by
  have := mapM_map_ok (h := id) hf l
  simpa using this

theorem matrixOf_write (m : M3 ℤ) : matrixOf (.list [writeInts m.r0, writeInts m.r1, writeInts m.r2]) = .ok (.full m) := by
  have : [writeInts m.r0, writeInts m.r1, writeInts m.r2].mapM ints3 = .ok [m.r0, m.r1, m.r2] :=
    mapM_map_id ints3_writeInts [m.r0, m.r1, m.r2]
  simp [matrixOf, asList, this, three, bind, Except.bind, pure, Except.pure]

theorem transpose_transpose {K : Type} (a : M3 K) : transpose (transpose a) = a := rfl

theorem axis_rows (plain : ℚ → Bool) (a : M3 ℚ) :
    [writeRow plain a.r0, writeRow plain a.r1, writeRow plain a.r2].mapM floats3 = .ok [a.r0, a.r1, a.r2] :=
  mapM_map_id (floats3_writeRow plain) [a.r0, a.r1, a.r2]

/-! ## Cells -/

/-- A cell that was read. -/
def readBack (c : Cell) (nu : Option ℕ) (m : Option SMatrix) : Cell := ⟨{ c.st with name := none }, nu, m⟩

theorem load_saved_plain (plain : ℚ → Bool) (c : Cell) (tag : String) (doc : List (String × Yaml)) (hv : ValidCell c)
    (hd : HasEntry doc tag (.dict (cellEntries plain c.st))) : loadCell doc tag = .ok (readBack c none none) := by
  rw [← get_iff] at hd
  have hp := mapM_map_id (floats3_writeRow plain) c.st.positions
  have hn := mapM_map_id asNat_num c.st.nAtoms
  have ht := mapM_map_id asNat_num c.st.types
  have he := mapM_map_id (f := asStr) (g := Yaml.str) (fun _ => rfl) c.st.elements
  simp only [loadCell, hd, bind, Except.bind, asDict]
  have g1 : get (cellEntries plain c.st) "axis" = .ok _ := rfl
  have g2 : get (cellEntries plain c.st) "positions" = .ok _ := rfl
  have g3 : get (cellEntries plain c.st) "n_atoms" = .ok _ := rfl
  have g4 : get (cellEntries plain c.st) "types" = .ok _ := rfl
  have g5 : get (cellEntries plain c.st) "elements" = .ok _ := rfl
  have g6 : get (cellEntries plain c.st) "volume" = .ok _ := rfl
  have h1 : (cellEntries plain c.st).any (fun e => decide (e.1 ∉ fields)) = false := rfl
  have h2 : has (cellEntries plain c.st) "n_atoms" = true := rfl
  have h3 : has (cellEntries plain c.st) "elements" = true := rfl
  have h4 : has (cellEntries plain c.st) "types" = true := rfl
  have h5 : has (cellEntries plain c.st) "volume" = true := rfl
  have h6 : has (cellEntries plain c.st) "n_unitcells" = false := rfl
  have h7 : has (cellEntries plain c.st) "supercell_matrix" = false := rfl
  simp only [g1, g2, asList, axis_rows, three, hp, h1, h2, h3, h4, Bool.true_eq_false, Bool.false_eq_true, or_self, if_false, g3, g4, g5,
    hn, ht, he, opt, h5, h6, h7, g6, if_true, asFloat_write, bind, Except.bind, pure, Except.pure, Option.getD_some,
    transpose_transpose, Structure.check]
  have hv' : c.st.positions.length = c.st.elements.length ∧ c.st.elements.length = c.st.types.length ∧
    c.st.elements.length = c.st.nAtoms.sum := hv
  simp only [if_pos hv']
  rfl

theorem load_saved_super (plain : ℚ → Bool) (c : Cell) (m : SMatrix) (doc : List (String × Yaml)) (tag : String)
    (hv : ValidCell c) (d : List (String × Yaml)) (hm : c.matrix = some m) (he : superEntries c = .ok d)
    (hd : HasEntry doc tag (.dict (cellEntries plain c.st ++ d))) :
    loadCell doc tag = .ok (readBack c c.nUnitcells (some (.full m.toFull))) ∧
      get (cellEntries plain c.st ++ d) "supercell_matrix" =
        .ok (.list [writeInts m.toFull.r0, writeInts m.toFull.r1, writeInts m.toFull.r2]) := by
  rw [← get_iff] at hd
  have hp := mapM_map_id (floats3_writeRow plain) c.st.positions
  have hn := mapM_map_id asNat_num c.st.nAtoms
  have ht := mapM_map_id asNat_num c.st.types
  have hel := mapM_map_id (f := asStr) (g := Yaml.str) (fun _ => rfl) c.st.elements
  have hv' : c.st.positions.length = c.st.elements.length ∧ c.st.elements.length = c.st.types.length ∧
    c.st.elements.length = c.st.nAtoms.sum := hv
  simp only [superEntries, hm, orErr, bind, Except.bind, pure, Except.pure, Except.ok.injEq] at he
  cases hu : c.nUnitcells with
  | none =>
    simp only [hu, Option.elim_none, List.nil_append] at he
    subst he
    refine ⟨?_, rfl⟩
    simp only [loadCell, hd, bind, Except.bind, asDict]
    generalize hD : cellEntries plain c.st ++ [("supercell_matrix",
      Yaml.list [writeInts m.toFull.r0, writeInts m.toFull.r1, writeInts m.toFull.r2])] = D
    have g1 : get D "axis" = .ok (.list [writeRow plain (transpose c.st.axis).r0, writeRow plain (transpose c.st.axis).r1,
      writeRow plain (transpose c.st.axis).r2]) := by subst hD; rfl
    have g2 : get D "positions" = .ok (.list (c.st.positions.map (writeRow plain))) := by subst hD; rfl
    have g3 : get D "n_atoms" = .ok (.list (c.st.nAtoms.map fun (n : ℕ) => .num n)) := by subst hD; rfl
    have g4 : get D "types" = .ok (.list (c.st.types.map fun (n : ℕ) => .num n)) := by subst hD; rfl
    have g5 : get D "elements" = .ok (.list (c.st.elements.map .str)) := by subst hD; rfl
    have g6 : get D "volume" = .ok (write plain c.st.volume) := by subst hD; rfl
    have g7 : get D "supercell_matrix" =
        .ok (.list [writeInts m.toFull.r0, writeInts m.toFull.r1, writeInts m.toFull.r2]) := by subst hD; rfl
    have h1 : D.any (fun e => decide (e.1 ∉ fields)) = false := by subst hD; rfl
    have h2 : has D "n_atoms" = true := by subst hD; rfl
    have h3 : has D "elements" = true := by subst hD; rfl
    have h4 : has D "types" = true := by subst hD; rfl
    have h5 : has D "volume" = true := by subst hD; rfl
    have h6 : has D "n_unitcells" = false := by subst hD; rfl
    have h7 : has D "supercell_matrix" = true := by subst hD; rfl
    simp only [g1, g2, asList, axis_rows, three, hp, h1, h2, h3, h4, Bool.true_eq_false, Bool.false_eq_true, or_self, if_false, g3, g4,
      g5, hn, ht, hel, opt, h5, h6, h7, g6, g7, if_true, asFloat_write, matrixOf_write, bind, Except.bind, pure, Except.pure,
      Option.getD_some, transpose_transpose, Structure.check, if_pos hv']
    rfl
  | some n =>
    simp only [hu, Option.elim_some, List.singleton_append] at he
    subst he
    refine ⟨?_, rfl⟩
    simp only [loadCell, hd, bind, Except.bind, asDict]
    generalize hD : cellEntries plain c.st ++ [("n_unitcells", Yaml.num n), ("supercell_matrix",
      Yaml.list [writeInts m.toFull.r0, writeInts m.toFull.r1, writeInts m.toFull.r2])] = D
    have g1 : get D "axis" = .ok (.list [writeRow plain (transpose c.st.axis).r0, writeRow plain (transpose c.st.axis).r1,
      writeRow plain (transpose c.st.axis).r2]) := by subst hD; rfl
    have g2 : get D "positions" = .ok (.list (c.st.positions.map (writeRow plain))) := by subst hD; rfl
    have g3 : get D "n_atoms" = .ok (.list (c.st.nAtoms.map fun (n : ℕ) => .num n)) := by subst hD; rfl
    have g4 : get D "types" = .ok (.list (c.st.types.map fun (n : ℕ) => .num n)) := by subst hD; rfl
    have g5 : get D "elements" = .ok (.list (c.st.elements.map .str)) := by subst hD; rfl
    have g6 : get D "volume" = .ok (write plain c.st.volume) := by subst hD; rfl
    have g7 : get D "supercell_matrix" =
        .ok (.list [writeInts m.toFull.r0, writeInts m.toFull.r1, writeInts m.toFull.r2]) := by subst hD; rfl
    have g8 : get D "n_unitcells" = .ok (.num n) := by subst hD; rfl
    have h1 : D.any (fun e => decide (e.1 ∉ fields)) = false := by subst hD; rfl
    have h2 : has D "n_atoms" = true := by subst hD; rfl
    have h3 : has D "elements" = true := by subst hD; rfl
    have h4 : has D "types" = true := by subst hD; rfl
    have h5 : has D "volume" = true := by subst hD; rfl
    have h6 : has D "n_unitcells" = true := by subst hD; rfl
    have h7 : has D "supercell_matrix" = true := by subst hD; rfl
    simp only [g1, g2, asList, axis_rows, three, hp, h1, h2, h3, h4, Bool.true_eq_false, Bool.false_eq_true, or_self, if_false, g3, g4,
      g5, hn, ht, hel, opt, h5, h6, h7, g6, g7, g8, asNat_num, if_true, asFloat_write, matrixOf_write, bind, Except.bind, pure,
      Except.pure, Option.getD_some, transpose_transpose, Structure.check, if_pos hv']
    rfl

theorem saveCell_tag {plain : ℚ → Bool} {c : Cell} {tag : String} (h : tag ≠ "supercell") :
    saveCell plain c tag = .ok (tag, .dict (cellEntries plain c.st)) := by
  simp [saveCell, h, bind, Except.bind, pure, Except.pure]

theorem matrixOf_toFull (m : SMatrix) : MatrixOf m m.toFull := by
  cases m <;> rfl

/-- C86: a structure that is saved under some tag is read again from every file that holds this entry, whatever else is in
the file. -/
theorem C86_cell (plain : ℚ → Bool) (c : Cell) (tag : String) (hv : ValidCell c) (ht : tag ≠ "supercell") :
    ∃ y, saveCell plain c tag = .ok (tag, y) ∧ ∀ doc, HasEntry doc tag y →
      ∃ c', loadCell doc tag = .ok c' ∧ SameCrystal c'.st c.st := by
  refine ⟨_, saveCell_tag ht, fun doc hd => ⟨_, load_saved_plain plain c tag doc hv hd, ?_⟩⟩
  exact ⟨rfl, rfl, rfl, rfl, rfl, rfl⟩

/-- C86: a unit cell and a supercell that are saved are read again, the supercell with its number of unit cells and its
matrix; three numbers are read as a diagonal matrix. -/
theorem C86_cells (plain : ℚ → Bool) (u s : Cell) (m : SMatrix) (hu : ValidCell u) (hs : ValidCell s)
    (hm : s.matrix = some m) :
    ∃ doc u' s' a, saveCells plain u s = .ok doc ∧ loadCells doc = .ok (u', s') ∧ SameCrystal u'.st u.st ∧
      SameCrystal s'.st s.st ∧ s'.nUnitcells = s.nUnitcells ∧ s'.matrix = some (.full a) ∧ MatrixOf m a := by
  obtain ⟨d, hd⟩ : ∃ d, superEntries s = .ok d := by
    simp [superEntries, hm, orErr, bind, Except.bind, pure, Except.pure]
  have h1 : saveCell plain s "supercell" = .ok ("supercell", .dict (cellEntries plain s.st ++ d)) := by
    simp [saveCell, hd, bind, Except.bind, pure, Except.pure]
  have h2 : saveCell plain u "unitcell" = .ok ("unitcell", .dict (cellEntries plain u.st)) := saveCell_tag (by decide)
  have h3 : saveCells plain u s =
      .ok [("unitcell", .dict (cellEntries plain u.st)), ("supercell", .dict (cellEntries plain s.st ++ d))] := by
    simp [saveCells, h1, h2, bind, Except.bind, pure, Except.pure]
  have e1 : HasEntry [("unitcell", Yaml.dict (cellEntries plain u.st)), ("supercell", .dict (cellEntries plain s.st ++ d))]
      "unitcell" (.dict (cellEntries plain u.st)) := ⟨[], _, rfl, by simp⟩
  have e2 : HasEntry [("unitcell", Yaml.dict (cellEntries plain u.st)), ("supercell", .dict (cellEntries plain s.st ++ d))]
      "supercell" (.dict (cellEntries plain s.st ++ d)) := ⟨[("unitcell", Yaml.dict (cellEntries plain u.st))], [], rfl, by simp⟩
  obtain ⟨l1, l2⟩ := load_saved_super plain s m _ "supercell" hs d hm hd e2
  have l3 := load_saved_plain plain u "unitcell" _ hu e1
  refine ⟨_, readBack u none none, readBack s s.nUnitcells (some (.full m.toFull)), m.toFull, h3, ?_,
    ⟨rfl, rfl, rfl, rfl, rfl, rfl⟩, ⟨rfl, rfl, rfl, rfl, rfl, rfl⟩, rfl, rfl, matrixOf_toFull m⟩
  simp only [loadCells, l1, l3, bind, Except.bind, get_iff.mpr e2, asDict, l2, matrixOf_write, pure, Except.pure, readBack]

/-- C86: saving cells fails exactly if the supercell has no matrix. -/
theorem C86_cells_error (plain : ℚ → Bool) (u s : Cell) :
    (∃ e, saveCells plain u s = .error e) ↔ s.matrix = none := by
  have h2 : saveCell plain u "unitcell" = .ok ("unitcell", .dict (cellEntries plain u.st)) := saveCell_tag (by decide)
  cases hm : s.matrix with
  | none =>
    have : saveCell plain s "supercell" = .error .typeError := by
      simp [saveCell, superEntries, hm, orErr, bind, Except.bind]
    simp [saveCells, h2, this, bind, Except.bind]
  | some m => simp [saveCells, h2, saveCell, superEntries, hm, orErr, bind, Except.bind, pure, Except.pure]

/-! ## Data -/

theorem write_plain {plain : ℚ → Bool} {q : ℚ} (h : plain q = true) : write plain q = .num q := by
  simp [write, h]

/-- The document of a datum. -/
def docOf (plain : ℚ → Bool) (d : Datum) : List (String × Yaml) :=
  [("structure", .dict (cellEntries plain d.cell.st)), ("energy", write plain d.energy),
    ("forces", .list (d.forces.map (writeRow plain))), ("stress", .list (d.six.map (write plain)))]

theorem saveData_eq (plain : ℚ → Bool) (d : Datum) :
    saveData plain d.cell d.energy (some d.forces) (some d.six) = .ok (docOf plain d) := by
  have h : saveCell plain d.cell "structure" = .ok ("structure", .dict (cellEntries plain d.cell.st)) :=
    saveCell_tag (by decide)
  simp [saveData, h, bind, Except.bind, pure, Except.pure, docOf]

theorem doc_structure (plain : ℚ → Bool) (d : Datum) :
    HasEntry (docOf plain d) "structure" (.dict (cellEntries plain d.cell.st)) := ⟨[], _, rfl, by simp⟩

theorem rows_of (plain : ℚ → Bool) (l : List (V3 ℚ)) :
    (l.map (writeRow plain)).mapM row3 = .ok (l.map fun v => ⟨write plain v.x, write plain v.y, write plain v.z⟩) :=
  mapM_map_ok (f := row3) (g := writeRow plain) (fun _ => rfl) l

theorem forces_plain {plain : ℚ → Bool} {l : List (V3 ℚ)} (h : ∀ v ∈ l, plain v.x = true ∧ plain v.y = true ∧ plain v.z = true) :
    List.Forall₂ IsVec (l.map fun v => (⟨write plain v.x, write plain v.y, write plain v.z⟩ : V3 Yaml)) l := by
  rw [List.forall₂_map_left_iff, List.forall₂_same]
  intro v hv
  obtain ⟨h1, h2, h3⟩ := h v hv
  exact ⟨write_plain h1, write_plain h2, write_plain h3⟩

/-- C86: data that are saved are read again, if the printed numbers are read as numbers. -/
theorem C86_data_partial (plain : ℚ → Bool) (d : Datum) (hv : ValidCell d.cell) (hp : AllPlain plain d) :
    ∃ doc r, saveData plain d.cell d.energy (some d.forces) (some d.six) = .ok doc ∧ loadData doc = .ok r ∧
      SameCrystal r.cell.st d.cell.st ∧ r.energy = d.energy ∧ List.Forall₂ IsVec r.forces d.forces ∧
      List.Forall₂ IsNum r.stress d.six := by
  refine ⟨_, ⟨readBack d.cell none none, d.energy,
    d.forces.map fun v => ⟨write plain v.x, write plain v.y, write plain v.z⟩, d.six.map (write plain)⟩, saveData_eq plain d,
    ?_, ⟨rfl, rfl, rfl, rfl, rfl, rfl⟩, rfl, forces_plain hp.2.1, ?_⟩
  · have h1 := load_saved_plain plain d.cell "structure" _ hv (doc_structure plain d)
    have h2 : get (docOf plain d) "energy" = .ok (write plain d.energy) := rfl
    have h3 : get (docOf plain d) "forces" = .ok (.list (d.forces.map (writeRow plain))) := rfl
    have h4 : get (docOf plain d) "stress" = .ok (.list (d.six.map (write plain))) := rfl
    simp only [loadData, h1, h2, h3, h4, bind, Except.bind, asFloat_write, asList, rows_of, pure, Except.pure]
  · rw [List.forall₂_map_left_iff, List.forall₂_same]
    intro q hq
    simp only [Datum.six, List.mem_ofFn] at hq
    obtain ⟨i, rfl⟩ := hq
    exact write_plain (hp.2.2 i)

/-- What is read from the document of a datum. -/
def propOf (plain : ℚ → Bool) (p : String × Datum) : Property :=
  ⟨(readBack p.2.cell none none).named p.1, write plain p.2.energy,
    p.2.forces.map fun v => ⟨write plain v.x, write plain v.y, write plain v.z⟩,
    ⟨⟨write plain (p.2.stress 0), write plain (p.2.stress 3), write plain (p.2.stress 5)⟩,
      ⟨write plain (p.2.stress 3), write plain (p.2.stress 1), write plain (p.2.stress 4)⟩,
      ⟨write plain (p.2.stress 5), write plain (p.2.stress 4), write plain (p.2.stress 2)⟩⟩⟩

theorem parse_doc (plain : ℚ → Bool) (p : String × Datum) (hv : ValidCell p.2.cell) :
    parseProperty (p.1, docOf plain p.2) = .ok (propOf plain p) := by
  have h1 := load_saved_plain plain p.2.cell "structure" _ hv (doc_structure plain p.2)
  have h2 : get (docOf plain p.2) "energy" = .ok (write plain p.2.energy) := rfl
  have h3 : get (docOf plain p.2) "forces" = .ok (.list (p.2.forces.map (writeRow plain))) := rfl
  have h4 : get (docOf plain p.2) "stress" = .ok (.list (p.2.six.map (write plain))) := rfl
  have h5 : tensor (p.2.six.map (write plain)) = .ok
      ⟨⟨write plain (p.2.stress 0), write plain (p.2.stress 3), write plain (p.2.stress 5)⟩,
        ⟨write plain (p.2.stress 3), write plain (p.2.stress 1), write plain (p.2.stress 4)⟩,
        ⟨write plain (p.2.stress 5), write plain (p.2.stress 4), write plain (p.2.stress 2)⟩⟩ := by
    simp [tensor, Datum.six, List.ofFn_succ, orErr, bind, Except.bind, pure, Except.pure]
  simp only [parseProperty, h1, h2, h3, h4, h5, bind, Except.bind, asList, rows_of, pure, Except.pure]
  rfl

/-- C86: the files of a list of data are read to the structures, energies, forces and stress tensors of the data, in order,
each structure with the name of its file; the data set takes the six components of the tensor that were saved. -/
theorem C86_properties_partial (plain : ℚ → Bool) (l : List (String × Datum)) (hv : ∀ p ∈ l, ValidCell p.2.cell)
    (hp : ∀ p ∈ l, AllPlain plain p.2) :
    ∃ files cells energies forces stresses,
      List.Forall₂ (fun p f => f.1 = p.1 ∧
        saveData plain p.2.cell p.2.energy (some p.2.forces) (some p.2.six) = .ok f.2) l files ∧
      parseProperties files = .ok (cells, energies, forces, stresses) ∧
      List.Forall₂ (fun p (c : Cell) => SameCrystal c.st p.2.cell.st ∧ c.st.name = some p.1) l cells ∧
      List.Forall₂ (fun p e => IsNum e p.2.energy) l energies ∧
      List.Forall₂ (fun p f => List.Forall₂ IsVec f p.2.forces) l forces ∧
      List.Forall₂ (fun p s => IsTensor s p.2.stress ∧ List.Forall₂ IsNum (six s) p.2.six) l stresses := by
  refine ⟨l.map fun p => (p.1, docOf plain p.2), (l.map (propOf plain)).map (·.cell), (l.map (propOf plain)).map (·.energy),
    (l.map (propOf plain)).map (·.forces), (l.map (propOf plain)).map (·.stress), ?_, ?_, ?_, ?_, ?_, ?_⟩
  · rw [List.forall₂_map_right_iff, List.forall₂_same]
    intro p _
    exact ⟨rfl, saveData_eq plain p.2⟩
  · have : (l.map fun p => (p.1, docOf plain p.2)).mapM parseProperty = .ok (l.map (propOf plain)) := by
      rw [mapM_iff, List.forall₂_map_left_iff, List.forall₂_map_right_iff, List.forall₂_same]
      intro p hm
      exact parse_doc plain p (hv p hm)
    simp only [parseProperties, this, bind, Except.bind, pure, Except.pure]
  · rw [List.map_map, List.forall₂_map_right_iff, List.forall₂_same]
    intro p _
    exact ⟨⟨rfl, rfl, rfl, rfl, rfl, rfl⟩, rfl⟩
  · rw [List.map_map, List.forall₂_map_right_iff, List.forall₂_same]
    intro p hm
    exact write_plain (hp p hm).1
  · rw [List.map_map, List.forall₂_map_right_iff, List.forall₂_same]
    intro p hm
    exact forces_plain (hp p hm).2.1
  · rw [List.map_map, List.forall₂_map_right_iff, List.forall₂_same]
    intro p hm
    have h := fun i => write_plain ((hp p hm).2.2 i)
    refine ⟨⟨⟨h 0, h 3, h 5⟩, ⟨h 3, h 1, h 4⟩, h 5, h 4, h 2⟩, ?_⟩
    exact .cons (h 0) (.cons (h 1) (.cons (h 2) (.cons (h 3) (.cons (h 4) (.cons (h 5) .nil)))))

/-- Finding: a file without forces or without stress cannot be loaded, although both may be left out on saving. -/
theorem C86_optional_violation (plain : ℚ → Bool) (c : Cell) (e : ℚ) (f : Option (List (V3 ℚ))) (s : Option (List ℚ))
    (hv : ValidCell c) (h : f = none ∨ s = none) :
    ∃ doc, saveData plain c e f s = .ok doc ∧ loadData doc = .error .keyError := by
  have h0 : saveCell plain c "structure" = .ok ("structure", .dict (cellEntries plain c.st)) := saveCell_tag (by decide)
  have hx : ∀ rest, HasEntry (("structure", Yaml.dict (cellEntries plain c.st)) :: ("energy", write plain e) :: rest)
      "structure" (.dict (cellEntries plain c.st)) → loadCell (("structure", Yaml.dict (cellEntries plain c.st)) ::
        ("energy", write plain e) :: rest) "structure" = .ok (readBack c none none) :=
    fun rest => load_saved_plain plain c "structure" _ hv
  cases f with
  | none =>
    cases s with
    | none =>
      refine ⟨_, by simp only [saveData, h0, bind, Except.bind, pure, Except.pure]; rfl, ?_⟩
      have h1 := hx [] ⟨[], _, rfl, by simp⟩
      have h2 : get [("structure", Yaml.dict (cellEntries plain c.st)), ("energy", write plain e)] "energy" =
        .ok (write plain e) := rfl
      have h3 : get [("structure", Yaml.dict (cellEntries plain c.st)), ("energy", write plain e)] "forces" =
        .error .keyError := rfl
      simp only [Option.elim_none, List.append_nil, loadData, h1, h2, h3, bind, Except.bind, asFloat_write]
    | some s =>
      refine ⟨_, by simp only [saveData, h0, bind, Except.bind, pure, Except.pure]; rfl, ?_⟩
      have h1 := hx [("stress", .list (s.map (write plain)))] ⟨[], _, rfl, by simp⟩
      have h2 : get [("structure", Yaml.dict (cellEntries plain c.st)), ("energy", write plain e),
        ("stress", .list (s.map (write plain)))] "energy" = .ok (write plain e) := rfl
      have h3 : get [("structure", Yaml.dict (cellEntries plain c.st)), ("energy", write plain e),
        ("stress", .list (s.map (write plain)))] "forces" = .error .keyError := rfl
      simp only [Option.elim_none, Option.elim_some, List.append_nil, List.cons_append, List.nil_append, loadData, h1, h2, h3,
        bind, Except.bind, asFloat_write]
  | some f =>
    cases s with
    | none =>
      refine ⟨_, by simp only [saveData, h0, bind, Except.bind, pure, Except.pure]; rfl, ?_⟩
      have h1 := hx [("forces", .list (f.map (writeRow plain)))] ⟨[], _, rfl, by simp⟩
      have h2 : get [("structure", Yaml.dict (cellEntries plain c.st)), ("energy", write plain e),
        ("forces", .list (f.map (writeRow plain)))] "energy" = .ok (write plain e) := rfl
      have h3 : get [("structure", Yaml.dict (cellEntries plain c.st)), ("energy", write plain e),
        ("forces", .list (f.map (writeRow plain)))] "forces" = .ok (.list (f.map (writeRow plain))) := rfl
      have h4 : get [("structure", Yaml.dict (cellEntries plain c.st)), ("energy", write plain e),
        ("forces", .list (f.map (writeRow plain)))] "stress" = .error .keyError := rfl
      simp only [Option.elim_none, Option.elim_some, List.append_nil, List.cons_append, List.nil_append, loadData, h1, h2, h3,
        h4, bind, Except.bind, asFloat_write, asList, rows_of]
    | some s => rcases h with h | h <;> cases h

/-- Finding: an energy that is printed without a decimal point, as `1e-05`, is read from a property file as text. -/
theorem C86_text_violation (plain : ℚ → Bool) (name : String) (d : Datum) (hv : ValidCell d.cell)
    (h : plain d.energy = false) :
    ∃ doc r, saveData plain d.cell d.energy (some d.forces) (some d.six) = .ok doc ∧
      parseProperty (name, doc) = .ok r ∧ ¬ IsNum r.energy d.energy := by
  have h1 := load_saved_plain plain d.cell "structure" _ hv (doc_structure plain d)
  have h2 : get (docOf plain d) "energy" = .ok (write plain d.energy) := rfl
  have h3 : get (docOf plain d) "forces" = .ok (.list (d.forces.map (writeRow plain))) := rfl
  have h4 : get (docOf plain d) "stress" = .ok (.list (d.six.map (write plain))) := rfl
  obtain ⟨t, h5⟩ : ∃ t, tensor (d.six.map (write plain)) = .ok t := by
    simp [tensor, Datum.six, List.ofFn_succ, orErr, bind, Except.bind, pure, Except.pure]
  refine ⟨_, ⟨(readBack d.cell none none).named name, write plain d.energy,
    d.forces.map fun v => ⟨write plain v.x, write plain v.y, write plain v.z⟩, t⟩, saveData_eq plain d, ?_, ?_⟩
  · simp only [parseProperty, h1, h2, h3, h4, h5, bind, Except.bind, asList, rows_of, pure, Except.pure]
  · simp [IsNum, write, h]

/-! ## Electronic properties -/

theorem close_iff {T t : ℚ} : isClose t T = true ↔ CloseTo T t := by
  unfold isClose CloseTo
  simp

theorem asFloat_of {y : Yaml} {q : ℚ} (h : y = .num q ∨ y = .sci q) : asFloat y = .ok q := by
  rcases h with rfl | rfl <;> rfl

theorem electronLoop_spec (T : ℚ) (target : String) {l : List Yaml} {tv : List (ℚ × ℚ)}
    (h : List.Forall₂ (fun y p => ElectronEntry target y p.1 p.2) l tv) :
    (∃ v, ValueAt T tv v ∧ electronLoop T target l = .ok [v]) ∨
      ((∀ p ∈ tv, ¬ CloseTo T p.1) ∧ electronLoop T target l = .ok []) := by
  induction h with
  | nil => exact Or.inr ⟨by simp, rfl⟩
  | @cons y p l tv hy _ ih =>
    obtain ⟨t, v⟩ := p
    obtain ⟨d, yt, yv, rfl, h1, h2, h3, h4⟩ := hy
    simp only [electronLoop, asDict, bind, Except.bind, get_iff.mpr h1, asFloat_of h2]
    by_cases hc : CloseTo T t
    · rw [if_pos (close_iff.mpr hc)]
      simp only [get_iff.mpr h3, asFloat_of h4, pure, Except.pure]
      exact Or.inl ⟨v, ⟨[], t, tv, rfl, hc, by simp⟩, rfl⟩
    · rw [if_neg (fun h => hc (close_iff.mp h))]
      rcases ih with ⟨w, ⟨a, t', b, rfl, h5, h6⟩, h7⟩ | ⟨h5, h6⟩
      · refine Or.inl ⟨w, ⟨(t, v) :: a, t', b, rfl, h5, ?_⟩, h7⟩
        intro p hp
        rcases List.mem_cons.mp hp with rfl | hp
        · exact hc
        · exact h6 p hp
      · refine Or.inr ⟨?_, h6⟩
        intro p hp
        rcases List.mem_cons.mp hp with rfl | hp
        · exact hc
        · exact h5 p hp

theorem valueAt_close {T : ℚ} {tv : List (ℚ × ℚ)} : (∃ v, ValueAt T tv v) ↔ ∃ p ∈ tv, CloseTo T p.1 := by
  constructor
  · rintro ⟨v, l, t, r, rfl, h, _⟩
    exact ⟨(t, v), by simp, h⟩
  · rintro ⟨p, hp, hc⟩
    induction tv with
    | nil => cases hp
    | cons a tv ih =>
      by_cases ha : CloseTo T a.1
      · exact ⟨a.2, [], a.1, tv, rfl, ha, by simp⟩
      · rcases List.mem_cons.mp hp with rfl | hp
        · exact absurd hc ha
        · obtain ⟨v, l, t, r, rfl, h1, h2⟩ := ih hp
          refine ⟨v, a :: l, t, r, rfl, h1, ?_⟩
          intro q hq
          rcases List.mem_cons.mp hq with rfl | hq
          · exact ha
          · exact h2 q hq

/-- C86: if every file has the temperature, the data set has for each file its structure and its value at that
temperature, in order; if some file does not have it, there is no data set at all. -/
theorem C86_electron (T : ℚ) (target : String) (files : List (String × List (String × Yaml)))
    (data : List (Cell × List (ℚ × ℚ)))
    (h : List.Forall₂ (fun f d => ElectronDoc target f.2 d.1 d.2) files data) :
    ((∀ d ∈ data, ∃ p ∈ d.2, CloseTo T p.1) → ∃ cells values, electronDataset T target files = .ok (cells, values) ∧
      List.Forall₂ (fun f (c : Cell) => ∃ c0, loadCell f.2 "structure" = .ok c0 ∧ SameCrystal c.st c0.st ∧ c.st.name = some f.1)
        files cells ∧ List.Forall₂ (fun d v => ValueAt T d.2 v) data values) ∧
    ((∃ d ∈ data, ∀ p ∈ d.2, ¬ CloseTo T p.1) → electronDataset T target files = .error .assertionError) := by
  have key : ∃ cells : List Cell, ∃ vs : List (List ℚ), electronProperties T target files = .ok (cells, vs.flatten) ∧
      List.Forall₂ (fun f (c : Cell) => ∃ c0, loadCell f.2 "structure" = .ok c0 ∧ SameCrystal c.st c0.st ∧ c.st.name = some f.1)
        files cells ∧
      List.Forall₂ (fun d l => (∃ v, ValueAt T d.2 v ∧ l = [v]) ∨ ((∀ p ∈ d.2, ¬ CloseTo T p.1) ∧ l = [])) data vs := by
    unfold electronProperties
    simp only [bind, Except.bind]
    induction h with
    | nil => exact ⟨[], [], rfl, .nil, .nil⟩
    | @cons f d files data hd _ ih =>
      obtain ⟨cells, vs, h1, h2, h3⟩ := ih
      obtain ⟨hc, l, hl, hf⟩ := hd
      cases hm : files.mapM (electronFile T target) with
      | error e => simp [hm] at h1
      | ok r =>
        simp only [hm, pure, Except.pure, Except.ok.injEq, Prod.mk.injEq] at h1
        obtain ⟨rfl, hfl⟩ := h1
        rcases electronLoop_spec T target hf with ⟨v, hv, he⟩ | ⟨hv, he⟩
        · refine ⟨d.1.named f.1 :: r.map (·.1), [v] :: vs, ?_, .cons ⟨d.1, hc, ⟨rfl, rfl, rfl, rfl, rfl, rfl⟩, rfl⟩ h2,
            .cons (Or.inl ⟨v, hv, rfl⟩) h3⟩
          simp [List.mapM_cons, electronFile, hc, get_iff.mpr hl, asList, he, hm, bind, Except.bind, pure, Except.pure, hfl]
        · refine ⟨d.1.named f.1 :: r.map (·.1), [] :: vs, ?_, .cons ⟨d.1, hc, ⟨rfl, rfl, rfl, rfl, rfl, rfl⟩, rfl⟩ h2,
            .cons (Or.inr ⟨hv, rfl⟩) h3⟩
          simp [List.mapM_cons, electronFile, hc, get_iff.mpr hl, asList, he, hm, bind, Except.bind, pure, Except.pure, hfl]
  obtain ⟨cells, vs, h1, h2, h3⟩ := key
  have hlen : cells.length = data.length := h2.length_eq.symm.trans h.length_eq
  constructor
  · intro hall
    have : ∃ values, vs.flatten = values ∧ List.Forall₂ (fun d v => ValueAt T d.2 v) data values := by
      refine ⟨_, rfl, ?_⟩
      clear h h1 h2 hlen
      induction h3 with
      | nil => exact .nil
      | @cons d l data vs hd _ ih =>
        have := ih fun d hd => hall d (List.mem_cons_of_mem _ hd)
        rcases hd with ⟨v, hv, rfl⟩ | ⟨hv, _⟩
        · exact .cons hv this
        · obtain ⟨p, hp, hc⟩ := hall d List.mem_cons_self
          exact absurd hc (hv p hp)
    obtain ⟨values, hv, hf⟩ := this
    refine ⟨cells, values, ?_, h2, hf⟩
    simp only [electronDataset, h1, bind, Except.bind, pure, Except.pure, hv]
    rw [if_pos (hlen.trans hf.length_eq)]
  · rintro ⟨d, hd, hn⟩
    have hlt : vs.flatten.length < data.length := by
      clear h h1 h2 hlen
      have hle : ∀ {data : List (Cell × List (ℚ × ℚ))} {vs : List (List ℚ)},
          List.Forall₂ (fun d l => (∃ v, ValueAt T d.2 v ∧ l = [v]) ∨ ((∀ p ∈ d.2, ¬ CloseTo T p.1) ∧ l = [])) data vs →
          vs.flatten.length ≤ data.length := by
        intro data vs h
        induction h with
        | nil => simp
        | cons h _ ih =>
          rcases h with ⟨v, _, rfl⟩ | ⟨_, rfl⟩
          · simp only [List.flatten_cons, List.length_append, List.length_cons, List.length_nil]; omega
          · simp only [List.flatten_cons, List.nil_append, List.length_cons]; omega
      induction h3 with
      | nil => cases hd
      | @cons d' l data vs h4 h5 ih =>
        rcases List.mem_cons.mp hd with rfl | hd
        · rcases h4 with ⟨v, hv, _⟩ | ⟨_, rfl⟩
          · obtain ⟨p, hp, hc⟩ := valueAt_close.mp ⟨v, hv⟩
            exact absurd hc (hn p hp)
          · have := hle h5
            simp only [List.flatten_cons, List.nil_append, List.length_cons]
            omega
        · have := ih hd
          rcases h4 with ⟨v, _, rfl⟩ | ⟨_, rfl⟩
          · simp only [List.flatten_cons, List.length_append, List.length_cons, List.length_nil]; omega
          · simp only [List.flatten_cons, List.nil_append, List.length_cons]; omega
    simp only [electronDataset, h1, bind, Except.bind]
    rw [if_neg (by omega)]

/-! ## Examples -/

/-- A cell with two atoms. -/
def exCell : Cell :=
  ⟨⟨⟨⟨3, 0, 0⟩, ⟨1, 3, 0⟩, ⟨0, 0, 3⟩⟩, [⟨0, 0, 0⟩, ⟨1 / 2, 1 / 2, 0⟩], [1, 1], ["Mg", "O"], [0, 1], 27, some "POSCAR"⟩, some 2,
    some (.diag ⟨2, 1, 1⟩)⟩

example : ValidCell exCell := by unfold ValidCell; decide

/-- Data of this cell. -/
def exDatum : Datum := ⟨exCell, -7 / 2, [⟨1, 0, 0⟩, ⟨-1, 0, 0⟩], fun i => (i.val : ℚ)⟩

example : AllPlain (fun q => decide (q ≠ 1 / 100000)) exDatum := by
  refine ⟨by decide +kernel, by decide +kernel, ?_⟩
  intro i
  revert i; decide +kernel

example : ElectronDoc "entropy"
    [("structure", .dict (cellEntries (fun _ => true) exCell.st)), ("properties", .list [
      .dict [("temperature", .num 200), ("entropy", .num 1)], .dict [("temperature", .num 300), ("entropy", .sci 2)]])]
    (readBack exCell none none) [(200, 1), (300, 2)] :=
  ⟨load_saved_plain _ exCell "structure" _ (by unfold ValidCell; decide) ⟨[], _, rfl, by simp⟩, _,
    ⟨[("structure", .dict (cellEntries (fun _ => true) exCell.st))], [], rfl, by simp⟩,
    .cons ⟨_, _, _, rfl, ⟨[], _, rfl, by simp⟩, Or.inl rfl, ⟨[("temperature", .num 200)], [], rfl, by simp⟩, Or.inl rfl⟩
      (.cons ⟨_, _, _, rfl, ⟨[], _, rfl, by simp⟩, Or.inl rfl, ⟨[("temperature", .num 300)], [], rfl, by simp⟩, Or.inr rfl⟩
        .nil)⟩

example : CloseTo 300 300 ∧ ¬ CloseTo 300 (200 : ℚ) := by
  unfold CloseTo
  constructor <;> norm_num [abs_of_pos, abs_of_neg]

end Verif.YamlData
