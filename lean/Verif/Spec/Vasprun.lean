import Verif.Model.Vasprun

/-! # What is asked of reading and compressing results of VASP -/

namespace Verif.Spec
open Verif.Vasprun
open Verif.Infile (PStr)

mutual
/-- The elements inside an element, in the order of the document. -/
def xmlInside : Xml → List Xml
  | .node _ _ _ ks => xmlInsideAll ks
/-- The elements of a list with those inside them. -/
def xmlInsideAll : List Xml → List Xml
  | [] => []
  | k :: ks => (k :: xmlInside k) ++ xmlInsideAll ks
end

/-- `y` is the first element inside `x` with the name `n`. -/
def FirstNamed (x : Xml) (n : String) (y : Xml) : Prop :=
  ∃ l r, xmlInside x = l ++ y :: r ∧ y.name = some n ∧ ∀ z ∈ l, z.name ≠ some n

/-- `y` is the only element inside `x` with the name `n`. -/
def OnlyNamed (x : Xml) (n : String) (y : Xml) : Prop :=
  ∃ l r, xmlInside x = l ++ y :: r ∧ y.name = some n ∧ (∀ z ∈ l, z.name ≠ some n) ∧ ∀ z ∈ r, z.name ≠ some n

/-- `y` is the first child of `x` with the tag `t`. -/
def FirstTagged (x : Xml) (t : String) (y : Xml) : Prop :=
  ∃ l r, x.kids = l ++ y :: r ∧ y.tag = t ∧ ∀ z ∈ l, z.tag ≠ t

/-- No element inside `x` has one of these names. -/
def NoneInside (names : List String) (x : Xml) : Prop := ∀ y ∈ xmlInside x, ∀ n ∈ names, y.name ≠ some n

/-- Names of the parts of a file that are read. -/
def vaspNames : List String := ["forces", "stress", "finalpos", "atomtypes", "atoms"]

/-- A file of a calculation as VASP writes it: the first calculation `c` with its energy `e`, forces `f` and stress `s`
(the first ones of the file), the final structure `st`, the only tables of atom types `t` and atoms `a`; they are not parts
of one another, and steps of self-consistency do not have such parts. -/
structure PlainVasprun (root c e f s st t a : Xml) : Prop where
  calculation : FirstTagged root "calculation" c
  energy : FirstTagged c "energy" e
  forces : FirstNamed c "forces" f ∧ FirstNamed root "forces" f
  stress : FirstNamed c "stress" s ∧ FirstNamed root "stress" s
  finalpos : FirstNamed root "finalpos" st
  atomtypes : OnlyNamed root "atomtypes" t
  atoms : OnlyNamed root "atoms" a
  energyName : ∀ n ∈ vaspNames, e.name ≠ some n
  noNesting : ∀ x ∈ [e, f, s, st, t, a], NoneInside vaspNames x
  noIbrion : ∀ x ∈ [e, f, s, st, t, a], x.name ≠ some "IBRION" ∧ NoneInside ["IBRION"] x
  tags : ∀ x ∈ [f, s, st, t, a], x.tag ≠ "scstep"
  steps : ∀ x ∈ c.kids, x.tag = "scstep" → (∀ n ∈ "IBRION" :: vaspNames, x.name ≠ some n) ∧
    NoneInside ("IBRION" :: vaspNames) x

/-- Names of the parts of a molecular dynamics step that are read. -/
def mdNames : List String := ["forces", "stress", "basis", "positions", "volume", "atomtypes", "atoms"]

/-- A step of molecular dynamics as VASP writes it: energy `e`, forces `f`, stress `s` and structure `st`; the first axes,
positions and volume of the step are those of its structure. -/
structure PlainStep (c e f s st : Xml) : Prop where
  energy : FirstTagged c "energy" e
  forces : FirstNamed c "forces" f
  stress : FirstNamed c "stress" s
  structure_ : FirstTagged c "structure" st
  parts : ∀ n ∈ ["basis", "positions", "volume"], ∃ y, FirstNamed c n y ∧ FirstNamed st n y
  energyName : ∀ n ∈ mdNames, e.name ≠ some n
  structureName : ∀ n ∈ mdNames, st.name ≠ some n
  noNesting : ∀ x ∈ [e, f, s], NoneInside mdNames x
  noTables : NoneInside ["forces", "stress", "atomtypes", "atoms"] st

/-- A file of molecular dynamics as VASP writes it. -/
structure PlainMd (root i t a : Xml) : Prop where
  ibrion : FirstNamed root "IBRION" i
  atomtypes : OnlyNamed root "atomtypes" t
  atoms : OnlyNamed root "atoms" a
  noNesting : ∀ x ∈ [i, t, a], NoneInside ["IBRION", "atomtypes", "atoms"] x
  tags : ∀ x ∈ [i, t, a], x.tag ≠ "calculation"
  steps : ∀ c ∈ root.kids, c.tag = "calculation" → ∃ e f s st, PlainStep c e f s st

/-! ### What the elements of a file say -/

/-- An element holds a number. -/
def HoldsNumber (cv : Conv) (y : Xml) (q : ℚ) : Prop := ∃ t, y.text = some t ∧ cv.float t = .ok q

/-- An element holds three numbers. -/
def HoldsRow (cv : Conv) (y : Xml) (v : V3 ℚ) : Prop := ∃ t, y.text = some t ∧ cv.floats t = .ok [v.x, v.y, v.z]

/-- The first table inside `x` with the name `n` has these rows. -/
def TableIn (cv : Conv) (x : Xml) (n : String) (rows : List (V3 ℚ)) : Prop :=
  ∃ y, FirstNamed x n y ∧ List.Forall₂ (HoldsRow cv) y.kids rows

/-- The energy of a calculation: the second number of its element `energy`. -/
def EnergyIn (cv : Conv) (c : Xml) (q : ℚ) : Prop :=
  ∃ e k, FirstTagged c "energy" e ∧ e.kids[1]? = some k ∧ HoldsNumber cv k q

/-- The rows of the tables of atoms with the name `n`. -/
def atomRows (root : Xml) (n : String) : List Xml :=
  (((xmlInside root).filter fun x => decide (x.name = some n)).flatMap fun x =>
    x.kids.filter fun y => decide (y.tag = "set")).flatMap fun y => y.kids.filter fun z => decide (z.tag = "rc")

/-- The `k`-th cell of a row of a table of atoms is this text, without blanks. -/
def CellIs (k : ℕ) (rc : Xml) (t : PStr) : Prop :=
  ∃ c raw, (rc.kids.filter fun y => decide (y.tag = "c"))[k]? = some c ∧ c.text = some raw ∧ t = raw.filter (· ≠ ' ')

/-- The structure of which axes (as columns), positions and volume are inside `st` and the atoms are those of the file. -/
def StructureIn (cv : Conv) (name : String) (root st : Xml) (s : Structure ℚ) : Prop :=
  TableIn cv st "basis" [⟨s.axis.r0.x, s.axis.r1.x, s.axis.r2.x⟩, ⟨s.axis.r0.y, s.axis.r1.y, s.axis.r2.y⟩,
    ⟨s.axis.r0.z, s.axis.r1.z, s.axis.r2.z⟩] ∧
  TableIn cv st "positions" s.positions ∧ (∃ y, FirstNamed st "volume" y ∧ HoldsNumber cv y s.volume) ∧
  List.Forall₂ (fun rc (n : ℕ) => ∃ t i, CellIs 0 rc t ∧ cv.int t = .ok i ∧ n = i.toNat) (atomRows root "atomtypes") s.nAtoms ∧
  List.Forall₂ (fun rc e => ∃ t, CellIs 0 rc t ∧ e = if t = ['r'] then "Zr" else String.ofList t) (atomRows root "atoms")
    s.elements ∧
  List.Forall₂ (fun rc (k : ℕ) => ∃ t i, CellIs 1 rc t ∧ cv.int t = .ok i ∧ k = (i - 1).toNat) (atomRows root "atoms") s.types ∧
  s.name = some name ∧ s.positions.length = s.elements.length ∧ s.elements.length = s.types.length ∧
  s.elements.length = s.nAtoms.sum

/-- The file is one of molecular dynamics: `IBRION` is zero. -/
def MdFile (cv : Conv) (root : Xml) : Prop :=
  ∃ y t, FirstNamed root "IBRION" y ∧ y.text = some t ∧ cv.int t = .ok 0

/-- The energies of the steps of self-consistency of the first calculation. -/
def EnergyHistory (cv : Conv) (root : Xml) (l : List ℚ) : Prop :=
  ∃ c, FirstTagged root "calculation" c ∧
    List.Forall₂ (fun sc q => ∃ e k, FirstTagged sc "energy" e ∧ FirstNamed e "e_0_energy" k ∧ HoldsNumber cv k q)
      (c.kids.filter fun y => decide (y.tag = "scstep")) l

/-- The last two energies of the self-consistency differ by at least the tolerance. -/
def NotConverged (cv : Conv) (root : Xml) (tol : ℚ) : Prop :=
  ∃ l x y, EnergyHistory cv root (l ++ [x, y]) ∧ tol ≤ |y - x|

/-- A stress in kbar times the volume, in eV. -/
def StressEv (cv : Conv) (x : Xml) (volume : ℚ) (p : M3 ℚ) : Prop :=
  ∃ a : M3 ℚ, TableIn cv x "stress" [a.r0, a.r1, a.r2] ∧
    p = ⟨⟨volume / (16021766208 / 10000000) * a.r0.x, volume / (16021766208 / 10000000) * a.r0.y,
        volume / (16021766208 / 10000000) * a.r0.z⟩,
      ⟨volume / (16021766208 / 10000000) * a.r1.x, volume / (16021766208 / 10000000) * a.r1.y,
        volume / (16021766208 / 10000000) * a.r1.z⟩,
      ⟨volume / (16021766208 / 10000000) * a.r2.x, volume / (16021766208 / 10000000) * a.r2.y,
        volume / (16021766208 / 10000000) * a.r2.z⟩⟩

/-- The record of one calculation: the structure inside `st`, the energy of `c`, the first forces and stress inside `x`. -/
def RecordIn (cv : Conv) (name : String) (root st c x : Xml) (r : Rec) : Prop :=
  StructureIn cv name root st r.structure_ ∧ EnergyIn cv c r.energy ∧ TableIn cv x "forces" r.forces ∧
    StressEv cv x r.structure_.volume r.stress

/-- The records that a file contributes: none if its self-consistency did not converge, one if it is a single calculation,
and one for each step of molecular dynamics. -/
def FileRecords (cv : Conv) (file : String × Option Xml) (rs : List Rec) : Prop :=
  ∃ root, file.2 = some root ∧
    ((¬ MdFile cv root ∧ NotConverged cv root (1 / 1000) ∧ rs = []) ∨
      (¬ MdFile cv root ∧ ¬ NotConverged cv root (1 / 1000) ∧ ∃ r st c, rs = [r] ∧ FirstNamed root "finalpos" st ∧
        FirstTagged root "calculation" c ∧ RecordIn cv file.1 root st c root r) ∨
      (MdFile cv root ∧
        List.Forall₂ (fun c r => RecordIn cv file.1 root c c c r) (root.kids.filter fun x => decide (x.tag = "calculation")) rs))

end Verif.Spec
