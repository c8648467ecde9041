import Verif.Model.Infile
import Verif.Model.Structure

/-!
# Results of VASP

`/repo/src/pypolymlp/core/interface_vasp.py` 14-367 and 509-584, `/repo/src/pypolymlp/utils/vasprun_compress.py` 19-80.

An xml file is a tree; writing a tree to a file and reading it gives the tree (`prettify` keeps the text).  Numbers are
exact; how text is converted to numbers is a parameter.  Messages are left out.
-/

namespace Verif.Vasprun
open Verif.Infile (PStr)

/-- An element of xml: its tag, its attribute `name`, its text and its children. -/
inductive Xml where
  | node (tag : String) (name : Option String) (text : Option PStr) (kids : List Xml)

/-- `elem.tag`. -/
def Xml.tag : Xml → String
  | .node t _ _ _ => t

/-- `elem.get("name")`. -/
def Xml.name : Xml → Option String
  | .node _ n _ _ => n

/-- `elem.text`. -/
def Xml.text : Xml → Option PStr
  | .node _ _ t _ => t

/-- The children. -/
def Xml.kids : Xml → List Xml
  | .node _ _ _ k => k

mutual
/-- All elements below an element, in the order of the document. -/
def below : Xml → List Xml
  | .node _ _ _ ks => belowAll ks
/-- Elements of a list and all elements below them. -/
def belowAll : List Xml → List Xml
  | [] => []
  | k :: ks => k :: (below k ++ belowAll ks)
end

/-- `root.find(".//*[@name='…']")`. -/
def findName (root : Xml) (n : String) : Option Xml := (below root).find? fun x => decide (x.name = some n)

/-- `root.findall(".//*[@name='…']/set/rc")`. -/
def findRc (root : Xml) (n : String) : List Xml :=
  (((below root).filter fun x => decide (x.name = some n)).flatMap fun x =>
    x.kids.filter fun y => decide (y.tag = "set")).flatMap fun y => y.kids.filter fun z => decide (z.tag = "rc")

/-- `elem.find("tag")`. -/
def child (x : Xml) (t : String) : Option Xml := x.kids.find? fun y => decide (y.tag = t)

/-- `elem.findall("tag")`. -/
def children (x : Xml) (t : String) : List Xml := x.kids.filter fun y => decide (y.tag = t)

/-- How text is converted: `[float(x) for x in text.split()]`, `float(text)`, `int(text)`. -/
structure Conv where
  floats : PStr → Except Err (List ℚ)
  float : PStr → Except Err ℚ
  int : PStr → Except Err ℤ

/-- A row of three numbers.  Simplification: rows of another length are an error here. -/
def v3 : List ℚ → Except Err (V3 ℚ)
  | [a, b, c] => .ok ⟨a, b, c⟩
  | _ => .error .valueError

/-- One row of a table; `None.split()` raises AttributeError. -/
def row (cv : Conv) (x : Xml) : Except Err (V3 ℚ) := do
  let t ← orErr .attributeError x.text
  let l ← cv.floats t
  v3 l

/-- `_varray_to_nparray` (`interface_vasp.py` 219-222, 361-364): the rows.  Iterating over None raises TypeError. -/
def varray (cv : Conv) (x : Option Xml) : Except Err (List (V3 ℚ)) := do
  let x ← orErr .typeError x
  x.kids.mapM (row cv)

/-- A table of three rows. -/
def m3 : List (V3 ℚ) → Except Err (M3 ℚ)
  | [a, b, c] => .ok ⟨a, b, c⟩
  | _ => .error .valueError

/-- The transpose of a table. -/
def M3.t (a : M3 ℚ) : M3 ℚ :=
  ⟨⟨a.r0.x, a.r1.x, a.r2.x⟩, ⟨a.r0.y, a.r1.y, a.r2.y⟩, ⟨a.r0.z, a.r1.z, a.r2.z⟩⟩

/-- A table of three rows of three numbers. -/
def matrix (cv : Conv) (x : Option Xml) : Except Err (M3 ℚ) := do
  let l ← varray cv x
  m3 l

/-- `float(elem.text)`: None as element raises AttributeError, None as text TypeError. -/
def number (cv : Conv) (x : Option Xml) : Except Err ℚ := do
  let x ← orErr .attributeError x
  let t ← orErr .typeError x.text
  cv.float t

/-- `float(calc.find("energy")[1].text)` (`interface_vasp.py` 134-135, 264-265). -/
def energyOf (cv : Conv) (cal : Option Xml) : Except Err ℚ := do
  let c ← orErr .attributeError cal
  let e ← orErr .typeError (child c "energy")
  let k ← orErr .indexError e.kids[1]?
  number cv (some k)

/-- One column of `_read_rc_set` (`interface_vasp.py` 224-226): the text without blanks. -/
def column (k : ℕ) (rcs : List Xml) : Except Err (List PStr) :=
  rcs.mapM fun rc => do
    let c ← orErr .indexError (children rc "c")[k]?
    let t ← orErr .attributeError c.text
    return t.filter (· ≠ ' ')

/-- The numbers of atoms (`interface_vasp.py` 186-187). -/
def nAtomsOf (cv : Conv) (root : Xml) : Except Err (List ℕ) := do
  let l ← column 0 (findRc root "atomtypes")
  let n ← l.mapM cv.int
  return n.map Int.toNat

/-- The elements (`interface_vasp.py` 189-191): `r` stands for zirconium. -/
def elementsOf (root : Xml) : Except Err (List String) := do
  let l ← column 0 (findRc root "atoms")
  return l.map fun e => if e = ['r'] then "Zr" else String.ofList e

/-- The types (`interface_vasp.py` 192), which start at one in the file. -/
def typesOf (cv : Conv) (root : Xml) : Except Err (List ℕ) := do
  let l ← column 1 (findRc root "atoms")
  let n ← l.mapM cv.int
  return n.map fun (i : ℤ) => (i - 1).toNat

/-- A structure with axes, positions and volume below the element `st` (`interface_vasp.py` 176-211, 341-357). -/
def structureAt (cv : Conv) (name : String) (root st : Xml) : Except Err (Structure ℚ) := do
  let axis ← matrix cv (findName st "basis")
  let positions ← varray cv (findName st "positions")
  let volume ← number cv (findName st "volume")
  let n ← nAtomsOf cv root
  let e ← elementsOf root
  let t ← typesOf cv root
  Structure.check ⟨M3.t axis, positions, n, e, t, volume, some name⟩

/-- `Vasprun.structure` (`interface_vasp.py` 169-211). -/
def structureOf (cv : Conv) (name : String) (root : Xml) : Except Err (Structure ℚ) := do
  let st ← orErr .attributeError (findName root "finalpos")
  structureAt cv name root st

/-- `Vasprun.energy` (`interface_vasp.py` 124-136). -/
def energy (cv : Conv) (root : Xml) : Except Err ℚ := energyOf cv (child root "calculation")

/-- `Vasprun.forces` (`interface_vasp.py` 138-150), one row for each atom. -/
def forces (cv : Conv) (root : Xml) : Except Err (List (V3 ℚ)) := varray cv (findName root "forces")

/-- `Vasprun.stress` (`interface_vasp.py` 152-164). -/
def stress (cv : Conv) (root : Xml) : Except Err (M3 ℚ) := matrix cv (findName root "stress")

/-- `get_scstep` (`interface_vasp.py` 213-220). -/
def history (cv : Conv) (root : Xml) : Except Err (List ℚ) := do
  let c ← orErr .attributeError (child root "calculation")
  (children c "scstep").mapM fun sc => do
    let e ← orErr .attributeError (child sc "energy")
    number cv (findName e "e_0_energy")

/-- `_is_convergent` (`interface_vasp.py` 535-552) of a file that was read; every exception means True. -/
def isConvergent (cv : Conv) (root : Xml) (tol : ℚ) : Bool :=
  match history cv root with
  | .error _ => true
  | .ok l =>
    match l.reverse with
    | a :: b :: _ => decide (|a - b| < tol)
    | _ => true

/-- `VaspErrorCheck.test_convergence` for one file (`interface_vasp.py` 580-584); `none` is a file that cannot be read. -/
def testConvergence (cv : Conv) (file : Option Xml) (_tol : ℚ) : Bool :=
  match file with
  | none => false
  | some root => isConvergent cv root (1 / 1000)

/-- `check_vasprun_type` (`interface_vasp.py` 91-105) of a file that was read. -/
def isMd (cv : Conv) (root : Xml) : Bool :=
  match (findName root "IBRION").bind Xml.text with
  | none => false
  | some t =>
    match cv.int t with
    | .ok i => decide (i = 0)
    | .error _ => false

/-- What is known of one calculation. -/
structure Rec where
  structure_ : Structure ℚ
  energy : ℚ
  forces : List (V3 ℚ)
  stress : M3 ℚ
  deriving DecidableEq

/-- A table times a number. -/
def M3.smul (c : ℚ) (a : M3 ℚ) : M3 ℚ :=
  ⟨⟨c * a.r0.x, c * a.r0.y, c * a.r0.z⟩, ⟨c * a.r1.x, c * a.r1.y, c * a.r1.z⟩, ⟨c * a.r2.x, c * a.r2.y, c * a.r2.z⟩⟩

/-- `EVtoKbar` (`units.py`). -/
def evToKbar : ℚ := 16021766208 / 10000000

/-- `stress * volume / EVtoKbar` (`interface_vasp.py` 54-56, 72-73). -/
def toEv (st : Structure ℚ) (s : M3 ℚ) : M3 ℚ := M3.smul (st.volume / evToKbar) s

/-- The arrays that the loop over the files fills (`interface_vasp.py` 45). -/
structure Arrays where
  structures : List (Structure ℚ) := []
  energies : List ℚ := []
  forces : List (List (V3 ℚ)) := []
  stresses : List (M3 ℚ) := []
  deriving DecidableEq

/-- `VasprunMD` (`interface_vasp.py` 229-357): each property is a loop over the calculations. -/
structure Md where
  structures : List (Structure ℚ)
  energies : List ℚ
  forces : List (List (V3 ℚ))
  stresses : List (M3 ℚ)

/-- The properties of `VasprunMD`, in the order in which the loop asks for them. -/
def readMd (cv : Conv) (name : String) (root : Xml) : Except Err Md := do
  let cals := children root "calculation"
  let ss ← cals.mapM (structureAt cv name root)
  let es ← cals.mapM fun c => energyOf cv (some c)
  let fs ← cals.mapM fun c => varray cv (findName c "forces")
  let ps ← cals.mapM fun c => matrix cv (findName c "stress")
  return ⟨ss, es, fs, ps⟩

/-- One file of `parse_properties_from_vaspruns` (`interface_vasp.py` 46-74).  `none` is a file that is no xml: it is read
by `check_vasprun_type` before the `try`, so that the exception is not caught (it is a subclass of SyntaxError; RuntimeError here). -/
def parseFile (cv : Conv) (acc : Arrays) (file : String × Option Xml) : Except Err Arrays := do
  let root ← orErr .runtimeError file.2
  if isMd cv root then do
    let v ← readMd cv file.1 root
    return ⟨acc.structures ++ v.structures, acc.energies ++ v.energies, acc.forces ++ v.forces,
      acc.stresses ++ List.zipWith (fun s st => toEv st s) v.stresses v.structures⟩
  else if isConvergent cv root (1 / 1000) = false then return acc
  else do
    let st ← structureOf cv file.1 root
    let e ← energy cv root
    let f ← forces cv root
    let s ← stress cv root
    return ⟨acc.structures ++ [st], acc.energies ++ [e], acc.forces ++ [f], acc.stresses ++ [toEv st s]⟩

/-- `parse_properties_from_vaspruns` (`interface_vasp.py` 40-75). -/
def parseFiles (cv : Conv) (files : List (String × Option Xml)) : Except Err Arrays :=
  files.foldlM (parseFile cv) {}

/-- `compress_vaspruns` (`vasprun_compress.py` 19-51): the tree that is written.  A missing element cannot be added to a
list of elements (TypeError); the file that is no xml gives False (none here). -/
def compress (cv : Conv) (file : Option Xml) : Except Err (Option Xml) :=
  match file with
  | none => .ok none
  | some root =>
    if isMd cv root then .error .runtimeError
    else do
      let c ← orErr .attributeError (child root "calculation")
      let e ← orErr .typeError (child c "energy")
      let f ← orErr .typeError (findName c "forces")
      let s ← orErr .typeError (findName c "stress")
      let st ← orErr .typeError (findName root "finalpos")
      let t ← orErr .typeError (findName root "atomtypes")
      let a ← orErr .typeError (findName root "atoms")
      return some (.node "modeling" none none
        [.node "calculation" none none ([e, f, s, st, t, a] ++ children c "scstep")])

/-- One calculation of `compress_vaspruns_md` (`vasprun_compress.py` 67-74). -/
def compressCal (cal : Xml) : Except Err Xml := do
  let e ← orErr .typeError (child cal "energy")
  let f ← orErr .typeError (findName cal "forces")
  let s ← orErr .typeError (findName cal "stress")
  let st ← orErr .typeError (child cal "structure")
  return .node "calculation" none none [e, f, s, st]

/-- `compress_vaspruns_md` (`vasprun_compress.py` 54-80). -/
def compressMd (file : Option Xml) : Except Err (Option Xml) :=
  match file with
  | none => .ok none
  | some root => do
    let i ← orErr .typeError (findName root "IBRION")
    let t ← orErr .typeError (findName root "atomtypes")
    let a ← orErr .typeError (findName root "atoms")
    let cs ← (children root "calculation").mapM compressCal
    return some (.node "modeling" none none ([i, t, a] ++ cs))

end Verif.Vasprun
