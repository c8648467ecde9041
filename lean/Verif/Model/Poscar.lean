import Verif.Model.MlpYaml
import Verif.Model.MlpLegacy
import Verif.Model.Infile
import Verif.Model.Structure

/-!
# POSCAR files

`/repo/src/pypolymlp/utils/vasp_utils.py` 45-93 (`write_poscar_file`) and
`/repo/src/pypolymlp/core/interface_vasp.py` 374-441 (`Poscar`).  Text is a list of characters; a file is one
text.
-/

namespace Verif.Poscar
open Verif.MlpYaml (Txt showNat pieces stod)
open Verif.MlpLegacy (pyNat)
open Verif.Infile (readlines)

/-! ## Writing -/

/-- The number of units of `1e-15` nearest to `|x|`. -/
def units (x : ℚ) : ℕ := (roundHalfEven (|x| * 10 ^ 15)).toNat

/-- The last fifteen digits, with leading zeros. -/
def pad15 (m : ℕ) : Txt := List.replicate (15 - (showNat m).length) '0' ++ showNat m

/-- `"{0:15.15f}".format(x)` (`vasp_utils.py` 63-66, 86-90).  Simplification: `x` is a rational number (every
finite double is one), so there is no negative zero, infinity or NaN.  The minimal width is always exceeded. -/
def fmtF (x : ℚ) : Txt :=
  (if x < 0 then ['-'] else []) ++ showNat (units x / 10 ^ 15) ++ '.' :: pad15 (units x % 10 ^ 15)

/-- `print("  ", a, b, c)` (`vasp_utils.py` 62-68, 85-91). -/
def vecLine (v : V3 ℚ) : Txt :=
  "   ".toList ++ fmtF v.x ++ ' ' :: fmtF v.y ++ ' ' :: fmtF v.z

/-- The names of the groups of atoms (`vasp_utils.py` 71-77). -/
def nameCells (elements : List String) : ℕ → List ℕ → Except Err Txt
  | _, [] => .ok []
  | index, n :: ns =>
    if 0 < n then do
      let e ← orErr .indexError elements[index]?
      let r ← nameCells elements (index + n) ns
      return e.toList ++ ' ' :: ' ' :: r
    else do
      let r ← nameCells elements index ns
      return 'Z' :: ' ' :: ' ' :: r

/-- The numbers of atoms (`vasp_utils.py` 79-81). -/
def countCells (ns : List ℕ) : Txt := ns.flatMap fun n => showNat n ++ [' ', ' ']

/-- The three axes, i.e. the rows of `st.axis.T`. -/
def axes (a : M3 ℚ) : List (V3 ℚ) :=
  [⟨a.r0.x, a.r1.x, a.r2.x⟩, ⟨a.r0.y, a.r1.y, a.r2.y⟩, ⟨a.r0.z, a.r1.z, a.r2.z⟩]

/-- The first line (`vasp_utils.py` 53-59). -/
def headLine (header comment : Option Txt) : Txt :=
  match header with
  | some h => h
  | none => match comment with
    | some c => c
    | none => "Generated by pypolymlp".toList

/-- `write_poscar_file` (`vasp_utils.py` 45-93): the lines, without their ends.  `comment` is `st.comment`. -/
def writeLines (st : Structure ℚ) (header comment : Option Txt) : Except Err (List Txt) := do
  let names ← nameCells st.elements 0 st.nAtoms
  return headLine header comment :: "1.0".toList :: (axes st.axis).map vecLine ++
    [' ' :: names, ' ' :: countCells st.nAtoms, "Direct".toList] ++ st.positions.map vecLine

/-- The text of the file: every `print` ends its line. -/
def write (st : Structure ℚ) (header comment : Option Txt) : Except Err Txt := do
  let ls ← writeLines st header comment
  return ls.flatMap fun l => l ++ ['\n']

/-! ## Reading -/

/-- White space of `str.split()` (the ASCII part). -/
def pyWs (c : Char) : Bool :=
  c == ' ' || c == '\t' || c == '\n' || c == '\r' || c == '\x0b' || c == '\x0c'

/-- `line.split()`. -/
def pyWords (s : Txt) : List Txt := (pieces pyWs s).filter (· ≠ [])

/-- `lines[i]`. -/
def lineAt (lines : List Txt) (i : ℕ) : Except Err Txt := orErr .indexError lines[i]?

/-- `[float(x) for x in line.split()[0:3]]` (`interface_vasp.py` 388-390, 422).  Simplification: fewer than three
numbers are an error at once (numpy complains later about the shape of the array). -/
def floats3 (line : Txt) : Except Err (V3 ℚ) := do
  let vs ← ((pyWords line).take 3).mapM stod
  match vs with
  | [a, b, c] => .ok ⟨a, b, c⟩
  | _ => .error .valueError

/-- `len(re.findall(r"[a-z,A-Z]+", line)) > 0` (`interface_vasp.py` 393). -/
def hasLetter (line : Txt) : Bool := line.any fun c => c.isAlpha || c == ','

/-- `"ABCDEFGHIJKLMNOPQRSTUVWXYZ"` as a sequence (`interface_vasp.py` 398). -/
def alphabet : List String := "ABCDEFGHIJKLMNOPQRSTUVWXYZ".toList.map fun c => String.ofList [c]

/-- The types and elements of all atoms (`interface_vasp.py` 402-406). -/
def expand (names : List String) : ℕ → List ℕ → Except Err (List (ℕ × String))
  | _, [] => .ok []
  | i, 0 :: ns => expand names (i + 1) ns
  | i, (n + 1) :: ns => do
    let e ← orErr .indexError names[i]?
    let r ← expand names (i + 1) ns
    return List.replicate (n + 1) (i, e) ++ r

/-- `Poscar._parse` after the line of the numbers of atoms (`interface_vasp.py` 402-436).  `start` is the line
number after it.  An array of no positions has the wrong shape.  `int` accepts digits only (`pyNat`); the line
with the type of the coordinates is skipped without being read, as in the source. -/
def body (lines : List Txt) (selective : Bool) (filename : String) (axis : M3 ℚ) (names : List String)
    (counts : List ℕ) (start : ℕ) : Except Err (Structure ℚ) := do
  let atoms ← expand names 0 counts
  let first := start + (if selective then 1 else 0) + 1
  let positions ← (List.range counts.sum).mapM fun i => do
    let l ← lineAt lines (first + i)
    floats3 l
  if counts.sum = 0 then .error .assertionError
  else Structure.check ⟨axis, positions, counts, atoms.map (·.2), atoms.map (·.1), axis.det, some filename⟩

/-- `np.c_[axis1, axis2, axis3] * axis_const` (`interface_vasp.py` 391). -/
def mkAxis (c : ℚ) (a1 a2 a3 : V3 ℚ) : M3 ℚ :=
  ⟨⟨a1.x * c, a2.x * c, a3.x * c⟩, ⟨a1.y * c, a2.y * c, a3.y * c⟩, ⟨a1.z * c, a2.z * c, a3.z * c⟩⟩

/-- `Poscar(filename, selective_dynamics).structure` and its comment (`interface_vasp.py` 380-436). -/
def parse (text : Txt) (selective : Bool) (filename : String) : Except Err (Structure ℚ × Txt) := do
  let lines := readlines [] text
  let comment ← lineAt lines 0
  let l1 ← lineAt lines 1
  let w ← orErr .indexError (pyWords l1)[0]?
  let c ← stod w
  let l2 ← lineAt lines 2
  let a1 ← floats3 l2
  let l3 ← lineAt lines 3
  let a2 ← floats3 l3
  let l4 ← lineAt lines 4
  let a3 ← floats3 l4
  let l5 ← lineAt lines 5
  let l6 ← if hasLetter l5 then lineAt lines 6 else pure l5
  let counts ← (pyWords l6).mapM pyNat
  let st ← body lines selective filename (mkAxis c a1 a2 a3)
    (if hasLetter l5 then (pyWords l5).map String.ofList else alphabet) counts (if hasLetter l5 then 7 else 6)
  return (st, comment)

end Verif.Poscar
