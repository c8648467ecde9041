import Verif.Model.Infile
import Verif.Model.Structure
import Mathlib.Data.List.Lex
import Mathlib.Data.List.Sort
import Mathlib.Data.List.Dedup
import Mathlib.Data.Char

/-!
# Results of OpenMX

`/repo/src/pypolymlp/core/interface_openmx.py` 34-101.  A file is its list of lines; how text is converted to numbers is a
parameter.  Numbers are exact.
-/

namespace Verif.Openmx
open Verif.Infile (PStr splitWs contains)

/-- How text is converted: `float(text)`, `int(text)`, and which characters are blanks. -/
structure Num where
  float : PStr → Except Err ℚ
  int : PStr → Except Err ℤ
  ws : Char → Bool

/-- `line.split()`. -/
def words (num : Num) (l : PStr) : List PStr := splitWs num.ws [] l

/-- `HartreetoEV` (`units.py`). -/
def hartree : ℚ := 27211386245981 / 1000000000000

/-- `BohrtoAng` (`units.py`). -/
def bohr : ℚ := 529177210544 / 1000000000000

/-- `np.array([...]).reshape((3, 3)).T` (`interface_openmx.py` 56-59). -/
def axisOf : List ℚ → Except Err (M3 ℚ)
  | [a, b, c, d, e, f, g, h, i] => .ok ⟨⟨a, d, g⟩, ⟨b, e, h⟩, ⟨c, f, i⟩⟩
  | _ => .error .valueError

/-- Three numbers of an atom.  Simplification: another number of numbers is an error here. -/
def vec : List ℚ → Except Err (V3 ℚ)
  | [a, b, c] => .ok ⟨a, b, c⟩
  | _ => .error .valueError

/-- The line of an atom (`interface_openmx.py` 64-67): element, position and force. -/
def atom (num : Num) (l : PStr) : Except Err (PStr × V3 ℚ × V3 ℚ) := do
  let sp := words num l
  let e ← orErr .indexError sp[0]?
  let p ← ((sp.drop 1).take 3).mapM num.float
  let f ← ((sp.drop 4).take 3).mapM num.float
  let p ← vec p
  let f ← vec f
  return (e, p, f)

/-- `np.linalg.inv(axis) @ v` for axes of determinant other than zero (`interface_openmx.py` 70). -/
def solve (a : M3 ℚ) (v : V3 ℚ) : V3 ℚ :=
  ⟨((a.r1.y * a.r2.z - a.r1.z * a.r2.y) * v.x - (a.r0.y * a.r2.z - a.r0.z * a.r2.y) * v.y +
      (a.r0.y * a.r1.z - a.r0.z * a.r1.y) * v.z) / a.det,
    (-(a.r1.x * a.r2.z - a.r1.z * a.r2.x) * v.x + (a.r0.x * a.r2.z - a.r0.z * a.r2.x) * v.y -
      (a.r0.x * a.r1.z - a.r0.z * a.r1.x) * v.z) / a.det,
    ((a.r1.x * a.r2.y - a.r1.y * a.r2.x) * v.x - (a.r0.x * a.r2.y - a.r0.y * a.r2.x) * v.y +
      (a.r0.x * a.r1.y - a.r0.y * a.r1.x) * v.z) / a.det⟩

/-- The order of strings, character by character. -/
def leStr : PStr → PStr → Bool
  | [], _ => true
  | _ :: _, [] => false
  | a :: as, b :: bs => if a < b then true else if a = b then leStr as bs else false

/-- `np.unique(elements)` (`interface_openmx.py` 92): sorted, each element once. -/
def unique (l : List PStr) : List PStr := l.dedup.insertionSort fun a b => leStr a b = true

/-- `types` of `_assign_types` (`interface_openmx.py` 90-101): zeros, overwritten for one element after the other. -/
def typesOf (elements : List PStr) : List ℕ :=
  (unique elements).zipIdx.foldl (fun ts p => List.zipWith (fun e t => if e = p.1 then p.2 else t) elements ts)
    (List.replicate elements.length 0)

/-- `n_atoms` of `_assign_types` (`interface_openmx.py` 90-101). -/
def nAtomsOf (elements : List PStr) : List ℕ := (unique elements).map fun e => elements.count e

/-- What is read of one step. -/
structure Rec where
  structure_ : Structure ℚ
  energy : ℚ
  forces : List (V3 ℚ)
  deriving DecidableEq

/-- `"Temperature"`. -/
def tagTemperature : PStr := ['T', 'e', 'm', 'p', 'e', 'r', 'a', 't', 'u', 'r', 'e']

/-- The number of the first word of the axes (`interface_openmx.py` 56-59). -/
def axisStart (l : PStr) : ℕ := if contains tagTemperature l then 12 else 7

/-- The atoms of a step: a missing line is an IndexError (`interface_openmx.py` 63-68). -/
def atoms (num : Num) : ℕ → List PStr → Except Err (List (PStr × V3 ℚ × V3 ℚ) × List PStr)
  | 0, ls => .ok ([], ls)
  | _ + 1, [] => .error .indexError
  | n + 1, l :: ls => do
    let a ← atom num l
    let r ← atoms num n ls
    return (a :: r.1, r.2)

/-- The structure, energy and forces of a step (`interface_openmx.py` 69-86).  Without atoms the product of matrices
raises ValueError, and so does the inverse of a singular matrix (LinAlgError is a ValueError). -/
def record (axis : M3 ℚ) (energy : ℚ) (as : List (PStr × V3 ℚ × V3 ℚ)) : Except Err Rec := do
  if as = [] ∨ axis.det = 0 then .error .valueError
  else do
    let els := as.map fun a => a.1
    let st ← Structure.mk' axis (as.map fun a => solve axis a.2.1) (nAtomsOf els) (els.map String.ofList) (typesOf els)
    return ⟨st, energy, as.map fun a => ⟨a.2.2.x * (hartree / bohr), a.2.2.y * (hartree / bohr), a.2.2.z * (hartree / bohr)⟩⟩

/-- One step of `parse_single_openmx` (`interface_openmx.py` 49-86) and the lines behind it. -/
def frame (num : Num) : List PStr → Except Err (Rec × List PStr)
  | [] => .error .indexError
  | [l0] => do
    let _ ← num.int l0
    .error .indexError
  | l0 :: l1 :: ls => do
    let n ← num.int l0
    let w ← orErr .indexError (words num l1)[4]?
    let e ← num.float w
    let ax ← ((words num l1).drop (axisStart l1)).mapM num.float
    let axis ← axisOf ax
    let r ← atoms num n.toNat ls
    let rec_ ← record axis (e * hartree) r.1
    return (rec_, r.2)

/-- The loop of `parse_single_openmx` (`interface_openmx.py` 47-88).  Every step takes lines, so that as many steps as
lines are enough. -/
def frames (num : Num) : ℕ → List PStr → Except Err (List Rec)
  | _, [] => .ok []
  | 0, _ :: _ => .error .runtimeError
  | fuel + 1, l :: ls => do
    let r ← frame num (l :: ls)
    let rest ← frames num fuel r.2
    return r.1 :: rest

/-- `parse_single_openmx` (`interface_openmx.py` 42-88). -/
def parseSingle (num : Num) (lines : List PStr) : Except Err (List Rec) := frames num lines.length lines

/-- `parse_openmx` (`interface_openmx.py` 34-45): structures, energies, forces. -/
def parseFiles (num : Num) (files : List (List PStr)) :
    Except Err (List (Structure ℚ) × List ℚ × List (List (V3 ℚ))) :=
  files.foldlM (fun acc lines => do
    let rs ← parseSingle num lines
    return (acc.1 ++ rs.map (·.structure_), acc.2.1 ++ rs.map (·.energy), acc.2.2 ++ rs.map (·.forces))) ([], [], [])

end Verif.Openmx
