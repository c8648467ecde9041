import Verif.Model.Py
import Mathlib.LinearAlgebra.Matrix.NonsingularInverse
import Mathlib.Data.Fin.VecNotation

/-!
# Files of LAMMPS

`/repo/src/pypolymlp/calculator/utils/lammps/lammps_utils.py`.  A dump is given by its lines, which are split at white space
(simplification: a header is recognised by its words); a log is given by its lines.  The conversion of words to numbers is a
parameter, numbers are exact.
-/

namespace Verif.LammpsFiles

variable {K : Type}

/-- `float` and `int` of a word. -/
structure Conv (K : Type) where
  num : String → Except Err K
  int : String → Except Err ℤ

/-- Vectors. -/
abbrev Vec (K : Type) := Fin 3 → K

/-- The lines after the first one with the header; `ValueError` of `index` when there is none
(`lammps_utils.py` 82-83, 87, 113). -/
def after (header : List String) (lines : List (List String)) : Except Err (List (List String)) :=
  match lines.dropWhile fun l => !(header.isPrefixOf l) with
  | [] => .error .valueError
  | _ :: t => .ok t

/-- `natom` (`lammps_utils.py` 82-83). -/
def readNatom (cv : Conv K) (lines : List (List String)) : Except Err ℕ := do
  let t ← after ["ITEM:", "NUMBER", "OF", "ATOMS"] lines
  let l ← orErr .indexError t.head?
  let w ← orErr .valueError l.head?
  let n ← cv.int w
  return n.toNat

/-- The lower and upper bound and, if there are three columns, the tilt (`lammps_utils.py` 94-103). -/
def boundRow [Zero K] : List K → Except Err (K × K × K)
  | [lo, hi, t] => .ok (lo, hi, t)
  | lo :: hi :: _ => .ok (lo, hi, 0)
  | _ => .error .indexError

/-- The triangular cell of three rows (`lammps_utils.py` 94-111). -/
def cellOf [Field K] [LinearOrder K] (x y z : K × K × K) : Matrix (Fin 3) (Fin 3) K :=
  let xy := x.2.2
  let xz := y.2.2
  let yz := z.2.2
  let xlo := x.1 - min (min (min 0 xy) xz) (xy + xz)
  let xhi := x.2.1 - max (max (max 0 xy) xz) (xy + xz)
  let ylo := y.1 - min 0 yz
  let yhi := y.2.1 - max 0 yz
  !![xhi - xlo, xy, xz; 0, yhi - ylo, yz; 0, 0, z.2.1 - z.1]

/-- The three rows have to be of the same length (`lammps_utils.py` 88-93). -/
def cellRows [Field K] [LinearOrder K] : List (List K) → Except Err (Matrix (Fin 3) (Fin 3) K)
  | [x, y, z] =>
    if x.length = y.length ∧ y.length = z.length then do
      let x ← boundRow x
      let y ← boundRow y
      let z ← boundRow z
      return cellOf x y z
    else .error .valueError
  | _ => .error .indexError

/-- `self.axis` (`lammps_utils.py` 85-111). -/
def readCell [Field K] [LinearOrder K] (cv : Conv K) (lines : List (List String)) : Except Err (Matrix (Fin 3) (Fin 3) K) := do
  let t ← after ["ITEM:", "BOX", "BOUNDS"] lines
  let rows ← (t.take 3).mapM fun l => l.mapM cv.num
  cellRows rows

/-- The lines of the atoms (`lammps_utils.py` 113, 119, 127). -/
def atomLines (natom : ℕ) (lines : List (List String)) : Except Err (List (List String)) := do
  let t ← after ["ITEM:", "ATOMS"] lines
  return t.take natom

/-- The numbers of the characters of the second word: `int(a) for a in line.split()[1]` (`lammps_utils.py` 117-121). -/
def digitsOf (cv : Conv K) (l : List String) : Except Err (List ℤ) := do
  let w ← orErr .indexError l[1]?
  w.toList.mapM fun c => cv.int (String.singleton c)

/-- `max` of a list, `ValueError` for an empty one. -/
def maxOf : List ℤ → Except Err ℤ
  | [] => .error .valueError
  | a :: l => .ok (l.foldl max a)

/-- `n_types` (`lammps_utils.py` 116-122). -/
def readTypes (cv : Conv K) (atoms : List (List String)) : Except Err ℕ := do
  let ds ← atoms.mapM (digitsOf cv)
  let m ← maxOf ds.flatten
  return m.toNat

/-- Three numbers from the third word on: `[float(a) for a in split[2:5]]`; `np.array` needs three of them. -/
def vecOf (cv : Conv K) (l : List String) : Except Err (Vec K) :=
  match (l.drop 2).take 3 with
  | [a, b, c] => do
    let x ← cv.num a
    let y ← cv.num b
    let z ← cv.num c
    return ![x, y, z]
  | _ => .error .valueError

/-- Type and position of an atom (`lammps_utils.py` 128-129). -/
def atomOf (cv : Conv K) (l : List String) : Except Err (ℤ × Vec K) := do
  let w ← orErr .indexError l[1]?
  let t ← cv.int w
  let v ← vecOf cv l
  return (t - 1, v)

/-- The loop that puts the atoms into the groups of their types (`lammps_utils.py` 124-131). -/
def place : List (ℤ × Vec K) → List (List (Vec K)) → Except Err (List (List (Vec K)))
  | [], g => .ok g
  | a :: l, g => do
    let i ← pyIndex g.length a.1
    place l (g.modify i fun h => h ++ [a.2])

/-- The structure. -/
structure Structure (K : Type) where
  axis : Matrix (Fin 3) (Fin 3) K
  positions : List (Vec K)
  nAtoms : List ℕ
  types : List ℕ

/-- The structure of groups of atoms (`lammps_utils.py` 132-145); `np.linalg.inv` fails for a singular cell. -/
noncomputable def structureOf [Field K] [DecidableEq K] (axis : Matrix (Fin 3) (Fin 3) K) (g : List (List (Vec K))) :
    Except Err (Structure K) :=
  if axis.det = 0 then .error .runtimeError
  else .ok { axis := axis
             positions := g.flatten.map fun v => axis⁻¹.mulVec v
             nAtoms := g.map List.length
             types := g.zipIdx.flatMap fun p => List.replicate p.1.length p.2 }

/-- `Dump` (`lammps_utils.py` 74-145). -/
noncomputable def readDump [Field K] [LinearOrder K] (cv : Conv K) (lines : List (List String)) : Except Err (Structure K) := do
  let natom ← readNatom cv lines
  let axis ← readCell cv lines
  let atoms ← atomLines natom lines
  let n ← readTypes cv atoms
  let parsed ← atoms.mapM (atomOf cv)
  let g ← place parsed (List.replicate n [])
  structureOf axis g

/-- `DumpForce` (`lammps_utils.py` 160-180). -/
def readForces (cv : Conv K) (lines : List (List String)) : Except Err (List (Vec K)) := do
  let natom ← readNatom cv lines
  let atoms ← atomLines natom lines
  atoms.mapM (vecOf cv)

/-! ### Logs -/

/-- A line of the log: whether it has the texts that are looked for, and its words. -/
structure LogLine where
  thermo : Bool
  minimised : Bool
  words : List String

/-- A number of a line of a table. -/
def wordAt (cv : Conv K) (lines : List LogLine) (i k : ℕ) : Except Err K := do
  let l ← orErr .indexError lines[i]?
  let w ← orErr .indexError l.words[k]?
  cv.num w

/-- `get_energy` (`lammps_utils.py` 16-37) with its three forms: the columns of the initial and final energy and the lines after
the header they are on; the state is what the loop has found so far. -/
def logLoop (cv : Conv K) (lines : List LogLine) (isHeader : LogLine → Bool) (first second : ℕ × ℕ) :
    List (LogLine × ℕ) → K × K → Except Err (K × K)
  | [], acc => .ok acc
  | (l, i) :: rest, acc =>
    if isHeader l then do
      let a ← wordAt cv lines (i + first.1) first.2
      let b ← wordAt cv lines (i + second.1) second.2
      logLoop cv lines isHeader first second rest (a, b)
    else logLoop cv lines isHeader first second rest acc

/-- `get_energy` (`lammps_utils.py` 16-37).  Simplification: `self.volume` is not modelled. -/
def getEnergy [Zero K] (cv : Conv K) (lines : List LogLine) (single enthalpy : Bool) : Except Err (K × K) :=
  if single then logLoop cv lines LogLine.thermo (1, 4) (1, 4) lines.zipIdx (0, 0)
  else if enthalpy then logLoop cv lines LogLine.minimised (1, 0) (1, 2) lines.zipIdx (0, 0)
  else logLoop cv lines LogLine.thermo (1, 4) (2, 4) lines.zipIdx (0, 0)

/-- `get_press` (`lammps_utils.py` 39-54). -/
def getPress [Zero K] (cv : Conv K) (lines : List LogLine) (single : Bool) : Except Err (K × K) :=
  if single then logLoop cv lines LogLine.thermo (1, 5) (1, 5) lines.zipIdx (0, 0)
  else logLoop cv lines LogLine.thermo (1, 5) (2, 5) lines.zipIdx (0, 0)

end Verif.LammpsFiles
