import Verif.Model.LammpsFiles

/-!
# Specification: dumps of LAMMPS

The format that LAMMPS writes for `dump id all custom N file id type x y z` (and `fx fy fz`).
-/

namespace Verif.Spec
open Verif.LammpsFiles

/-- A periodic box of LAMMPS: its lower corner, the three edges and the three tilts. -/
structure LmpBox (K : Type) where
  xlo : K
  ylo : K
  zlo : K
  lx : K
  ly : K
  lz : K
  xy : K
  xz : K
  yz : K

/-- Its lattice vectors are the columns. -/
def LmpBox.cell {K : Type} [Zero K] (b : LmpBox K) : Matrix (Fin 3) (Fin 3) K :=
  !![b.lx, b.xy, b.xz; 0, b.ly, b.yz; 0, 0, b.lz]

/-- The bounds that LAMMPS writes are those of the bounding box. -/
def LmpBox.rows {K : Type} [Field K] [LinearOrder K] (b : LmpBox K) : List (List K) :=
  [[b.xlo + min (min (min 0 b.xy) b.xz) (b.xy + b.xz), b.xlo + b.lx + max (max (max 0 b.xy) b.xz) (b.xy + b.xz), b.xy],
   [b.ylo + min 0 b.yz, b.ylo + b.ly + max 0 b.yz, b.xz], [b.zlo, b.zlo + b.lz, b.yz]]

/-- The bounds of a box without tilt. -/
def LmpBox.orthoRows {K : Type} [Field K] (b : LmpBox K) : List (List K) :=
  [[b.xlo, b.xlo + b.lx], [b.ylo, b.ylo + b.ly], [b.zlo, b.zlo + b.lz]]

/-- The lines of the atoms with their types and three numbers each. -/
def lmpAtoms {K : Type} (fmt : K → String) (atoms : List (ℕ × (Fin 3 → K))) : List (List String) :=
  atoms.zipIdx.map fun a => [toString (a.2 + 1), toString a.1.1, fmt (a.1.2 0), fmt (a.1.2 1), fmt (a.1.2 2)]

/-- The lines of a dump. -/
def lmpDump {K : Type} (fmt : K → String) (step : ℕ) (rows : List (List K)) (columns : List String)
    (atoms : List (ℕ × (Fin 3 → K))) : List (List String) :=
  [["ITEM:", "TIMESTEP"], [toString step], ["ITEM:", "NUMBER", "OF", "ATOMS"], [toString atoms.length],
    ["ITEM:", "BOX", "BOUNDS"] ++ columns] ++ rows.map (fun r => r.map fmt) ++ [["ITEM:", "ATOMS", "id", "type"]] ++
    lmpAtoms fmt atoms

/-- What is assumed of the conversion of words: numbers that were written are read, and a header is not a number. -/
structure LmpReads {K : Type} (cv : Conv K) (fmt : K → String) : Prop where
  num : ∀ x, cv.num (fmt x) = .ok x
  int : ∀ n : ℕ, cv.int (toString n) = .ok (n : ℤ)
  notNum : ∀ x, cv.num "ITEM:" ≠ .ok x
  notInt : ∀ n, cv.int "ITEM:" ≠ .ok n

/-- The structure that a user expects from a dump: the cell, and the atoms ordered by types, in the order of the file for each
type, with fractional positions. -/
structure LmpDumped {K : Type} [Semiring K] (cell : Matrix (Fin 3) (Fin 3) K) (atoms : List (ℕ × (Fin 3 → K))) (r : Structure K) : Prop where
  axis : r.axis = cell
  length : r.types.length = r.positions.length
  sorted : r.types.Pairwise (· ≤ ·)
  content : ∀ t, (r.types.zip (r.positions.map fun x => cell.mulVec x)).filter (fun a => a.1 = t) =
    (atoms.filter fun a => a.1 = t + 1).map fun a => (t, a.2)
  nAtoms : ∀ t, (r.nAtoms[t]?).getD 0 = atoms.countP fun a => a.1 = t + 1

end Verif.Spec
