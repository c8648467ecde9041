import Verif.Model.Py
import Verif.Model.Rotation

/-!
# Evaluation of a structure with the LAMMPS library

`/repo/src/pypolymlp/calculator/utils/lammps/lammps_command.py` 20-190, `properties_lammps.py` 12-75 and
`lammps_structure.py` 17-103, 140-172.  LAMMPS is a machine with a box and a list of atoms whose identifiers are their
places in the list; its pair potential is a parameter, as is the order of the atoms in the array of forces
(`extract_atom` returns the local order of LAMMPS).  Numbers are exact.  Not modelled: the log files, and the
initial box before the first structure.
-/

namespace Verif.LammpsEval
open Verif.Rotation

/-- Vectors. -/
abbrev Vec := Fin 3 → ℝ

/-- Energy, forces of the atoms, and the stress tensor in units of energy. -/
structure Values where
  energy : ℝ
  forces : List Vec
  stress : Mat

/-- A potential: cell (columns are the lattice vectors), atoms with types and cartesian positions. -/
abbrev Potential := Mat → List (ℕ × Vec) → Values

/-- The state of LAMMPS: the six numbers of the box, and the atoms by their identifiers. -/
structure Machine where
  box : Tri
  atoms : List (ℕ × Vec)

/-- The commands that are sent (`lammps_command.py` 117-152); types and identifiers start from 1. -/
inductive Command where
  | deleteAtoms
  | createAtom (type : ℕ)
  | changeBox (lx ly lz xy xz yz : ℝ)
  | setAtom (id : ℕ) (x : Vec)

/-- The effect of a command: created atoms are in the origin and get the next identifier; identifiers that do not exist
are ignored. -/
noncomputable def Machine.apply (m : Machine) : Command → Machine
  | .deleteAtoms => { m with atoms := [] }
  | .createAtom t => { m with atoms := m.atoms ++ [(t, 0)] }
  | .changeBox lx ly lz xy xz yz => { m with box := ⟨lx, ly, lz, xy, yz, xz⟩ }
  | .setAtom id x => { m with atoms := m.atoms.modify (id - 1) fun a => (a.1, x) }

/-- The given structure: axis, elements of the atoms and fractional positions. -/
structure Cell where
  axis : Mat
  elements : List String
  positions : List Vec

/-- `recast_types` (`lammps_structure.py` 140-150): the last place of the element in the list; `KeyError` for others. -/
def recast (uniq : List String) (elements : List String) : Except Err (List ℕ) :=
  elements.mapM fun e =>
    match ((uniq.zipIdx.reverse).find? fun p => p.1 == e) with
    | none => .error .keyError
    | some p => .ok p.2

/-- The commands of `set_structure` (`lammps_command.py` 117-152): all atoms are deleted, atoms are created, the box is
changed, and atoms are moved to their cartesian positions. -/
noncomputable def commands (types : List ℕ) (tri : Tri) (cartesian : List Vec) : List Command :=
  [.deleteAtoms] ++ types.map (fun t => .createAtom (t + 1)) ++
    [.changeBox tri.lx tri.ly tri.lz tri.xy tri.xz tri.yz] ++
    cartesian.zipIdx.map fun p => .setAtom (p.2 + 1) p.1

/-- LAMMPS with its potential: pair potential for types from 1; `order` gives the identifiers (from 0) of the atoms in
the local order; pressures are in bar. -/
structure Library where
  potential : Potential
  order : Machine → List ℕ

/-- Conversion of units (`core/units.py` `EVtoGPa`), a positive number. -/
structure Units where
  evToGPa : ℝ
  pos : 0 < evToGPa

/-- The pressure tensor that LAMMPS reports, in bar: the stress in units of energy divided by the volume. -/
noncomputable def Library.pressure (l : Library) (u : Units) (m : Machine) : Mat :=
  ((u.evToGPa * 10000) / m.box.full.det) • (l.potential m.box.full m.atoms).stress

/-- Forces (`lammps_command.py` 166-171) in the local order. -/
noncomputable def Library.forces (l : Library) (m : Machine) : List Vec :=
  (l.order m).map fun i => ((l.potential m.box.full m.atoms).forces[i]?).getD 0

/-- The six components in the order xx, yy, zz, xy, yz, zx. -/
structure Six where
  xx : ℝ
  yy : ℝ
  zz : ℝ
  xy : ℝ
  yz : ℝ
  zx : ℝ

/-- Stress (`lammps_command.py` 174-183). -/
noncomputable def Library.stress (l : Library) (u : Units) (m : Machine) : Six :=
  let p := l.pressure u m
  let unit := m.box.full.det / u.evToGPa / 10000
  ⟨p 0 0 * unit, p 1 1 * unit, p 2 2 * unit, p 0 1 * unit, p 1 2 * unit, p 0 2 * unit⟩

/-- The tensor of the components (`properties_lammps.py` 58). -/
def Six.tensor (s : Six) : Mat :=
  Matrix.of fun i j => match i, j with
    | 0, 0 => s.xx | 0, 1 => s.xy | 0, 2 => s.zx
    | 1, 0 => s.xy | 1, 1 => s.yy | 1, 2 => s.yz
    | 2, 0 => s.zx | 2, 1 => s.yz | 2, 2 => s.zz

/-- The components of a tensor (`properties_lammps.py` 60). -/
def sixOf (s : Mat) : Six := ⟨s 0 0, s 1 1, s 2 2, s 0 1, s 1 2, s 2 0⟩

open Classical in
/-- `PropertiesLammps.eval` (`properties_lammps.py` 45-62, `lammps_command.py` 103-124): conversion to a triangular cell
(`lammps_structure.py` 17-27, with the simplification of `Model/Rotation`), evaluation, and rotation back. -/
noncomputable def eval (l : Library) (u : Units) (elements : List String) (m : Machine) (st : Cell) :
    Machine × Except Err (ℝ × List Vec × Six) :=
  match recast elements st.elements with
  | .error e => (m, .error e)
  | .ok types =>
    let tri := triAxis st.axis
    let rot := rotation st.axis
    let m' := (commands types tri (st.positions.map fun p => tri.full.mulVec p)).foldl Machine.apply m
    let f := l.forces m'
    let s := (l.stress u m').tensor
    let f := if rot ≠ 1 then f.map (fun x => recoverForce x rot) else f
    let s := if rot ≠ 1 then recoverStress s rot else s
    (m', .ok ((l.potential m'.box.full m'.atoms).energy, f, sixOf s))

/-- `PropertiesLammps.eval_multiple` (`properties_lammps.py` 64-75): one object, one structure after another. -/
noncomputable def evalMultiple (l : Library) (u : Units) (elements : List String) :
    Machine → List Cell → Machine × Except Err (List (ℝ × List Vec × Six))
  | m, [] => (m, .ok [])
  | m, st :: sts =>
    match eval l u elements m st with
    | (m, .error e) => (m, .error e)
    | (m, .ok v) =>
      match evalMultiple l u elements m sts with
      | (m, .error e) => (m, .error e)
      | (m, .ok vs) => (m, .ok (v :: vs))

end Verif.LammpsEval
