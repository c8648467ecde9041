import Verif.Model.Structure

/-!
# Structures and properties in yaml files

`/repo/src/pypolymlp/utils/yaml_utils.py` 14-165 and `/repo/src/pypolymlp/core/interface_yaml.py` 96-171.

A file is the document that yaml reads: a tree.  The text of a number is only modelled as far as yaml distinguishes it: if
the text has no decimal point, as in `1e-05`, yaml reads a string, which `float` converts to the number.  Which numbers are
printed in this way is a parameter.
-/

namespace Verif.YamlData

/-- A value of a yaml document.  `sci q` is the text of the number `q` that yaml reads as a string. -/
inductive Yaml where
  | num (q : ℚ)
  | sci (q : ℚ)
  | str (s : String)
  | bool (b : Bool)
  | list (l : List Yaml)
  | dict (d : List (String × Yaml))

/-- A number that is printed; `plain` tells whether its text is read as a number. -/
def write (plain : ℚ → Bool) (q : ℚ) : Yaml := if plain q then .num q else .sci q

/-- `key in dict`. -/
def has (d : List (String × Yaml)) (k : String) : Bool := d.any fun e => decide (e.1 = k)

/-- `dict[key]`: of equal keys the last counts. -/
def get (d : List (String × Yaml)) (k : String) : Except Err Yaml :=
  orErr .keyError ((d.reverse.find? fun e => decide (e.1 = k)).map Prod.snd)

/-- A value as a dictionary. -/
def asDict : Yaml → Except Err (List (String × Yaml))
  | .dict d => .ok d
  | _ => .error .typeError

/-- A value as a list. -/
def asList : Yaml → Except Err (List Yaml)
  | .list l => .ok l
  | _ => .error .typeError

/-- `float(value)`. -/
def asFloat : Yaml → Except Err ℚ
  | .num q => .ok q
  | .sci q => .ok q
  | .bool true => .ok 1
  | .bool false => .ok 0
  | .str _ => .error .valueError
  | _ => .error .typeError

/-- A number of atoms, a type.  Simplification: other values are an error here. -/
def asNat : Yaml → Except Err ℕ
  | .num q => if q.den = 1 ∧ 0 ≤ q then .ok q.num.toNat else .error .valueError
  | _ => .error .valueError

/-- An integer of a supercell matrix.  Simplification: other values are an error here. -/
def asInt : Yaml → Except Err ℤ
  | .num q => if q.den = 1 then .ok q.num else .error .valueError
  | _ => .error .valueError

/-- A name of an element.  Simplification: other values are an error here. -/
def asStr : Yaml → Except Err String
  | .str s => .ok s
  | _ => .error .valueError

/-- A row of three values. -/
def row3 (y : Yaml) : Except Err (V3 Yaml) :=
  match y with
  | .list [a, b, c] => .ok ⟨a, b, c⟩
  | _ => .error .valueError

/-- A row of three numbers (`np.array(…, dtype=float)`). -/
def floats3 (y : Yaml) : Except Err (V3 ℚ) := do
  let v ← row3 y
  let a ← asFloat v.x
  let b ← asFloat v.y
  let c ← asFloat v.z
  return ⟨a, b, c⟩

/-- A row of three integers. -/
def ints3 (y : Yaml) : Except Err (V3 ℤ) := do
  let v ← row3 y
  let a ← asInt v.x
  let b ← asInt v.y
  let c ← asInt v.z
  return ⟨a, b, c⟩

/-- Three rows. -/
def three {K : Type} : List (V3 K) → Except Err (M3 K)
  | [a, b, c] => .ok ⟨a, b, c⟩
  | _ => .error .valueError

/-- The transpose. -/
def transpose {K : Type} (a : M3 K) : M3 K :=
  ⟨⟨a.r0.x, a.r1.x, a.r2.x⟩, ⟨a.r0.y, a.r1.y, a.r2.y⟩, ⟨a.r0.z, a.r1.z, a.r2.z⟩⟩

/-- The supercell matrix of a structure: three numbers or a matrix. -/
inductive SMatrix where
  | diag (v : V3 ℤ)
  | full (a : M3 ℤ)
  deriving DecidableEq

/-- A structure with the fields that files of supercells hold. -/
structure Cell where
  st : Structure ℚ
  nUnitcells : Option ℕ := none
  matrix : Option SMatrix := none
  deriving DecidableEq

/-- A row of numbers that is printed. -/
def writeRow (plain : ℚ → Bool) (v : V3 ℚ) : Yaml := .list [write plain v.x, write plain v.y, write plain v.z]

/-- A row of integers that is printed. -/
def writeInts (v : V3 ℤ) : Yaml := .list [.num v.x, .num v.y, .num v.z]

/-- `np.diag(…)` or the matrix (`yaml_utils.py` 53-56). -/
def SMatrix.toFull : SMatrix → M3 ℤ
  | .diag v => ⟨⟨v.x, 0, 0⟩, ⟨0, v.y, 0⟩, ⟨0, 0, v.z⟩⟩
  | .full a => a

/-- The entries of `save_cell` for all cells (`yaml_utils.py` 41-48); the columns of axes and positions are rows. -/
def cellEntries (plain : ℚ → Bool) (st : Structure ℚ) : List (String × Yaml) :=
  [("axis", .list [writeRow plain (transpose st.axis).r0, writeRow plain (transpose st.axis).r1,
      writeRow plain (transpose st.axis).r2]),
    ("positions", .list (st.positions.map (writeRow plain))),
    ("n_atoms", .list (st.nAtoms.map fun (n : ℕ) => .num n)),
    ("types", .list (st.types.map fun (n : ℕ) => .num n)),
    ("elements", .list (st.elements.map .str)),
    ("volume", write plain st.volume)]

/-- The entries of `save_cell` for supercells (`yaml_utils.py` 50-62).  Without a supercell matrix the iteration over the
matrix raises TypeError. -/
def superEntries (c : Cell) : Except Err (List (String × Yaml)) := do
  let m ← orErr .typeError c.matrix
  return (c.nUnitcells.elim [] fun (n : ℕ) => [("n_unitcells", .num n)]) ++
    [("supercell_matrix", .list [writeInts m.toFull.r0, writeInts m.toFull.r1, writeInts m.toFull.r2])]

/-- `save_cell` (`yaml_utils.py` 30-64): the entry that is added to the file. -/
def saveCell (plain : ℚ → Bool) (c : Cell) (tag : String) : Except Err (String × Yaml) := do
  let extra ← if tag = "supercell" then superEntries c else .ok []
  return (tag, .dict (cellEntries plain c.st ++ extra))

/-- The fields of `PolymlpStructure` (`data_format.py` 28-44). -/
def fields : List String :=
  ["axis", "positions", "n_atoms", "elements", "types", "volume", "supercell_matrix", "positions_cartesian", "valence",
    "n_unitcells", "axis_inv", "comment", "name", "masses", "velocities", "momenta"]

/-- An optional entry. -/
def opt {α : Type} (d : List (String × Yaml)) (k : String) (f : Yaml → Except Err α) : Except Err (Option α) :=
  if has d k then do
    let y ← get d k
    let a ← f y
    return some a
  else .ok none

/-- A matrix of integers. -/
def matrixOf (y : Yaml) : Except Err SMatrix := do
  let l ← asList y
  let rows ← l.mapM ints3
  let m ← three rows
  return .full m

/-- `load_cell` (`yaml_utils.py` 86-99).  Unknown entries are arguments that the constructor does not know (TypeError).
Simplifications: the other fields of a structure are left out; the volume is converted to a number. -/
def loadCell (doc : List (String × Yaml)) (tag : String) : Except Err Cell := do
  let y ← get doc tag
  let d ← asDict y
  let ax ← get d "axis"
  let axl ← asList ax
  let rows ← axl.mapM floats3
  let m ← three rows
  let ps ← get d "positions"
  let psl ← asList ps
  let positions ← psl.mapM floats3
  if d.any (fun e => decide (e.1 ∉ fields)) ∨ has d "n_atoms" = false ∨ has d "elements" = false ∨ has d "types" = false then
    .error .typeError
  else do
    let n ← get d "n_atoms"
    let nl ← asList n
    let nAtoms ← nl.mapM asNat
    let e ← get d "elements"
    let el ← asList e
    let elements ← el.mapM asStr
    let t ← get d "types"
    let tl ← asList t
    let types ← tl.mapM asNat
    let v ← opt d "volume" asFloat
    let nu ← opt d "n_unitcells" asNat
    let sm ← opt d "supercell_matrix" matrixOf
    let st ← Structure.check ⟨transpose m, positions, nAtoms, elements, types, v.getD (transpose m).det, none⟩
    return ⟨st, nu, sm⟩

/-- `save_cells` (`yaml_utils.py` 67-84): the document. -/
def saveCells (plain : ℚ → Bool) (unitcell supercell : Cell) : Except Err (List (String × Yaml)) := do
  let u ← saveCell plain unitcell "unitcell"
  let s ← saveCell plain supercell "supercell"
  return [u, s]

/-- `load_cells` (`yaml_utils.py` 102-113). -/
def loadCells (doc : List (String × Yaml)) : Except Err (Cell × Cell) := do
  let u ← loadCell doc "unitcell"
  let s ← loadCell doc "supercell"
  let y ← get doc "supercell"
  let d ← asDict y
  let m ← get d "supercell_matrix"
  let sm ← matrixOf m
  return (u, { s with matrix := some sm })

/-- `save_data` (`yaml_utils.py` 116-147): the document. -/
def saveData (plain : ℚ → Bool) (c : Cell) (energy : ℚ) (forces : Option (List (V3 ℚ))) (stress : Option (List ℚ)) :
    Except Err (List (String × Yaml)) := do
  let s ← saveCell plain c "structure"
  return [s, ("energy", write plain energy)] ++
    (forces.elim [] fun f => [("forces", .list (f.map (writeRow plain)))]) ++
    (stress.elim [] fun l => [("stress", .list (l.map (write plain)))])

/-- What `load_data` returns: arrays without conversion to numbers hold the values of the document. -/
structure Loaded where
  cell : Cell
  energy : ℚ
  forces : List (V3 Yaml)
  stress : List Yaml

/-- `load_data` (`yaml_utils.py` 150-165). -/
def loadData (doc : List (String × Yaml)) : Except Err Loaded := do
  let c ← loadCell doc "structure"
  let e ← get doc "energy"
  let en ← asFloat e
  let f ← get doc "forces"
  let fl ← asList f
  let forces ← fl.mapM row3
  let s ← get doc "stress"
  let stress ← asList s
  return ⟨c, en, forces, stress⟩

/-- What `parse_property_yamls` collects of a file. -/
structure Property where
  cell : Cell
  energy : Yaml
  forces : List (V3 Yaml)
  stress : M3 Yaml

/-- The name that a structure gets. -/
def Cell.named (c : Cell) (name : String) : Cell := { c with st := { c.st with name := some name } }

/-- The tensor of six values (`interface_yaml.py` 168-169). -/
def tensor (s : List Yaml) : Except Err (M3 Yaml) := do
  let xx ← orErr .indexError s[0]?
  let xy ← orErr .indexError s[3]?
  let zx ← orErr .indexError s[5]?
  let yy ← orErr .indexError s[1]?
  let yz ← orErr .indexError s[4]?
  let zz ← orErr .indexError s[2]?
  return ⟨⟨xx, xy, zx⟩, ⟨xy, yy, yz⟩, ⟨zx, yz, zz⟩⟩

/-- One file of `parse_property_yamls` (`interface_yaml.py` 160-170). -/
def parseProperty (file : String × List (String × Yaml)) : Except Err Property := do
  let c ← loadCell file.2 "structure"
  let e ← get file.2 "energy"
  let f ← get file.2 "forces"
  let fl ← asList f
  let forces ← fl.mapM row3
  let s ← get file.2 "stress"
  let sl ← asList s
  let t ← tensor sl
  return ⟨c.named file.1, e, forces, t⟩

/-- `parse_property_yamls` (`interface_yaml.py` 157-171): four lists. -/
def parseProperties (files : List (String × List (String × Yaml))) :
    Except Err (List Cell × List Yaml × List (List (V3 Yaml)) × List (M3 Yaml)) := do
  let l ← files.mapM parseProperty
  return (l.map (·.cell), l.map (·.energy), l.map (·.forces), l.map (·.stress))

/-- The six components that the data set takes of a tensor (`dataset_utils.py` 231-240). -/
def six {K : Type} (a : M3 K) : List K := [a.r0.x, a.r1.y, a.r2.z, a.r0.y, a.r1.z, a.r2.x]

/-- `np.isclose(a, b)`. -/
def isClose (a b : ℚ) : Bool := decide (|a - b| ≤ 1 / 100000000 + 1 / 100000 * |b|)

/-- The loop over the temperatures of a file (`interface_yaml.py` 124-127). -/
def electronLoop (temperature : ℚ) (target : String) : List Yaml → Except Err (List ℚ)
  | [] => .ok []
  | p :: ps => do
    let d ← asDict p
    let t ← get d "temperature"
    let tq ← asFloat t
    if isClose tq temperature then do
      let v ← get d target
      let q ← asFloat v
      return [q]
    else electronLoop temperature target ps

/-- One file of `extract_electron_properties` (`interface_yaml.py` 120-127): its structure and its values, at most one. -/
def electronFile (temperature : ℚ) (target : String) (file : String × List (String × Yaml)) :
    Except Err (Cell × List ℚ) := do
  let c ← loadCell file.2 "structure"
  let ps ← get file.2 "properties"
  let pl ← asList ps
  let q ← electronLoop temperature target pl
  return (c.named file.1, q)

/-- `extract_electron_properties` (`interface_yaml.py` 106-128). -/
def electronProperties (temperature : ℚ) (target : String) (files : List (String × List (String × Yaml))) :
    Except Err (List Cell × List ℚ) := do
  let l ← files.mapM (electronFile temperature target)
  return (l.map (·.1), (l.map (·.2)).flatten)

/-- The check of `DatasetDFT` (`dataset_utils.py` 210) in `set_dataset_from_electron_yamls` (`interface_yaml.py` 131-154). -/
def electronDataset (temperature : ℚ) (target : String) (files : List (String × List (String × Yaml))) :
    Except Err (List Cell × List ℚ) := do
  let r ← electronProperties temperature target files
  if r.1.length = r.2.length then return r else .error .assertionError

end Verif.YamlData
