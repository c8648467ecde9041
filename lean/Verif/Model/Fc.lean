import Mathlib.Data.Rat.Defs
import Verif.Model.Py

/-!
# Force constants from a potential

`/repo/src/pypolymlp/calculator/fc.py` 23-306 (`PolymlpFC`) and
`/repo/src/pypolymlp/api/pypolymlp_calc.py` 517-603 (`init_fc`, `run_fc`, `save_fc`).

Not modelled: symfc (an arbitrary function of forces, displacements and orders that may fail), the construction of a
structure from displacements (C77), random numbers (the displacements that are drawn are given), messages, the cutoff.
-/

namespace Verif.Fc

/-- An array with three axes. -/
structure Arr where
  n : ℕ
  r : ℕ
  c : ℕ
  at_ : ℕ → ℕ → ℕ → ℚ

/-- `transpose((0, 2, 1))`. -/
def Arr.swap (a : Arr) : Arr := ⟨a.n, a.c, a.r, fun i j k => a.at_ i k j⟩

/-- What is given: the number of atoms of the supercell, the supercell, the structure that belongs to a displacement
`(3, n_atom)`, the forces `(3, n_atom)` of a structure, and the solver. -/
structure Ext (St FC : Type) where
  nAtoms : ℕ
  base : St
  displace : (ℕ → ℕ → ℚ) → St
  force : St → Except Err (ℕ → ℕ → ℚ)
  size : St → ℕ
  solve : Arr → Arr → List ℕ → Except Err (ℕ → Option FC)

/-- The attributes (`fc.py` 46-60).  `structs` is none if the attribute does not exist. -/
structure Obj (St FC : Type) where
  disps : Option Arr
  structs : Option (Option (List St))
  forces : Option Arr
  fc2 : Option FC
  fc3 : Option FC
  fc4 : Option FC

variable {St FC : Type}

/-- `__init__` with a supercell (`fc.py` 72-74, 53-60). -/
def ofSupercell : Obj St FC := ⟨none, none, none, none, none, none⟩

/-- `get_structures_from_displacements` (`core/displacements.py` 47-66): one structure for each displacement. -/
def structsOf (ext : Ext St FC) (d : Arr) : List St := (List.range d.n).map fun (i : ℕ) => ext.displace (d.at_ i)

/-- `__init__` with a phono3py.yaml file that has displacements (`fc.py` 75-82, 59): the displacements are set to None
after they were read. -/
def ofYaml (ext : Ext St FC) (d : Arr) : Obj St FC := ⟨none, some (some (structsOf ext d)), none, none, none, none⟩

/-- The setter of displacements (`fc.py` 241-251). -/
def setDisps (ext : Ext St FC) (o : Obj St FC) (d : Arr) : Except Err (Obj St FC) :=
  if ¬ d.r = 3 ∨ ¬ d.c = ext.nAtoms then .error .runtimeError
  else .ok { o with disps := some d, structs := some (some (structsOf ext d)) }

/-- The setter of forces (`fc.py` 253-259). -/
def setForces (ext : Ext St FC) (o : Obj St FC) (f : Arr) : Except Err (Obj St FC) :=
  if ¬ f.r = 3 ∨ ¬ f.c = ext.nAtoms then .error .runtimeError
  else .ok { o with forces := some f }

/-- `sample` (`fc.py` 98-121): `d` are the displacements that are drawn; without any, an array without second axis is
indexed (`core/displacements.py` 21). -/
def sample (ext : Ext St FC) (o : Obj St FC) (d : Arr) : Except Err (Obj St FC) :=
  if d.n = 0 then .error .indexError
  else .ok { o with disps := some d, structs := some (some (structsOf ext d)) }

/-- `_compute_forces` (`fc.py` 87-96): the forces of all structures, minus those of the supercell; structures with
another number of atoms cannot be subtracted.  An array without structures has one axis, and is refused by the setter
with an IndexError. -/
def computeForces (ext : Ext St FC) (o : Obj St FC) : Except Err Arr :=
  match o.structs with
  | none => .error .attributeError
  | some none => .error .runtimeError
  | some (some ss) =>
    match ss.mapM ext.force with
    | .error e => .error e
    | .ok fs =>
      match ext.force ext.base with
      | .error e => .error e
      | .ok f0 =>
        if ∃ s ∈ ss, ext.size s ≠ ext.nAtoms then .error .valueError
        else if ss = [] then .error .indexError
        else .ok ⟨fs.length, 3, ext.nAtoms, fun i j k => match fs[i]? with
          | some f => f j k - f0 j k
          | none => 0⟩

/-- The loop over the orders (`fc.py` 152-158). -/
def store (fc : ℕ → Option FC) : List ℕ → Obj St FC → Obj St FC × Except Err Unit
  | [], o => (o, .ok ())
  | k :: ks, o =>
    if k = 2 then
      match fc 2 with
      | none => (o, .error .keyError)
      | some x => store fc ks { o with fc2 := some x }
    else if k = 3 then
      match fc 3 with
      | none => (o, .error .keyError)
      | some x => store fc ks { o with fc3 := some x }
    else if k = 4 then
      match fc 4 with
      | none => (o, .error .keyError)
      | some x => store fc ks { o with fc4 := some x }
    else store fc ks o

/-- `run_fc` (`fc.py` 123-159): the exceptions for missing data are made but not raised, so that None is transposed. -/
def runFc (ext : Ext St FC) (o : Obj St FC) (orders : List ℕ) : Obj St FC × Except Err Unit :=
  match o.forces, o.disps with
  | none, _ => (o, .error .attributeError)
  | some _, none => (o, .error .attributeError)
  | some f, some d =>
    match ext.solve f.swap d.swap orders with
    | .error e => (o, .error e)
    | .ok fc => store fc orders o

/-- The displacements of `run` (`fc.py` 174-175). -/
def takeDisps (ext : Ext St FC) (o : Obj St FC) : Option Arr → Except Err (Obj St FC)
  | none => .ok o
  | some d => setDisps ext o d

/-- The forces of `run` (`fc.py` 177-186): they are computed if they are not given. -/
def takeForces (ext : Ext St FC) (o : Obj St FC) : Option Arr → Except Err (Obj St FC)
  | some f => setForces ext o f
  | none => do
    let f ← computeForces ext o
    setForces ext o f

/-- `run` (`fc.py` 161-212), without writing. -/
def run (ext : Ext St FC) (o : Obj St FC) (disps forces : Option Arr) (orders : List ℕ) : Obj St FC × Except Err Unit :=
  match takeDisps ext o disps with
  | .error e => (o, .error e)
  | .ok o1 =>
    match takeForces ext o1 forces with
    | .error e => (o1, .error e)
    | .ok o2 => runFc ext o2 orders

/-- The calls. -/
inductive Call (St : Type) where
  | disps (d : Arr)
  | forces (f : Arr)
  | structs (s : Option (List St))
  | sample (d : Arr)
  | runFc (orders : List ℕ)
  | run (disps forces : Option Arr) (orders : List ℕ)

/-- A call that gives a new state or fails. -/
def lift (o : Obj St FC) : Except Err (Obj St FC) → Obj St FC × Except Err Unit
  | .error e => (o, .error e)
  | .ok o' => (o', .ok ())

/-- One call; the setter of structures (`fc.py` 261-264) changes nothing else. -/
def step (ext : Ext St FC) (o : Obj St FC) : Call St → Obj St FC × Except Err Unit
  | .disps d => lift o (setDisps ext o d)
  | .forces f => lift o (setForces ext o f)
  | .structs s => ({ o with structs := some s }, .ok ())
  | .sample d => lift o (sample ext o d)
  | .runFc orders => runFc ext o orders
  | .run d f orders => run ext o d f orders

/-- A history. -/
def exec (ext : Ext St FC) (o : Obj St FC) (cs : List (Call St)) : Obj St FC :=
  cs.foldl (fun o x => (step ext o x).1) o

/-- `save_fc` (`fc.py` 214-224): the contents of `fc2.hdf5` and `fc3.hdf5`; none is written for None. -/
def saveFc (o : Obj St FC) : Option FC × Option FC := (o.fc2, o.fc3)

/-- `PypolymlpCalc.run_fc` (`pypolymlp_calc.py` 551-599): `d` are displacements that would be drawn.  The given arrays are
not passed on. -/
def calcRunFc (ext : Ext St FC) (o : Option (Obj St FC)) (disps forces : Option Arr) (d : Arr) (orders : List ℕ) :
    Option (Obj St FC) × Except Err Unit :=
  match o with
  | none => (none, .error .runtimeError)
  | some o =>
    match (if disps.isNone ∨ forces.isNone then sample ext o d else .ok o) with
    | .error e => (some o, .error e)
    | .ok o1 =>
      let r := run ext o1 none none orders
      (some r.1, r.2)

end Verif.Fc
