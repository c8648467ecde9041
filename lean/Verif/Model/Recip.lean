import Verif.Model.Py
import Mathlib.Data.Real.Basic
import Mathlib.Algebra.Order.Field.Basic

/-!
# Harmonic properties in reciprocal space, and the files of an SSCHA calculation

`/repo/src/pypolymlp/calculator/sscha/harmonic_reciprocal.py` and the parts of
`/repo/src/pypolymlp/calculator/sscha/sscha_core.py` that use it (139-183, 207-229, 336-337, 344-385).

phonopy is a parameter; its object is shared by both classes, and what it keeps between calls (force constants, last mesh)
is modelled.  Force constants are taken to have the right shape.  The text of files is not modelled.
-/

namespace Verif.Recip

/-- Thermal properties at one temperature: free energy, entropy, heat capacity. -/
structure Th where
  free : ℝ
  entropy : ℝ
  cv : ℝ

/-- What is used of phonopy: the run on a mesh (the flag says: no symmetry, with eigenvectors), its frequencies, the mesh
with other frequencies, thermal properties, total and projected densities of states. -/
structure Ext (FC Ms M D P : Type) where
  mesh : FC → Ms → Bool → M
  freq : M → List ℝ
  withFreq : M → List ℝ → M
  thermal : M → ℝ → Th
  dos : M → D
  pdos : M → P

variable {FC Ms M D P : Type}

/-- The attributes of `HarmonicReciprocal` (`harmonic_reciprocal.py` 31-44), and the force constants and the last mesh of the
phonopy object. -/
structure Recip (FC M : Type) where
  phFc : Option FC
  phMesh : Option M
  fc2 : Option FC
  tp : Option Th
  meshDict : Option M
  freqs : Option (List ℝ)

/-- A new object. -/
def Recip.new : Recip FC M := ⟨none, none, none, none, none, none⟩

/-- The setter of `force_constants` (`harmonic_reciprocal.py` 111-120). -/
def setFc (r : Recip FC M) : Option FC → Recip FC M
  | none => { r with fc2 := none }
  | some f => { r with fc2 := some f, phFc := some f }

open Classical in
/-- `_hide_imaginary_modes` (`harmonic_reciprocal.py` 68-73). -/
noncomputable def hide (freq : List ℝ) : List ℝ := freq.map fun f => if f < -(1 / 1000) then |f| * 10 else f

/-- `compute_mesh_properties` (`harmonic_reciprocal.py` 75-82); phonopy raises RuntimeError without force constants. -/
def computeMesh (ext : Ext FC Ms M D P) (r : Recip FC M) (q : Ms) : Except Err (Recip FC M) :=
  match r.phFc with
  | none => .error .runtimeError
  | some f =>
    .ok { r with phMesh := some (ext.mesh f q false), freqs := some (ext.freq (ext.mesh f q false)),
                 meshDict := some (ext.mesh f q false) }

/-- `compute_thermal_properties` (`harmonic_reciprocal.py` 84-104) with its two returned free energies. -/
noncomputable def computeThermal (ext : Ext FC Ms M D P) (r : Recip FC M) (temp : ℝ) (q : Ms) (hideImag : Bool) :
    Except Err (Recip FC M × ℝ × Option ℝ) :=
  match r.phFc with
  | none => .error .runtimeError
  | some f =>
    let m := ext.mesh f q false
    let r := { r with phMesh := some m, freqs := some (ext.freq m), tp := some (ext.thermal m temp) }
    if hideImag then
      let m' := ext.withFreq m (hide (ext.freq m))
      .ok ({ r with phMesh := some m', tp := some (ext.thermal m' temp) }, (ext.thermal m temp).free,
        some (ext.thermal m' temp).free)
    else .ok (r, (ext.thermal m temp).free, none)

open Classical in
/-- `is_imaginary` (`harmonic_reciprocal.py` 168-177). -/
noncomputable def isImaginary (r : Recip FC M) : Except Err Bool :=
  match r.freqs with
  | none => .error .runtimeError
  | some l => .ok (decide (((l.filter fun f => decide (f < -(1 / 100))).length : ℝ) / l.length > 1 / 10 ^ 5))

/-- The properties `free_energy`, `entropy`, `heat_capacity` (`harmonic_reciprocal.py` 122-144). -/
def thermalOf (r : Recip FC M) : Option Th := r.tp

/-- `frequencies` (`harmonic_reciprocal.py` 146-152). -/
def frequencies (ext : Ext FC Ms M D P) (r : Recip FC M) : Option (List ℝ) := r.meshDict.map ext.freq

/-! ## SSCHA -/

/-- What `_compute_sscha_properties` takes from here (`sscha_core.py` 168-183). -/
structure Data where
  temp : ℝ
  th : Th
  imaginary : Bool

/-- `SSCHACore`: its force constants, the calculator, and the current data. -/
structure Core (FC M : Type) where
  fc2 : FC
  recip : Recip FC M
  data : Option Data

/-- `_compute_sscha_properties` (`sscha_core.py` 151-185). -/
noncomputable def properties (ext : Ext FC Ms M D P) (q : Ms) (temp : ℝ) (c : Core FC M) : Except Err (Core FC M) := do
  let r ← computeThermal ext (setFc c.recip (some c.fc2)) temp q false
  let t ← orErr .typeError (thermalOf r.1)
  let i ← isImaginary r.1
  pure { c with recip := r.1, data := some ⟨temp, t, i⟩ }

/-- One step of a calculation: an iteration that replaces the force constants by mixed ones (`_single_iter`, 207-221), the
final iteration (`_final_iter`, 223-229, 337), or frequencies (`run_frequencies`, 139-149; `none` is the mesh of the
parameters). -/
inductive Step (FC Ms : Type) where
  | single (temp : ℝ) (mixed : FC)
  | final (temp : ℝ)
  | frequencies (q : Option Ms)

/-- A step. -/
noncomputable def step (ext : Ext FC Ms M D P) (q : Ms) (c : Core FC M) : Step FC Ms → Except Err (Core FC M)
  | .single temp mixed => (properties ext q temp c).map fun c' => { c' with fc2 := mixed }
  | .final temp => properties ext q temp c
  | .frequencies q' => (computeMesh ext (setFc c.recip (some c.fc2)) (q'.getD q)).map fun r => { c with recip := r }

/-- A history. -/
noncomputable def steps (ext : Ext FC Ms M D P) (q : Ms) (c : Core FC M) (l : List (Step FC Ms)) :
    Except Err (Core FC M) := l.foldlM (step ext q) c

/-- The files of a temperature. -/
structure Files (FC D P : Type) where
  data : Data
  fc2 : FC
  dos : D
  pdos : Option P

/-- `save_results` and `_write_dos` (`sscha_core.py` 344-385): `run_total_dos` of phonopy uses its last mesh. -/
def save (ext : Ext FC Ms M D P) (q : Ms) (c : Core FC M) (writePdos : Bool) : Except Err (Files FC D P) := do
  let d ← orErr .attributeError c.data
  let m ← orErr .runtimeError c.recip.phMesh
  pure ⟨d, c.fc2, ext.dos m, if writePdos then some (ext.pdos (ext.mesh c.fc2 q true)) else none⟩

end Verif.Recip
