import Verif.Model.SschaFiles
import Verif.Spec.YamlData

/-! # What is asked of files of results of SSCHA -/

namespace Verif.Spec
open Verif.YamlData Verif.SschaFiles

/-- kJ/mol of one eV per particle. -/
def eVinKJ : ℚ := 96.48533212331002

/-- The units for energies. -/
def KnownUnit (u : String) : Prop := u = "kJ/mol" ∨ u = "eV/cell" ∨ u = "eV/atom"

instance (u : String) : Decidable (KnownUnit u) := by unfold KnownUnit; infer_instance

/-- `v` is the energy `kj` (kJ per mol of cells of `n` atoms) in the unit. -/
def EnergyUnit (u : String) (n : ℕ) (kj v : ℚ) : Prop :=
  (u = "kJ/mol" → v = kj) ∧ (u = "eV/cell" → v * eVinKJ = kj) ∧ (u = "eV/atom" → v * n * eVinKJ = kj)

/-- `v` is the entropy or heat capacity `j` (J/K per mol of cells of `n` atoms) in the unit (per K). -/
def EntropyUnit (u : String) (n : ℕ) (j v : ℚ) : Prop :=
  (u = "kJ/mol" → v = j) ∧ (u = "eV/cell" → v * eVinKJ * 1000 = j) ∧ (u = "eV/atom" → v * n * eVinKJ * 1000 = j)

/-- `v` is the volume `x` of a cell of `n` atoms: per atom if energies are per atom. -/
def VolumeUnit (u : String) (n : ℕ) (x v : ℚ) : Prop :=
  (u = "kJ/mol" → v = x) ∧ (u = "eV/cell" → v = x) ∧ (u = "eV/atom" → v * n = x)

/-- The unit after a history of calls: the last one that is a unit. -/
def lastUnit (u : String) (us : List String) : String := ((us.filter fun x => decide (KnownUnit x)).getLast?).getD u

/-- All values that are saved are printed so that yaml reads numbers. -/
def PlainData (plain : ℚ → Bool) (d : Data) : Prop :=
  plain d.temperature = true ∧ plain d.static = true ∧ plain d.harmonic = true ∧ plain d.anharmonic = true ∧
    plain d.free = true ∧ plain d.entropy = true ∧ plain d.heat = true

/-- All components of forces and stresses are printed so that yaml reads numbers. -/
def PlainArrays (plain : ℚ → Bool) (f : List (V3 ℚ)) (s : Fin 6 → ℚ) : Prop :=
  (∀ v ∈ f, plain v.x = true ∧ plain v.y = true ∧ plain v.z = true) ∧ ∀ i, plain (s i) = true

/-- A finished calculation: parameters, the iterations before the last one, the last one, and whether symmetrized
properties are saved. -/
structure Run where
  name : String
  params : Params
  before : List Data
  last : Data
  sym : Bool

/-- The forces `g` are those of every `n`-th atom of `f`. -/
def EveryNth (n : ℕ) (f g : List (V3 ℚ)) : Prop := ∀ k : ℕ, g[k]? = f[k * n]?

/-- The symmetrized forces and stress of a calculation. -/
def SymOf (projF : List (V3 ℚ) → List (V3 ℚ)) (projS : M3 ℚ → M3 ℚ) (r : Run) (f : List (V3 ℚ)) (s : Fin 6 → ℚ) : Prop :=
  EveryNth r.params.nUnitcells (projF r.last.averageForces) f ∧
    ∀ t, t = projS ⟨⟨r.last.averageStress 0, r.last.averageStress 3, r.last.averageStress 5⟩,
      ⟨r.last.averageStress 3, r.last.averageStress 1, r.last.averageStress 4⟩,
      ⟨r.last.averageStress 5, r.last.averageStress 4, r.last.averageStress 2⟩⟩ →
    s 0 = t.r0.x ∧ s 1 = t.r1.y ∧ s 2 = t.r2.z ∧ s 3 = t.r0.y ∧ s 4 = t.r1.z ∧ s 5 = t.r2.x

/-- The table of a file holds the forces. -/
def ForceTable (y : Yaml) (f : List (V3 ℚ)) : Prop :=
  ∃ rows, y = .list rows ∧ List.Forall₂ (fun r v => ∃ a b c, r = .list [a, b, c] ∧ IsVec ⟨a, b, c⟩ v) rows f

/-- The table of a file holds the stress tensor of six components xx, yy, zz, xy, yz, zx. -/
def StressTable (y : Yaml) (s : Fin 6 → ℚ) : Prop :=
  ForceTable y [⟨s 0, s 3, s 5⟩, ⟨s 3, s 1, s 4⟩, ⟨s 5, s 4, s 2⟩]

/-- The record of a calculation in a data set: symmetrized properties of the unit cell, if they are asked for and saved, and
else properties of the supercell of `n` unit cells. -/
def RunRecord (projF : List (V3 ℚ) → List (V3 ℚ)) (projS : M3 ℚ → M3 ℚ) (symmetrized : Bool) (r : Run) (n : ℕ)
    (x : Record) : Prop :=
  x.cell.st.name = some r.name ∧
  ((symmetrized = true ∧ r.sym = true → SameCrystal x.cell.st r.params.unitcell.st ∧ x.energy * eVinKJ = r.last.free ∧
      ∃ f s, SymOf projF projS r f s ∧ List.Forall₂ IsVec x.forces f ∧ IsTensor x.stress s) ∧
    (symmetrized = false ∨ r.sym = false → SameCrystal x.cell.st r.params.supercell.st ∧
      x.energy * eVinKJ = r.last.free * n ∧ List.Forall₂ IsVec x.forces r.last.averageForces ∧
      IsTensor x.stress fun i => r.last.averageStress i * n))

end Verif.Spec
