import Verif.Model.Phono3py
import Verif.Spec.Construct

/-!
# Specification of data sets of displacements
-/

namespace Verif.Spec
open Phono3py

variable {K : Type}

/-- One sample: displacements and forces of all atoms, and the energy. -/
structure DispSample (K : Type) where
  disp : List (V3 K)
  force : List (V3 K)
  energy : K

/-- Cartesian coordinates: the lattice vectors are the columns of the axes. -/
def cartOf3 [CommRing K] (a : M3 K) (p : V3 K) : V3 K :=
  ⟨a.r0.x * p.x + a.r0.y * p.y + a.r0.z * p.z, a.r1.x * p.x + a.r1.y * p.y + a.r1.z * p.z,
    a.r2.x * p.x + a.r2.y * p.y + a.r2.z * p.z⟩

/-- A calculation for the displaced cell: same cell and elements, every atom moved by its displacement, with the energy
and the forces of the sample and no stress. -/
def SampleCalc [CommRing K] (axis : M3 K) (symbols : List String) (positions : List (V3 K)) (s : DispSample K) (c : Calc K) :
    Prop :=
  c.st.axis = axis ∧ c.st.elements = symbols ∧ c.st.positions.length = positions.length ∧
    (∀ (j : ℕ) p p' u, positions[j]? = some p → c.st.positions[j]? = some p' → s.disp[j]? = some u →
      cartOf3 axis p' = ⟨(cartOf3 axis p).x + u.x, (cartOf3 axis p).y + u.y, (cartOf3 axis p).z + u.z⟩) ∧
    c.energy = s.energy ∧ c.forces = s.force ∧ c.stress = ⟨⟨0, 0, 0⟩, ⟨0, 0, 0⟩, ⟨0, 0, 0⟩⟩

/-- The data set has the samples in their order. -/
def HasSamples [CommRing K] (axis : M3 K) (symbols : List String) (positions : List (V3 K)) (els : List String)
    (ss : List (DispSample K)) (d : Dataset.DFT K) : Prop :=
  ∃ rs, Represents d rs ∧ List.Forall₂ (fun s r => ∃ c, SampleCalc axis symbols positions s c ∧ BuiltFrom els c r) ss rs ∧
    d.elements = els ∧ d.existForce = true ∧ d.existStress = false

/-- The lattice vectors, which phonopy keeps as rows, as columns. -/
def columnsOf (c : M3 K) : M3 K :=
  ⟨⟨c.r0.x, c.r1.x, c.r2.x⟩, ⟨c.r0.y, c.r1.y, c.r2.y⟩, ⟨c.r0.z, c.r1.z, c.r2.z⟩⟩

/-- The file has these samples for the supercell. -/
def FileHas (f : File K) (ss : List (DispSample K)) : Prop :=
  f.displacements = some (ss.map (·.disp)) ∧ f.forces = some (ss.map (·.force)) ∧
    f.energies = some (ss.map (·.energy)) ∧ f.supercell.symbols.length = f.supercell.scaledPositions.length ∧
    ∀ s ∈ ss, s.disp.length = f.supercell.symbols.length ∧ s.force.length = f.supercell.symbols.length

end Verif.Spec
