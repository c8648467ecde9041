import Verif.Model.StrGen

/-!
# Displaced, scaled and distorted structures

Specification side.
-/

namespace Verif.Spec
open Verif.StrGen

/-- The length of a vector. -/
noncomputable def length3 (v : Fin 3 → ℝ) : ℝ := Real.sqrt (v 0 ^ 2 + v 1 ^ 2 + v 2 ^ 2)

/-- The same atoms, in the same order. -/
def SameAtoms (st t : Str) : Prop :=
  t.nAtoms = st.nAtoms ∧ t.elements = st.elements ∧ t.types = st.types ∧ t.positions.length = st.positions.length

/-- `t` is `st` with every atom moved by exactly the distance `d`, in an unchanged cell. -/
def Displaced (d : ℝ) (st t : Str) : Prop :=
  SameAtoms st t ∧ t.axis = st.axis ∧ t.volume = st.volume ∧
    List.Forall₂ (fun p q => length3 (st.axis.mulVec (q - p)) = |d|) st.positions t.positions

/-- `t` is `st` with all lattice vectors multiplied by one factor, for the ratio `eps` of the volumes. -/
def VolumeScaled (eps : ℝ) (st t : Str) : Prop :=
  SameAtoms st t ∧ t.positions = st.positions ∧ t.volume = st.volume * eps ∧
    ∃ c : ℝ, 0 < c ∧ |3 * Real.log c - Real.log eps| ≤ |Real.log eps| / 10 ^ 12 ∧ ∀ i j, t.axis i j = c * st.axis i j

/-- `t` is `st` with its lattice vectors scaled to the ratio `ratio` of the volumes and distorted by at most `disp` in
every component, and with every atom moved by at most `disp` along each cartesian axis of the cell of `st`. -/
def Distorted (disp ratio : ℝ) (st t : Str) : Prop :=
  SameAtoms st t ∧ t.volume = t.axis.det ∧
    (∃ c : ℝ, 0 ≤ c ∧ c ^ 3 = ratio ∧ ∀ i j, |t.axis i j - c * st.axis i j| ≤ disp) ∧
    List.Forall₂ (fun p q => ∀ i, |st.axis.mulVec (q - p) i| ≤ disp) st.positions t.positions

/-- `size` is a supercell of size `c` along the first lattice vector: numbers of cells, at least one, nearest to `c`
times the ratio of the lengths of the first and the other lattice vector. -/
def NearlyIsotropic (st : Str) (c : ℕ) (size : Fin 3 → ℕ) : Prop :=
  ∀ i, 1 ≤ size i ∧
    (|(size i : ℝ) - c * (length3 (fun k => st.axis k 0) / length3 fun k => st.axis k i)| ≤ 1 / 2 ∨
      size i = 1 ∧ c * (length3 (fun k => st.axis k 0) / length3 fun k => st.axis k i) ≤ 1 / 2)

/-- The tags of a sample. -/
def Tagged (base : Option String) (mode : String) (t : Str) : Prop := t.base = base ∧ t.mode = some mode

end Verif.Spec
