import Verif.Model.Thermo
import Verif.Spec.Round

/-!
# Data on a grid of volumes and temperatures

Specification side.
-/

namespace Verif.Spec

open Verif.Thermo

/-- `v` is `x` rounded to three decimals. -/
def Rounded3 (x v : ℚ) : Prop := ∃ k : ℤ, IsRoundHalfEven (x * 1000) k ∧ v = k / 1000

/-- A volume and a temperature belong to a grid point. -/
def OnGrid (volume temperature v : ℚ) (t : ℤ) : Prop := Rounded3 volume v ∧ Rounded3 temperature t

/-- The last element of a list with a property. -/
def LastWith {α : Type} (P : α → Prop) (l : List α) (x : α) : Prop :=
  ∃ l1 l2, l = l1 ++ x :: l2 ∧ P x ∧ ∀ y ∈ l2, ¬ P y

/-- At least `n` elements of a list have a property. -/
def AtLeast {α : Type} (n : ℕ) (P : α → Prop) (l : List α) : Prop :=
  ∃ l' : List α, l'.Sublist l ∧ n ≤ l'.length ∧ ∀ x ∈ l', P x

/-- The last SSCHA result for a grid point. -/
def LastSscha (fs : List SschaFile) (v : ℚ) (t : ℤ) (s : SschaFile) : Prop :=
  LastWith (fun s => OnGrid (s.volume / s.nAtom) s.temperature v t) fs s

/-- All entries of the files for electrons. -/
def electronEntries (fs : List ElectronFile) : List (ElectronFile × ElectronProp) :=
  fs.flatMap fun e => e.props.map fun p => (e, p)

/-- The last entry for electrons for a grid point. -/
def LastElectron (fs : List ElectronFile) (v : ℚ) (t : ℤ) (e : ElectronFile) (p : ElectronProp) : Prop :=
  LastWith (fun x => OnGrid (x.1.volume / x.1.nAtom) x.2.temperature v t) (electronEntries fs) (e, p)

/-- The thermodynamic integrations that succeeded, with the paths of their files; `which` selects the result with or
without extrapolation. -/
def tiEntries (which : DataTI × DataTI → DataTI) (fs : List TiFile) : List (String × DataTI) :=
  fs.filterMap fun f => match f.result with
    | .ok (some r) => some (f.path, which r)
    | _ => none

/-- The last thermodynamic integration for a grid point. -/
def LastTi (which : DataTI × DataTI → DataTI) (fs : List TiFile) (v : ℚ) (t : ℤ) (path : String) (d : DataTI) : Prop :=
  LastWith (fun x => OnGrid x.2.volume x.2.temperature v t) (tiEntries which fs) (path, d)

/-- An SSCHA calculation succeeded. -/
def Good (s : SschaFile) : Prop := s.converge = true ∧ s.imaginary = false

/-- Every kind of data that is given has at least `n` results that satisfy a condition on their volumes (per atom) and
temperatures. -/
def EveryKind (f : Files) (n : ℕ) (P : ℚ → ℚ → Prop) : Prop :=
  AtLeast n (fun s : SschaFile => Good s ∧ P (s.volume / s.nAtom) s.temperature) f.sscha ∧
  (∀ fs, f.electron = some fs →
    AtLeast n (fun x : ElectronFile × ElectronProp => P (x.1.volume / x.1.nAtom) x.2.temperature) (electronEntries fs)) ∧
  (∀ fs, f.ti = some fs → AtLeast n (fun x : String × DataTI => P x.2.volume x.2.temperature) (tiEntries Prod.fst fs)) ∧
  (∀ fs, f.electronPhonon = some fs →
    AtLeast n (fun x : ElectronFile × ElectronProp => P (x.1.volume / x.1.nAtom) x.2.temperature) (electronEntries fs))

/-- Free energy (eV per atom) and entropy (eV/K per atom) of the last SSCHA result for a grid point, if it
succeeded. -/
def SschaTerm (kj : ℝ) (fs : List SschaFile) (v : ℚ) (t : ℤ) (x : Option (ℝ × ℝ)) : Prop :=
  (∃ s, LastSscha fs v t s ∧ Good s ∧
    x = some ((s.free + s.static) / (kj * s.nAtom), s.entropy / (1000 * kj * s.nAtom))) ∨
  ((∀ s, LastSscha fs v t s → ¬ Good s) ∧ x = none)

/-- Free energy and entropy per atom of the electrons. -/
def ElectronTerm (fs : List ElectronFile) (v : ℚ) (t : ℤ) (x : Option (ℝ × ℝ)) : Prop :=
  (∃ e p, LastElectron fs v t e p ∧ x = some (p.free / e.nAtom, p.entropy / e.nAtom)) ∨
  ((∀ e p, ¬ LastElectron fs v t e p) ∧ x = none)

/-- Free energy and entropy differences of the thermodynamic integration. -/
def TiTerm (which : DataTI × DataTI → DataTI) (fs : List TiFile) (v : ℚ) (t : ℤ) (x : Option (ℝ × ℝ)) : Prop :=
  (∃ path d, LastTi which fs v t path d ∧ x = some (d.free, d.entropy)) ∨
  ((∀ path d, ¬ LastTi which fs v t path d) ∧ x = none)

/-- Free energy, with the static energy, and entropy of the harmonic reference of a thermodynamic integration. -/
def ReferenceTerm (kj : ℝ) (harm : Harmonic) (refPath : ℚ → String → Option String) (ss : List SschaFile)
    (fs : List TiFile) (v : ℚ) (t : ℤ) (x : Option (ℝ × ℝ)) : Prop :=
  (∃ path d s, LastTi Prod.fst fs v t path d ∧ LastSscha ss v t s ∧
    x = some ((harm s (refPath d.volume path) d.temperature).1 / (kj * s.nAtom) + s.static / (kj * s.nAtom),
      (harm s (refPath d.volume path) d.temperature).2.1 / (1000 * kj * s.nAtom))) ∨
  ((∀ path d, ¬ LastTi Prod.fst fs v t path d) ∧ x = none)

/-- A grid point has free energy and entropy `x`, or neither. -/
def HasFS (p : Point) (x : Option (ℝ × ℝ)) : Prop :=
  p.val .freeEnergy = x.map Prod.fst ∧ p.val .entropy = x.map Prod.snd

/-- The sum of contributions, if none is missing. -/
def plus : Option (ℝ × ℝ) → Option (ℝ × ℝ) → Option (ℝ × ℝ)
  | some x, some y => some (x.1 + y.1, x.2 + y.2)
  | _, _ => none

/-- Contributions are added. -/
def Plus (T1 T2 : ℚ → ℤ → Option (ℝ × ℝ) → Prop) (v : ℚ) (t : ℤ) (z : Option (ℝ × ℝ)) : Prop :=
  ∃ x y, T1 v t x ∧ T2 v t y ∧ z = plus x y

/-- A grid over some volumes and temperatures holds the free energies and entropies `T`. -/
def GridHolds (volumes : List ℚ) (temps : List ℤ) (g : Grid) (T : ℚ → ℤ → Option (ℝ × ℝ) → Prop) : Prop :=
  g.volumes = volumes ∧ g.temps = temps ∧
  ∀ (i j : ℕ) v t, volumes[i]? = some v → temps[j]? = some t → ∃ x, T v t x ∧ HasFS (g.cell i j) x

/-- At some point of the grid there is a result of thermodynamic integration and no SSCHA result. -/
def TiWithoutSscha (f : Files) : Prop :=
  ∃ ts, f.ti = some ts ∧ ∃ v t, EveryKind f 10 (fun vol _ => Rounded3 vol v) ∧
    EveryKind f 1 (fun _ temp => IsRoundHalfEven temp t) ∧
    ((∃ path d, LastTi Prod.fst ts v t path d) ∨ ∃ path d, LastTi Prod.snd ts v t path d) ∧
    ∀ s, ¬ LastSscha f.sscha v t s

end Verif.Spec
