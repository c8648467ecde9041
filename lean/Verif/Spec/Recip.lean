import Verif.Model.Recip

/-!
# Results of one set of force constants

Specification side.
-/

namespace Verif.Spec
open Verif.Recip

variable {FC Ms M D P : Type}

/-- More than one frequency in 100000 is below -0.01 THz. -/
def ManyImaginary (l : List ℝ) : Prop := ∃ k : List ℝ, k.Sublist l ∧ (∀ f ∈ k, f < -(1 / 100)) ∧ l.length < 10 ^ 5 * k.length

/-- The harmonic results of force constants at a temperature. -/
def DataOf (ext : Ext FC Ms M D P) (q : Ms) (f : FC) (temp : ℝ) (d : Data) : Prop :=
  d.temp = temp ∧ d.th = ext.thermal (ext.mesh f q false) temp ∧
    (d.imaginary = true ↔ ManyImaginary (ext.freq (ext.mesh f q false)))

/-- The files of a temperature belong to one set of force constants. -/
def OneSet (ext : Ext FC Ms M D P) (q : Ms) (f : FC) (temp : ℝ) (pdos : Bool) (x : Files FC D P) : Prop :=
  x.fc2 = f ∧ DataOf ext q f temp x.data ∧ x.dos = ext.dos (ext.mesh f q false) ∧
    x.pdos = if pdos then some (ext.pdos (ext.mesh f q true)) else none

end Verif.Spec
