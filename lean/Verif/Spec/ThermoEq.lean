import Verif.Spec.Thermo
import Verif.Spec.Polyfit

/-!
# Equilibrium properties

Specification side.
-/

namespace Verif.Spec

open Verif.Thermo

/-- The volumes and values of a property at one temperature, where it is known. -/
def pointsAt (g : Grid) (a : Attr) (j : ℕ) : List (ℚ × ℝ) :=
  (List.range g.volumes.length).filterMap fun i =>
    match (g.cell i j).volume, (g.cell i j).val a with
    | some v, some x => some (v, x)
    | _, _ => none

/-- A polynomial of order two to six that fits the points best. -/
def PolynomialFit (l : List (ℚ × ℝ)) (p : ℝ → ℝ) : Prop :=
  ∃ order, 2 ≤ order ∧ order ≤ 6 ∧
    BestFit (n := l.length) (Family order true true false) (fun i => ((l.get i).1 : ℝ)) (fun i => (l.get i).2)
      (fun _ => 1) p

/-- The equilibrium at one temperature: an equation of state was fitted, its volume is at most 1.2 times the largest
volume and its bulk modulus is not too small. -/
def Equilibrium (g : Grid) (eos : List (ℚ × ℝ) → Option Eos) (j : ℕ) (e : Eos) : Prop :=
  eos (pointsAt g .freeEnergy j) = some e ∧ (∃ v ∈ g.volumes, e.v0 ≤ 12 / 10 * (v : ℝ)) ∧ 1 / 1000 ≤ e.b0

end Verif.Spec
