import Verif.Model.MdApi

/-! # What is asked of sessions of molecular dynamics -/

namespace Verif.Spec
open Verif.MdApi

variable {S A P F G : Type}

/-- A thermostat that exists. -/
def KnownThermostat (a : RunArgs) : Prop := a.thermostat = "Nose-Hoover" ∨ a.thermostat = "Langevin"

/-- An operation that starts a simulation in a session. -/
def StartsRun (s : Session S A P F G) : Op S P F → Prop
  | .run a => KnownThermostat a ∧ s.atoms ≠ none ∧ s.clc ≠ none
  | _ => False

/-- An operation that gives new atoms to a session. -/
def GivesAtoms : Op S P F → Prop
  | .loadPoscar _ => True
  | .setSupercell _ => True
  | .supercell _ => True
  | .run _ => True
  | _ => False

/-- An operation that gives a new calculator, or a new mixing parameter, to a session. -/
def GivesCalculator : Op S P F → Prop
  | .plain _ => True
  | .fc2 .. => True
  | .ref .. => True
  | .general .. => True
  | .calculator _ => True
  | .alpha _ => True
  | _ => False

/-- Calculators that compare a potential with a reference. -/
def hasReference : Kind S P F → Bool
  | .plain _ => false
  | .fc2 .. => true
  | .ref .. => true
  | .general .. => true

/-- Calculators with harmonic reference positions, from which displacements are measured. -/
def hasFc2 : Kind S P F → Bool
  | .plain _ => false
  | .fc2 .. => true
  | .ref .. => false
  | .general .. => true

/-- The mean of numbers, of which there is at least one. -/
def MeanOf (l : List ℝ) (m : ℝ) : Prop := l ≠ [] ∧ m * l.length = l.sum

/-- The averages of a simulation are means over the frames after equilibration. -/
structure MeansOf (frames : List (Frame A G)) (nEq : ℕ) (withRef withFc2 : Bool) (m : Avg) : Prop where
  energy : MeanOf ((frames.drop nEq).map (·.energy)) m.energy
  total : MeanOf ((frames.drop nEq).map (·.total)) m.total
  displacement : if withFc2 then ∃ d, m.displacement = some d ∧ MeanOf ((frames.drop nEq).map (·.displacement)) d
    else m.displacement = none
  delta10 : if withRef then ∃ d, m.delta10 = some d ∧ MeanOf ((frames.drop nEq).map (·.delta10)) d else m.delta10 = none
  delta1a : if withRef then ∃ d, m.delta1a = some d ∧ MeanOf ((frames.drop nEq).map (·.delta1a)) d else m.delta1a = none

/-- Simulations one after another, each for a mixing parameter and a number of steps: each starts from the atoms that the one
before has left. -/
inductive Sims (ext : Ext S A P F G) (k : Kind S P F) (a : RunArgs) : ℕ → A → List (ℝ × ℕ) → List (Outcome A G) → Prop
  | nil (n : ℕ) (x : A) : Sims ext k a n x [] []
  | cons (n : ℕ) (x : A) (al : ℝ) (steps : ℕ) (rest : List (ℝ × ℕ)) (os : List (Outcome A G)) :
      Sims ext k a (n + 1) (ext.md n ⟨k, some al⟩ { a with nSteps := steps } x).atoms rest os →
      Sims ext k a n x ((al, steps) :: rest) (ext.md n ⟨k, some al⟩ { a with nSteps := steps } x :: os)

/-- The dynamics of ASE as documented: a run of `n` steps has `n + 1` frames unless it fails. -/
def AllFrames (ext : Ext S A P F G) : Prop :=
  ∀ n c a x, (ext.md n c a x).error = none → (ext.md n c a x).frames.length = a.nEq + a.nSteps + 1

/-- A line of the log of an integration belongs to a simulation that has not failed, with its mixing parameter and its means. -/
structure LogOf (k : Kind S P F) (nEq : ℕ) (al : ℝ) (o : Outcome A G) (l : Log) : Prop where
  succeeded : o.error = none
  alpha : l.alpha = some al
  means : ∃ m, MeansOf o.frames nEq (hasReference k) (hasFc2 k) m ∧ l.energy = some m.energy ∧ l.total = some m.total ∧
    l.displacement = m.displacement ∧ l.delta10 = m.delta10 ∧ l.order1 = m.delta1a

end Verif.Spec
