import Verif.Model.Sscha

/-!
# The self-consistent iteration

Specification side: the sequence of force constants that linear mixing gives, and the score of a step.  `w.step`
stands for one round of sampling with given force constants: it gives the thermodynamic properties that belong to
them and the force constants fitted to the samples.
-/

namespace Verif.Spec
open Verif.Sscha (World Score)

variable {V P : Type} [NormedAddCommGroup V] [NormedSpace ℝ V]

/-- The force constants after `k` steps of linear mixing: the new ones are `mixing` times the fitted ones plus
`1 - mixing` times the old ones. -/
noncomputable def fcAt (w : World V P) (mixing temp : ℝ) (n seed : ℕ) (fc0 : V) : ℕ → V
  | 0 => fc0
  | k + 1 => mixing • (w.step (seed + k) temp n (fcAt w mixing temp n seed fc0 k)).2 +
      (1 - mixing) • fcAt w mixing temp n seed fc0 k

/-- The force constants fitted to the samples of step `k`. -/
noncomputable def fittedAt (w : World V P) (mixing temp : ℝ) (n seed : ℕ) (fc0 : V) (k : ℕ) : V :=
  (w.step (seed + k) temp n (fcAt w mixing temp n seed fc0 k)).2

/-- The properties that belong to the force constants before step `k`. -/
noncomputable def propsAt (w : World V P) (mixing temp : ℝ) (n seed : ℕ) (fc0 : V) (k : ℕ) : P :=
  (w.step (seed + k) temp n (fcAt w mixing temp n seed fc0 k)).1

/-- The distance of the fitted force constants of step `k` from the mixed ones, relative to the mixed ones. -/
noncomputable def scoreAt (w : World V P) (mixing temp : ℝ) (n seed : ℕ) (fc0 : V) (k : ℕ) : Score :=
  Score.div ‖fittedAt w mixing temp n seed fc0 k - fcAt w mixing temp n seed fc0 (k + 1)‖
    ‖fcAt w mixing temp n seed fc0 (k + 1)‖

end Verif.Spec
