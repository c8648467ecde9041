import Verif.Model.Py
import Mathlib.Analysis.Normed.Module.Basic
import Mathlib.Data.Real.Basic

/-!
# The SSCHA iterations

`/repo/src/pypolymlp/calculator/sscha/sscha_core.py` 201-342 (`_convergence_score`, `_single_iter`, `_final_iter`,
`precondition`, `run`) and `/repo/src/pypolymlp/calculator/sscha/api_sscha.py` 132-172 (`_run_precondition`,
`_run_target_sscha`).

Second-order force constants are vectors of a real normed space `V`, whose norm is the Frobenius norm computed by
`np.linalg.norm`.  What happens between two updates (drawing displacements, evaluating the potential, computing
thermodynamic properties, fitting force constants) is the function `World.step`; its first argument counts the
calls, so that different calls can draw different samples.  Printing is left out.
-/

namespace Verif.Sscha

/-- A floating-point number as far as the convergence score needs it: `x / 0` is `inf`, and `0 / 0` is `nan`. -/
inductive Score where
  | nan
  | inf
  | val (r : ℝ)

/-- `delta > tol`. -/
def Score.gt : Score → ℝ → Prop
  | .nan, _ => False
  | .inf, _ => True
  | .val r, t => t < r

/-- `delta < tol`. -/
def Score.lt : Score → ℝ → Prop
  | .nan, _ => False
  | .inf, _ => False
  | .val r, t => r < t

/-- `norm1 / norm2` for numbers that are not negative. -/
noncomputable def Score.div (a b : ℝ) : Score :=
  open Classical in if b = 0 then (if a = 0 then .nan else .inf) else .val (a / b)

/-- `SSCHAData` (`sscha_data.py` 10-62): the temperature, the thermodynamic properties, and the fields set
later. -/
structure Data (P : Type) where
  temp : ℝ
  props : P
  delta : Option Score
  converge : Option Bool

/-- The part of `SSCHAParams` that is used here. -/
structure Config where
  mixing : ℝ
  tol : ℝ
  maxIter : ℕ
  nSamplesInit : ℕ
  nSamplesFinal : ℕ

/-- Sampling with force constants: the properties, and the force constants fitted to the samples. -/
structure World (V P : Type) where
  step : ℕ → ℝ → ℕ → V → P × V

/-- The members of `SSCHACore` that change.  `_data_current` is the last entry of `_sscha_log`: it is the same
object, and both are read only after an iteration.  `calls` counts the calls of `HarmonicReal.run`. -/
structure State (V P : Type) where
  fc2 : Option V
  log : List (Data P)
  calls : ℕ

variable {V P : Type} [NormedAddCommGroup V] [NormedSpace ℝ V]

/-- `_convergence_score` (`sscha_core.py` 201-205). -/
noncomputable def convergenceScore (init update : V) : Score := Score.div ‖update - init‖ ‖init‖

/-- `_single_iter` (`sscha_core.py` 207-221), for force constants that are set. -/
noncomputable def singleIter (c : Config) (w : World V P) (temp : ℝ) (n : ℕ) (fc2 : V) (st : State V P) :
    State V P :=
  let r := w.step st.calls temp n fc2
  let mixed := c.mixing • r.2 + (1 - c.mixing) • fc2
  ⟨some mixed, st.log ++ [⟨temp, r.1, some (convergenceScore mixed r.2), none⟩], st.calls + 1⟩

/-- `_final_iter` (`sscha_core.py` 223-229). -/
def finalIter (w : World V P) (temp : ℝ) (n : ℕ) (fc2 : V) (st : State V P) : State V P :=
  ⟨some fc2, st.log ++ [⟨temp, (w.step st.calls temp n fc2).1, none, none⟩], st.calls + 1⟩

/-- `self._data_current.delta` after an iteration. -/
def lastDelta (st : State V P) : Score := ((st.log.getLast?.bind Data.delta).getD .nan)

/-- Assignments to `self._data_current`, i.e. to the last entry of the log. -/
def setCurrent (f : Data P → Data P) (st : State V P) : State V P :=
  { st with log := st.log.dropLast ++ (st.log.getLast?.map f).toList }

open Classical in
/-- The loop of `run` (`sscha_core.py` 307-320), with `n_iter` and `delta` as arguments. -/
noncomputable def loop (c : Config) (w : World V P) (temp : ℝ) (n : ℕ) (delta : Score) (fc2 : V)
    (st : State V P) : V × Score × State V P :=
  if h : (n ≤ c.maxIter ∧ delta.gt c.tol) ∨ n < 3 then
    let st := singleIter c w temp c.nSamplesInit fc2 st
    loop c w temp (n + 1) (lastDelta st) (st.fc2.getD fc2) st
  else (fc2, delta, st)
termination_by max c.maxIter 2 + 1 - n
decreasing_by omega

open Classical in
/-- `run` after the loop (`sscha_core.py` 322-342). -/
noncomputable def conclude (c : Config) (w : World V P) (temp : ℝ) (fc2 : V) (delta : Score) (st : State V P) :
    State V P :=
  if delta.lt c.tol then
    let st := finalIter w temp c.nSamplesFinal fc2 st
    setCurrent (fun d => ⟨d.temp, d.props, some delta, some true⟩) st
  else setCurrent (fun d => ⟨d.temp, d.props, d.delta, some false⟩) st

/-- `run` (`sscha_core.py` 293-342).  Without force constants `self._fc2` becomes the object itself, because
`set_initial_force_constants` returns `self`, and the assignment to `self._ph_real.force_constants` fails. -/
noncomputable def run (c : Config) (w : World V P) (temp : ℝ) (initializeHistory : Bool) (st : State V P) :
    Except Err (State V P) :=
  match st.fc2 with
  | none => .error .attributeError
  | some fc2 =>
    let st := if initializeHistory then { st with log := [] } else st
    let r := loop c w temp 1 (.val (10 ^ 10)) fc2 st
    .ok (conclude c w temp r.1 r.2.1 r.2.2)

open Classical in
/-- The loop of `precondition` (`sscha_core.py` 280-291). -/
noncomputable def precLoop (c : Config) (w : World V P) (temp : ℝ) (nSamples maxIter : ℕ) (tol : ℝ) (n : ℕ)
    (delta : Score) (fc2 : V) (st : State V P) : State V P :=
  if n ≤ maxIter ∧ delta.gt tol then
    let st := singleIter c w temp nSamples fc2 st
    precLoop c w temp nSamples maxIter tol (n + 1) (lastDelta st) (st.fc2.getD fc2) st
  else st
termination_by maxIter + 1 - n
decreasing_by omega

/-- `precondition` (`sscha_core.py` 264-291). -/
noncomputable def precondition (c : Config) (w : World V P) (temp : ℝ) (nSamples maxIter : ℕ) (tol : ℝ)
    (st : State V P) : Except Err (State V P) :=
  match st.fc2 with
  | none => .error .attributeError
  | some fc2 => .ok (precLoop c w temp nSamples maxIter tol 1 (.val (10 ^ 10)) fc2 st)

open Classical in
/-- The loop of `_run_precondition` (`api_sscha.py` 141-157). -/
noncomputable def runPrecLoop (c : Config) (w : World V P) (temp : ℝ) (nSamples n : ℕ) (delta : Score)
    (st : State V P) : Except Err (State V P) :=
  if delta.gt (c.tol * 5) ∧ n < 20 then do
    let st ← precondition c w temp (nSamples * n) 5 c.tol st
    runPrecLoop c w temp nSamples (n + 1) (lastDelta st) st
  else .ok st
termination_by 20 - n
decreasing_by omega

/-- `_run_precondition` (`api_sscha.py` 132-157) for the first temperature. -/
noncomputable def runPrecondition (c : Config) (w : World V P) (temp : ℝ) (st : State V P) :
    Except Err (State V P) :=
  runPrecLoop c w temp (max (min (c.nSamplesInit / 50) 100) 5) 1 (.val 1) st

/-- What `save_results` writes for a temperature (`sscha_core.py` 377-385): the log and the force constants. -/
structure Saved (V P : Type) where
  temp : ℝ
  log : List (Data P)
  fc2 : Option V

/-- `_run_target_sscha` (`api_sscha.py` 160-172). -/
noncomputable def runTarget (c : Config) (w : World V P) :
    List ℝ → State V P → Except Err (List (Saved V P) × State V P)
  | [], st => .ok ([], st)
  | t :: ts, st => do
    let st ← run c w t true st
    let r ← runTarget c w ts st
    return (⟨t, st.log, st.fc2⟩ :: r.1, r.2)

end Verif.Sscha
