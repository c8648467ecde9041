import Verif.Model.Py
import Mathlib.Data.Real.Basic
import Mathlib.Tactic.NormNum

/-!
# Loading results of thermodynamic integration

`/repo/src/pypolymlp/calculator/thermodynamics/ti_utils.py` 14-52, 75-245.

Real arithmetic.  The parsed yaml file is given.  `scipy.integrate.simpson` is the one of scipy 1.11 and later, with its
rules for intervals of length zero.  Printing is left out, and so is `_extrapolate_data_polynomial` (lines 55-72), which
is not called.
-/

namespace Verif.TiLoad

/-- An entry of the list of sampling points. -/
structure Sample where
  alpha : ℝ
  deltaE : ℝ
  energy : ℝ
  displacement : ℝ

/-- The entries of the yaml file that are read (`ti_utils.py` 172-194). -/
structure Yaml where
  nAtom : ℕ
  temperature : ℝ
  volume : ℝ
  energy : Option ℝ
  deltaEnergies : Option (List Sample)
  samplingPoints : Option (List Sample)

/-- `_is_success` (`ti_utils.py` 14-18). -/
noncomputable def isSuccess (eng : ℝ) : Bool := open Classical in if eng < -100 then false else true

/-- The loop for jumps of the displacements (`ti_utils.py` 30-38), from the last value that was accepted. -/
noncomputable def jumps (prev : ℝ) : List ℝ → List Bool
  | [] => []
  | d :: ds => open Classical in if |d - prev| > 5 / 100 then true :: jumps prev ds else false :: jumps d ds

/-- `_check_melting` (`ti_utils.py` 21-40). -/
noncomputable def checkMelting (disps : List ℝ) : Except Err (List Bool) :=
  match disps with
  | [] => .error .indexError
  | d0 :: ds => open Classical in
    if |d0| ≤ 1 / 10 ^ 8 then .ok ((d0 :: ds).map fun _ => false)
    else
      let bool1 := (d0 :: ds).map fun d => decide (d / d0 > 2)
      let bool2 := false :: jumps d0 ds
      .ok (List.zipWith (· || ·) bool1 bool2)

/-- The sums over pairs of intervals of `scipy.integrate.simpson`.  A quotient with divisor zero is zero there, as it is
here. -/
noncomputable def simpsonPairs : List (ℝ × ℝ) → ℝ
  | p0 :: p1 :: p2 :: rest =>
    let h0 := p1.1 - p0.1
    let h1 := p2.1 - p1.1
    (h0 + h1) / 6 * (p0.2 * (2 - 1 / (h0 / h1)) + p1.2 * ((h0 + h1) * ((h0 + h1) / (h0 * h1))) + p2.2 * (2 - h0 / h1)) +
      simpsonPairs (p2 :: rest)
  | _ => 0

/-- The last interval of `scipy.integrate.simpson` for an even number of points, with the points in reverse order. -/
noncomputable def simpsonLast : List (ℝ × ℝ) → ℝ
  | [p1, p0] => 1 / 2 * (p1.1 - p0.1) * (p1.2 + p0.2)
  | p2 :: p1 :: p0 :: _ =>
    let h0 := p1.1 - p0.1
    let h1 := p2.1 - p1.1
    (2 * h1 ^ 2 + 3 * h0 * h1) / (6 * (h1 + h0)) * p2.2 + (h1 ^ 2 + 3 * h0 * h1) / (6 * h0) * p1.2 -
      h1 ^ 3 / (6 * h0 * (h0 + h1)) * p0.2
  | _ => 0

/-- `integrate` with `method="simpson"` (`ti_utils.py` 50-51). -/
noncomputable def simpson (l : List (ℝ × ℝ)) : ℝ :=
  if l.length % 2 = 0 then simpsonPairs l + simpsonLast l.reverse else simpsonPairs l

/-- `integrate` with `method="trapezoid"` (`ti_utils.py` 48-49). -/
noncomputable def trapezoid : List (ℝ × ℝ) → ℝ
  | p :: q :: rest => (q.1 - p.1) * (p.2 + q.2) / 2 + trapezoid (q :: rest)
  | _ => 0

/-- `integrate` (`ti_utils.py` 43-52). -/
noncomputable def integrate (method : String) (l : List (ℝ × ℝ)) : Except Err ℝ :=
  if method = "trapezoid" then .ok (trapezoid l)
  else if method = "simpson" then .ok (simpson l)
  else .error .runtimeError

/-- `data[-n_points:]` with `n_points = 3` and `is_melt[-3:]` (`ti_utils.py` 77, 201). -/
def lastThree {α : Type} (l : List α) : List α := l.drop (l.length - 3)

/-- `solver_ridge` with `alphas=(1e-10,)` for the columns 1 and `x` (`ti_utils.py` 78-81, `standard/solvers.py` 48-84):
the solution of the normal equations, whose matrix is positive definite. -/
noncomputable def ridgeLine (l : List (ℝ × ℝ)) : ℝ × ℝ :=
  let lam : ℝ := 1 / 10 ^ 10
  let a := l.length + lam
  let b := (l.map Prod.fst).sum
  let d := (l.map fun p => p.1 * p.1).sum + lam
  let u := (l.map Prod.snd).sum
  let v := (l.map fun p => p.1 * p.2).sum
  ((d * u - b * v) / (a * d - b * b), (a * v - b * u) / (a * d - b * b))

/-- `_extrapolate_data` (`ti_utils.py` 75-87): the sum of the coefficients. -/
noncomputable def extrapolate (l : List (ℝ × ℝ)) : ℝ :=
  let c := ridgeLine (lastThree l)
  c.1 + c.2

/-- `_get_free_energy` (`ti_utils.py` 90-101) with `method="simpson"`. -/
noncomputable def getFreeEnergy (log : List Sample) (extrapolation : Bool) : ℝ :=
  let data := log.map fun s => (s.alpha, s.deltaE)
  simpson (if extrapolation then data ++ [(1, extrapolate data)] else data)

/-- `_get_energy` (`ti_utils.py` 104-112); the list is not empty. -/
noncomputable def getEnergy (log : List Sample) (extrapolation : Bool) : ℝ :=
  let data := log.map fun s => (s.alpha, s.energy)
  let e0 := ((data.head?.map Prod.snd).getD 0)
  (if extrapolation then extrapolate data else (data.getLast?.map Prod.snd).getD 0) - e0

/-- `DataTI` (`ti_utils.py` 146-155). -/
structure DataTI where
  volume : ℝ
  temperature : ℝ
  freeEnergy : ℝ
  energy : ℝ
  entropy : ℝ
  log : List Sample

/-- `_get_properties` (`ti_utils.py` 115-143) and `DataTI` (221-228, 237-244). -/
noncomputable def getProperties (y : Yaml) (log : List Sample) (extrapolation : Bool) : DataTI :=
  let f := getFreeEnergy log extrapolation / y.nAtom
  let e := getEnergy log extrapolation / y.nAtom
  { volume := y.volume / y.nAtom
    temperature := y.temperature
    freeEnergy := f
    energy := e
    entropy := open Classical in if |y.temperature| ≤ 1 / 10 ^ 8 then 0 else (e - f) / y.temperature
    log := log }

/-- The list of sampling points (`ti_utils.py` 177-182). -/
def samples (y : Yaml) : Except Err (List Sample) :=
  match y.deltaEnergies, y.samplingPoints with
  | some l, _ => .ok l
  | none, some l => .ok l
  | none, none => .error .runtimeError

/-- The energy for the check of failed simulations (`ti_utils.py` 184-188). -/
noncomputable def checkedEnergy (y : Yaml) (log : List Sample) : Except Err ℝ :=
  match y.energy with
  | some e => .ok e
  | none =>
    match log.head?, log.getLast? with
    | some a, some b => .ok ((b.energy - a.energy) / y.nAtom)
    | _, _ => .error .indexError

/-- `load_ti_yaml` (`ti_utils.py` 158-245): the properties and the extrapolated properties, or `None`. -/
noncomputable def load (y : Yaml) : Except Err (Option (DataTI × DataTI)) := do
  if y.nAtom = 0 then throw .zeroDivision
  let log ← samples y
  let energy ← checkedEnergy y log
  if isSuccess energy = false then return none
  let isMelt ← checkMelting (log.map Sample.displacement)
  if 5 * isMelt.count true > isMelt.length then return none
  if isMelt.any id && (lastThree isMelt).all id then return none
  let active := ((log.zip isMelt).filter fun p => !p.2).map Prod.fst
  return some (getProperties y active false, getProperties y active true)

end Verif.TiLoad
