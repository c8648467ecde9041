import Verif.Model.Py
import Mathlib.Analysis.SpecialFunctions.Log.Basic

/-!
# Molecular dynamics with a reference state

`/repo/src/pypolymlp/calculator/utils/ase_calculator_ref.py` (energies and forces of mixtures of two states),
`/repo/src/pypolymlp/calculator/md/ase_md.py` 270-304 (averages), `/repo/src/pypolymlp/calculator/md/api_md.py`
432-438 (the setter of `alpha`), `/repo/src/pypolymlp/calculator/md/api_ti.py` 67-180 (thermodynamic integration) and
`/repo/src/pypolymlp/calculator/md/md_utils.py` (reference states and quadrature).

Real arithmetic.  Configurations of the atoms are elements of a type `X`; forces are functions of the `m`
Cartesian components.  The integrators of ASE are an arbitrary function from the settings to averages.
-/

namespace Verif.Md

/-- Energy and forces. -/
structure EF (m : ℕ) where
  energy : ℝ
  forces : Fin m → ℝ

/-- What `calculate` stores (`ase_calculator_ref.py` 106-115, 226-236, 381-405). -/
structure Results (m : ℕ) where
  energy : ℝ
  forces : Fin m → ℝ
  delta10 : ℝ
  delta1a : ℝ

/-- `energy1 * alpha + energy0 * (1 - alpha)` and the same for forces. -/
def mixEF {m : ℕ} (alpha : ℝ) (p1 p0 : EF m) : EF m :=
  ⟨p1.energy * alpha + p0.energy * (1 - alpha), fun a => p1.forces a * alpha + p0.forces a * (1 - alpha)⟩

/-- `calculate` for two states (`ase_calculator_ref.py` 211-236, without the stress, which is mixed in the same
way): `p1` is the final state, `p0` is the reference. -/
def calculate {m : ℕ} (alpha : ℝ) (p1 p0 : EF m) : Results m :=
  let p := mixEF alpha p1 p0
  ⟨p.energy, p.forces, p1.energy - p0.energy, p1.energy - p.energy⟩

/-- `_eval_fc2_model` (`ase_calculator_ref.py` 84-88): the harmonic model on top of the static energy. -/
def evalFc2Model {m : ℕ} (static : ℝ) (harmonic : EF m) : EF m := ⟨harmonic.energy + static, harmonic.forces⟩

/-- `PolymlpFC2ASECalculator.calculate` (`ase_calculator_ref.py` 90-115). -/
def calculateFc2 {X : Type} {m : ℕ} (alpha : ℝ) (pot harmonic : X → EF m) (x0 x : X) : Results m :=
  calculate alpha (pot x) (evalFc2Model (pot x0).energy (harmonic x))

/-- `PolymlpGeneralRefASECalculator.calculate` (`ase_calculator_ref.py` 349-405). -/
def calculateGeneral {X : Type} {m : ℕ} (alpha alphaFinal alphaRef : ℝ) (final ref harmonic : X → EF m) (x0 x : X) :
    Results m :=
  calculate alpha
    (mixEF alphaFinal (final x) (evalFc2Model (final x0).energy (harmonic x)))
    (mixEF alphaRef (ref x) (evalFc2Model (ref x0).energy (harmonic x)))

/-- A calculator of ASE with its cache: the configuration of the last calculation and its results.
`alpha` is the mixing parameter. -/
structure Cache (X R : Type) where
  alpha : ℝ
  last : Option (X × R)

/-- The setter of `alpha` (`api_md.py` 432-438): out of range, an exception object is made but not raised.  The
results of the last calculation stay. -/
def setAlpha {X R : Type} (a : ℝ) (c : Cache X R) : Cache X R := { c with alpha := a }

open Classical in
/-- `Calculator.get_property` of ASE, as documented there: the stored results are returned as long as the atoms do
not change; otherwise `calculate` is called.  (ASE is not part of the repository.) -/
noncomputable def getResults {X R : Type} (calcAt : ℝ → X → R) (x : X) (c : Cache X R) : R × Cache X R :=
  match c.last with
  | some (y, r) => if y = x then (r, c) else (calcAt c.alpha x, ⟨c.alpha, some (x, calcAt c.alpha x)⟩)
  | none => (calcAt c.alpha x, ⟨c.alpha, some (x, calcAt c.alpha x)⟩)

/-- `np.average`.  For an empty list the value is not the one of numpy, which is `nan`. -/
noncomputable def average (l : List ℝ) : ℝ := l.sum / l.length

/-- `heat_capacity_eV` (`ase_md.py` 276-281). -/
noncomputable def heatCapacityEV (kb temp : ℝ) (energies : List ℝ) : ℝ :=
  if |temp| ≤ 1 / 10 ^ 8 then 0
  else (average (energies.map fun e => e ^ 2) - average energies ^ 2) / kb / temp ^ 2

/-- `heat_capacity` (`ase_md.py` 282-283). -/
noncomputable def heatCapacity (kb evToJ avogadro temp : ℝ) (nAtoms : ℕ) (energies : List ℝ) : ℝ :=
  heatCapacityEV kb temp energies * (evToJ * avogadro / nAtoms)

/-- `-np.log(np.average(np.exp(-beta * energy_slice))) / beta` (`ase_md.py` 301-302). -/
noncomputable def perturbAt (beta : ℝ) (deltas : List ℝ) : ℝ :=
  -Real.log (average (deltas.map fun d => Real.exp (-beta * d))) / beta

/-- `free_energy_perturb` (`ase_md.py` 300-302), with `beta = KbEV * temperature`. -/
noncomputable def freeEnergyPerturb (kb temp : ℝ) (deltas : List ℝ) : ℝ := perturbAt (kb * temp) deltas

/-- The averages of `_calc_averages` (`ase_md.py` 270-304) that thermodynamic integration uses. -/
structure Averages where
  energy : ℝ
  total : ℝ
  displacement : ℝ
  delta10 : ℝ
  delta1a : ℝ
  perturb : ℝ

/-- What the observers stored during a run. -/
structure Samples where
  energies : List ℝ
  totals : List ℝ
  displacements : List ℝ
  deltas10 : List ℝ
  deltas1a : List ℝ

/-- `_calc_averages` (`ase_md.py` 270-304). -/
noncomputable def calcAverages (kb temp : ℝ) (nEq : ℕ) (s : Samples) : Averages where
  energy := average (s.energies.drop nEq)
  total := average (s.totals.drop nEq)
  displacement := average (s.displacements.drop nEq)
  delta10 := average (s.deltas10.drop nEq)
  delta1a := average (s.deltas1a.drop nEq)
  perturb := freeEnergyPerturb kb temp (s.deltas1a.drop nEq)

/-- `get_p_roots` (`md_utils.py` 46-50) from the nodes and weights of `scipy.special.p_roots`. -/
noncomputable def pRoots (x w : List ℝ) (a b : ℝ) : List ℝ × List ℝ :=
  (x.map fun t => (1 / 2 * (b - a)) * t + 1 / 2 * (a + b), w)

/-- `calc_integral` (`md_utils.py` 53-60). -/
noncomputable def calcIntegral (w f : List ℝ) (a b : ℝ) : ℝ := (1 / 2 * (b - a)) * (List.zipWith (· * ·) w f).sum

/-- The results of `PolymlpTI`. -/
structure TI where
  log : List (ℝ × Averages)
  freeEnergy : ℝ
  energy : ℝ
  entropy : ℝ
  perturb : ℝ
  perturbOrder1 : ℝ

/-- `_calc_energy_entropy` (`api_ti.py` 171-180). -/
noncomputable def energyEntropy (temp freeEnergy eFinal eRef : ℝ) : ℝ × ℝ :=
  if |temp| ≤ 1 / 10 ^ 8 then (0, 0)
  else (eFinal - eRef, (eFinal - eRef - freeEnergy) / temp)

/-- `run_thermodynamic_integration` (`api_ti.py` 67-132).  `md k alpha nSteps` are the averages of the run with
number `k`. -/
noncomputable def runTI (md : ℕ → ℝ → ℕ → Averages) (x w : List ℝ) (maxAlpha temp : ℝ) (nSteps : ℕ) : TI :=
  let r := pRoots x w 0 maxAlpha
  let log := r.1.zipIdx.map fun p => (p.1, md p.2 p.1 nSteps)
  let de := log.map fun l => l.2.delta10
  let freeEnergy := calcIntegral r.2 de 0 maxAlpha
  let first := md x.length 0 (nSteps * 3)
  let last := md (x.length + 1) maxAlpha (nSteps * 3)
  let es := energyEntropy temp freeEnergy last.energy first.energy
  ⟨(0, first) :: (log ++ [(maxAlpha, last)]), freeEnergy, es.1, es.2, last.perturb, last.delta1a⟩

/-- The parts of a `sscha_results.yaml` that `find_reference` reads, with the path of its force constants. -/
structure RefState where
  path : String
  converge : Bool
  imaginary : Bool
  temp : ℚ
  deriving DecidableEq

/-- The loop of `find_reference` (`md_utils.py` 10-43) over the sorted paths. -/
def findLoop : List RefState → Option (RefState × ℚ) → Option (RefState × ℚ)
  | [], best => best
  | s :: rest, best =>
    if !s.converge then findLoop rest best
    else if s.imaginary then findLoop rest best
    else if |s.temp| ≤ 1 / 10 ^ 8 then some (s, 0)
    else if s.temp < (best.map Prod.snd).getD (10 ^ 10) then findLoop rest (some (s, s.temp))
    else findLoop rest best

/-- `find_reference` (`md_utils.py` 10-43). -/
def findReference (states : List RefState) (target : ℚ) : Except Err RefState :=
  match findLoop states none with
  | none => .error .runtimeError
  | some (s, t) => if target + 1 / 10 ^ 8 < t then .error .runtimeError else .ok s

end Verif.Md
