import Verif.Model.Polyfit
import Verif.Model.Eos
import Verif.Model.GridSearch

/-!
# Files of thermodynamic properties and phase transitions

`/repo/src/pypolymlp/calculator/thermodynamics/thermodynamics_io.py`,
`/repo/src/pypolymlp/calculator/thermodynamics/transition.py`,
`/repo/src/pypolymlp/calculator/utils/fit_utils.py` 188-238,
`/repo/src/pypolymlp/calculator/thermodynamics/api_thermodynamics.py` 301-336 (`save`) and
`/repo/src/pypolymlp/api/pypolymlp_thermodynamics.py` 127-188 (`PypolymlpTransition`).

Real arithmetic; numbers are read back as they were printed.  A file is modelled by the data in it, section by section.
`scipy.optimize.fsolve` is an arbitrary function of a function and a starting point.  Printing to the terminal is left
out.
-/

namespace Verif.Transition

open Verif.Eos (Fit arange gibbs)
open Verif.Polyfit (polyval)

/-- An entry that is printed as a number, as `nan` or as `None`. -/
inductive Entry where
  | num (x : ℝ)
  | nan
  | none

/-- An item of `equilibrium_properties`; volume, bulk modulus and free energy can be missing. -/
structure EqItem where
  temperature : ℝ
  eos : Option (ℝ × ℝ × ℝ)
  entropy : Entry
  cp : Entry

/-- The section `data_helmholtz_volume`: the volumes and, for every temperature, the free energies. -/
structure DataSection where
  volumes : List ℚ
  eosData : List (ℝ × List (Option ℝ))

/-- The section `fit_helmholtz_volume`. -/
structure FitSection where
  volumes : List ℚ
  eos : List (ℝ × List ℝ)

/-- A file; sections are missing if writing was interrupted. -/
structure Doc where
  eq : List EqItem
  data : Option DataSection
  fit : Option FitSection
  gibbs : Option (List (ℝ × List ℝ × List ℝ))

/-- What is saved: the grid, the fits of the free energy (`None` before fitting, and for every temperature a fit or
`None`), the entropies and heat capacities at equilibrium (`None` before they are computed) and the free energies of
the grid. -/
structure Source where
  volumes : List ℚ
  temps : List ℝ
  fv : Option (List (Option Fit))
  entropies : Option (List (Option ℝ))
  cp : Option (List (Option ℝ))
  free : ℕ → ℕ → Option ℝ

/-- `models.extract` (`thermodynamics_utils.py` 30-35), the first component. -/
def Source.extract (s : Source) (j : ℕ) : Option Fit :=
  match s.fv with
  | none => none
  | some l => (l[j]?).join

/-- The text for one entropy. -/
def entropyText (evToJmol : ℝ) : Option ℝ → Entry
  | none => .none
  | some x => .num (x * evToJmol)

/-- The text for an entropy (`thermodynamics_io.py` 61-65). -/
def entropyEntry (evToJmol : ℝ) (l : Option (List (Option ℝ))) (j : ℕ) : Entry :=
  match l with
  | none => .none
  | some l => entropyText evToJmol (l[j]?).join

/-- The text for one heat capacity. -/
def cpText : Option ℝ → Entry
  | none => .nan
  | some x => .num x

/-- The text for a heat capacity (`thermodynamics_io.py` 66-69).  Heat capacities are stored in an array of floats:
a missing one is not `None` but `nan`. -/
def cpEntry (l : Option (List (Option ℝ))) (j : ℕ) : Entry :=
  match l with
  | none => .none
  | some l => cpText (l[j]?).join

/-- An item of `equilibrium_properties` (`thermodynamics_io.py` 54-70). -/
def eqItem (evToJmol : ℝ) (s : Source) (p : ℝ × ℕ) : EqItem :=
  ⟨p.1, (s.extract p.2).map fun e => (e.v0, e.b0, e.e0), entropyEntry evToJmol s.entropies p.2, cpEntry s.cp p.2⟩

/-- `np.round(x, 2)`. -/
def round2 (x : ℚ) : ℚ := GridSearch.rint (x * 100) / 100

/-- `np.arange(a, b, 0.01)`. -/
def arange100 (a b : ℚ) : List ℚ := (List.range ⌈(b - a) / (1 / 100)⌉₊).map fun (k : ℕ) => a + k * (1 / 100)

/-- `volumes_tofit` (`thermodynamics_io.py` 81-83). -/
def volumesToFit (volumes : List ℚ) : Except Err (List ℚ) :=
  match volumes with
  | [] => .error .valueError
  | v :: vs =>
    .ok ((arange100 (round2 (vs.foldl min v - 1)) (round2 (vs.foldl max v + 1))).map round2)

/-- A fit that is used; `None` has no methods. -/
def method (e : Option Fit) : Except Err Fit :=
  match e with
  | none => .error .attributeError
  | some e => .ok e

/-- The fits used by `eval_helmholtz_free_energies` and `eval_gibbs_free_energies`
(`thermodynamics_utils.py` 114-116, 152-154). -/
def allFits (s : Source) : Except Err (List Fit) :=
  match s.fv with
  | none => .error .runtimeError
  | some l => l.mapM method

/-- Fitted free energies at one temperature (`thermodynamics_utils.py` 116). -/
noncomputable def fitRow (vs : List ℚ) : Option Fit → List ℝ
  | none => []
  | some e => vs.map fun (v : ℚ) => e.f (v : ℝ)

/-- Pressures and Gibbs free energies at one temperature (`thermodynamics_utils.py` 154). -/
noncomputable def gibbsRow (toGPa : ℝ) (vs : List ℚ) : Option Fit → List ℝ × List ℝ
  | none => ([], [])
  | some e =>
    ((gibbs e.f toGPa (1 / 10000) (vs.map fun (v : ℚ) => (v : ℝ))).map Prod.fst,
      (gibbs e.f toGPa (1 / 10000) (vs.map fun (v : ℚ) => (v : ℝ))).map Prod.snd)

/-- The sections that come after the fits were evaluated (`thermodynamics_io.py` 84-100). -/
noncomputable def lastSections (toGPa : ℝ) (s : Source) (vs : List ℚ) (fits : List Fit) :
    FitSection × List (ℝ × List ℝ × List ℝ) :=
  (⟨vs, s.temps.zipIdx.map fun p => (p.1, fitRow vs fits[p.2]?)⟩,
    s.temps.zipIdx.map fun p => (p.1, gibbsRow toGPa vs fits[p.2]?))

/-- `save_thermodynamics_yaml` (`thermodynamics_io.py` 31-101): what is in the file and whether an exception was
raised.  The lists of fits, entropies and heat capacities have one item for each temperature. -/
noncomputable def save (toGPa evToJmol : ℝ) (s : Source) : Doc × Except Err Unit :=
  let eq := s.temps.zipIdx.map (eqItem evToJmol s)
  let data : DataSection := ⟨s.volumes, s.temps.zipIdx.map fun p =>
    (p.1, (List.range s.volumes.length).map fun i => s.free i p.2)⟩
  match volumesToFit s.volumes with
  | .error e => (⟨eq, some data, none, none⟩, .error e)
  | .ok vs =>
    match allFits s with
    | .error e => (⟨eq, some data, none, none⟩, .error e)
    | .ok fits =>
      let l := lastSections toGPa s vs fits
      (⟨eq, some data, some l.1, some l.2⟩, .ok ())

/-- A number that was read, or `nan`. -/
abbrev Value := Option ℝ

/-- `float` of an entry: `None` is read as a string. -/
def toFloat (e : Entry) : Except Err Value :=
  match e with
  | .num x => .ok (some x)
  | .nan => .ok none
  | .none => .error .valueError

/-- `ThermodynamicProperties` (`thermodynamics_io.py` 12-24). -/
structure Properties where
  temperatures : List ℝ
  eqVolumes : List ℝ
  bm : List ℝ
  eqHelmholtz : List ℝ
  eqEntropy : List Value
  eqCp : List Value
  eosData : List (List (ℚ × ℝ))
  eosFitData : List (List (ℚ × ℝ))
  gibbs : List (List (ℝ × ℝ))

/-- A key that may be missing. -/
def key {α : Type} (o : Option α) : Except Err α :=
  match o with
  | none => .error .keyError
  | some x => .ok x

/-- Items of a section of the file; an empty section is `None` and cannot be iterated. -/
def items {α : Type} (l : List α) : Except Err (List α) :=
  if l.isEmpty then .error .typeError else .ok l

/-- The points of the data at one temperature (`thermodynamics_io.py` 117): `None` is left out. -/
def dataPoints (volumes : List ℚ) (fs : List (Option ℝ)) : List (ℚ × ℝ) :=
  (volumes.zip fs).filterMap fun p => p.2.map fun f => (p.1, f)

/-- `load_thermodynamics_yaml` (`thermodynamics_io.py` 104-141). -/
def load (d : Doc) : Except Err Properties := do
  let eq ← items d.eq
  let eos ← eq.mapM fun i => key i.eos
  let s ← eq.mapM fun i => toFloat i.entropy
  let cp ← eq.mapM fun i => toFloat i.cp
  let dat ← key d.data
  let pts ← items dat.eosData
  let fit ← key d.fit
  let fits ← items fit.eos
  let g ← key d.gibbs
  let gs ← items g
  pure ⟨eq.map EqItem.temperature, eos.map fun e => e.1, eos.map fun e => e.2.1, eos.map fun e => e.2.2, s, cp,
    pts.map fun p => dataPoints dat.volumes p.2, fits.map fun p => fit.volumes.zip p.2,
    gs.map fun p => p.2.1.zip p.2.2⟩

/-! ### Several files -/

/-- The names of the files (`api_thermodynamics.py` 304-336). -/
def fileNames : List String :=
  ["sscha", "sscha_el", "sscha_el_ph", "ti", "ti_el", "ti_el_ph", "ti_ext", "ti_ext_el", "ti_ext_el_ph"]

/-- One file of `ThermodynamicsData.save`: the files in the directory so far. -/
noncomputable def saveOne (toGPa evToJmol : ℝ) (dir : List (String × Doc)) (p : String × Option Source) :
    List (String × Doc) × Except Err Unit :=
  match p.2 with
  | none => (dir, .ok ())
  | some s =>
    let r := save toGPa evToJmol s
    ((p.1 ++ ".yaml", r.1) :: dir.filter (fun q => q.1 ≠ p.1 ++ ".yaml"), r.2)

/-- `ThermodynamicsData.save` (`api_thermodynamics.py` 301-336) as a loop over the kinds of data; an exception stops
it. -/
noncomputable def saveAll (toGPa evToJmol : ℝ) : List (String × Doc) → List (String × Option Source) →
    List (String × Doc) × Except Err Unit
  | dir, [] => (dir, .ok ())
  | dir, p :: ps =>
    match saveOne toGPa evToJmol dir p with
    | (dir', .ok ()) => saveAll toGPa evToJmol dir' ps
    | (dir', .error e) => (dir', .error e)

/-! ### Transitions -/

/-- `make_interp_spline(x, y, k=1)`: straight lines between the points, the first and the last continued.  The
abscissas must increase, and there must be two. -/
noncomputable def polyline (d : List (ℝ × ℝ)) (t : ℝ) : ℝ :=
  open Classical in
  match d with
  | p :: q :: rest =>
    if rest = [] ∨ t < q.1 then p.2 + (q.2 - p.2) / (q.1 - p.1) * (t - p.1) else polyline (q :: rest) t
  | _ => 0

open Classical in
/-- `make_interp_spline(x, y, k=1)` with its checks. -/
noncomputable def spline (d : List (ℝ × ℝ)) : Except Err (ℝ → ℝ) :=
  if (d.map Prod.fst).IsChain (· < ·) ∧ 2 ≤ d.length then .ok (polyline d) else .error .valueError

/-- A fit of points with the default flags. -/
noncomputable def fitPoints (d : List (ℝ × ℝ)) (order : Option ℕ) (maxOrder : ℕ) : Except Err Polyfit.Fitted :=
  Polyfit.fit (n := d.length) (fun i => (d.get i).1) (fun i => (d.get i).2) order maxOrder
    ⟨true, true, false, false, false⟩ (some false)

/-- `z1 - z2` with leading zeros (`fit_utils.py` 203-209, 221). -/
def subCoeffs (z1 z2 : List ℝ) : List ℝ :=
  List.zipWith (· - ·) (List.replicate (z2.length - z1.length) 0 ++ z1) (List.replicate (z1.length - z2.length) 0 ++ z2)

/-- `fsolve`: a function and a starting point give a number. -/
abbrev Solver := (ℝ → ℝ) → ℝ → ℝ

/-- `fit_solve_poly` (`fit_utils.py` 212-223). -/
noncomputable def fitSolvePoly (solve : Solver) (f1 f2 : List (ℝ × ℝ)) (f0 : ℝ) (order : Option ℕ) :
    Except Err ℝ := do
  let p1 ← fitPoints f1 order 6
  let p2 ← fitPoints f2 order 6
  pure (solve (polyval (subCoeffs p1.coeffs p2.coeffs)) f0)

/-- `fit_solve` (`fit_utils.py` 232-238) with `k = 1`. -/
noncomputable def fitSolve (solve : Solver) (f1 f2 : List (ℝ × ℝ)) (f0 : ℝ) : Except Err ℝ := do
  let s1 ← spline f1
  let s2 ← spline f2
  pure (solve (fun t => s1 t - s2 t) f0)

/-- `find_transition` (`transition.py` 8-18). -/
noncomputable def findTransition (solve : Solver) (f1 f2 : List (ℝ × ℝ)) : Except Err ℝ := do
  let tc0 ← fitSolvePoly solve f1 f2 0 (some 1)
  fitSolve solve f1 f2 tc0

/-- The largest element (`max` and `np.max`). -/
noncomputable def maxOf (l : List ℝ) : Except Err ℝ :=
  match l with
  | [] => .error .valueError
  | x :: xs => .ok (xs.foldl max x)

/-- `max([np.max(g[:, 0]) for g in gibbs])` (`transition.py` 47-48). -/
noncomputable def maxPressure (gs : List (List (ℝ × ℝ))) : Except Err ℝ := do
  let l ← gs.mapM fun g => maxOf (g.map Prod.fst)
  maxOf l

/-- The fits of the Gibbs free energy at every temperature (`transition.py` 29-30). -/
noncomputable def fitsGibbs (gs : List (List (ℝ × ℝ))) (temps : List ℝ) (maxOrder : ℕ) :
    Except Err (List (ℝ × Polyfit.Fitted)) :=
  (temps.zip gs).mapM fun p => (fitPoints p.2 none maxOrder).map fun m => (p.1, m)

/-- The Gibbs free energies at one pressure (`transition.py` 31-33). -/
noncomputable def isobar (fits : List (ℝ × Polyfit.Fitted)) (p : ℝ) : List (ℝ × ℝ) :=
  fits.map fun m => (m.1, m.2.eval p)

open Classical in
/-- The loop over pressures (`transition.py` 68-73). -/
noncomputable def boundaryLoop (solve : Solver) (fits1 fits2 : List (ℝ × Polyfit.Fitted)) :
    List ℝ → Except Err (List (ℝ × ℝ))
  | [] => .ok []
  | p :: ps =>
    if -(1 / 100000) < p then do
      let tc ← findTransition solve (isobar fits1 p) (isobar fits2 p)
      let rest ← boundaryLoop solve fits1 fits2 ps
      pure (if 0 < tc then (p, tc) :: rest else rest)
    else boundaryLoop solve fits1 fits2 ps

open Classical in
/-- `np.arange(-3.0, p_max, pressure_interval)` (`transition.py` 50). -/
noncomputable def pressures (pmax interval : ℝ) : Except Err (List ℝ) :=
  if interval = 0 then .error .zeroDivision else .ok (arange (-3) pmax interval)

/-- `compute_phase_boundary` (`transition.py` 37-75). -/
noncomputable def phaseBoundary (solve : Solver) (g1 : List (List (ℝ × ℝ))) (t1 : List ℝ) (g2 : List (List (ℝ × ℝ)))
    (t2 : List ℝ) (interval : ℝ) (maxOrder : ℕ) : Except Err (List (ℝ × ℝ)) := do
  let p1 ← maxPressure g1
  let p2 ← maxPressure g2
  let ps ← pressures (min (p1 * (8 / 10)) (p2 * (8 / 10))) interval
  let fits1 ← fitsGibbs g1 t1 maxOrder
  let fits2 ← fitsGibbs g2 t2 maxOrder
  boundaryLoop solve fits1 fits2 ps

/-- `find_phase_transition` (`pypolymlp_thermodynamics.py` 161-164) for two files. -/
noncomputable def transitionOf (solve : Solver) (d1 d2 : Doc) : Except Err ℝ := do
  let q1 ← load d1
  let q2 ← load d2
  findTransition solve (q1.temperatures.zip q1.eqHelmholtz) (q2.temperatures.zip q2.eqHelmholtz)

/-- `compute_phase_boundary` (`pypolymlp_thermodynamics.py` 166-188) for two files. -/
noncomputable def boundaryOf (solve : Solver) (d1 d2 : Doc) (interval : ℝ) (maxOrder : ℕ) :
    Except Err (List (ℝ × ℝ)) := do
  let q1 ← load d1
  let q2 ← load d2
  phaseBoundary solve q1.gibbs q1.temperatures q2.gibbs q2.temperatures interval maxOrder

end Verif.Transition
