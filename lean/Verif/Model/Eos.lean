import Verif.Model.Structure
import Mathlib.Analysis.SpecialFunctions.Pow.Real

/-!
# Energy-volume curves

`/repo/src/pypolymlp/calculator/compute_eos.py` 38-144, `/repo/src/pypolymlp/calculator/utils/eos_utils.py` 22-38 and
`/repo/src/pypolymlp/utils/structure_utils.py` 61-67.

Real arithmetic.  The potential is an arbitrary function from structures to energies, and the fit of an equation of
state (phonopy) is an arbitrary function from the data to a fit, which may fail.
-/

namespace Verif.Eos

/-- `np.arange(a, b, s)` for `s > 0`: `ceil((b - a) / s)` values. -/
noncomputable def arange (a b s : ℝ) : List ℝ := (List.range ⌈(b - a) / s⌉₊).map fun (k : ℕ) => a + k * s

open Classical in
/-- `_set_eps` (`compute_eos.py` 38-62). -/
noncomputable def setEps (lo hi step : ℝ) (fine : Bool) : List ℝ :=
  if fine = false then arange lo (hi + 1 / 100) step
  else if lo < 9 / 10 ∧ hi > 11 / 10 then
    arange lo (9 / 10) step ++ arange (9 / 10) (11 / 10) (step / 3) ++ arange (11 / 10) hi step
  else if lo < 9 / 10 ∧ hi < 11 / 10 then arange lo (9 / 10) step ++ arange (9 / 10) hi (step / 3)
  else if lo > 9 / 10 ∧ hi > 11 / 10 then arange lo (11 / 10) (step / 3) ++ arange (11 / 10) hi step
  else arange lo hi (step / 3)

/-- `axis * c`. -/
def scale (c : ℝ) (a : M3 ℝ) : M3 ℝ :=
  ⟨⟨c * a.r0.x, c * a.r0.y, c * a.r0.z⟩, ⟨c * a.r1.x, c * a.r1.y, c * a.r1.z⟩, ⟨c * a.r2.x, c * a.r2.y, c * a.r2.z⟩⟩

/-- A structure with its optional cartesian positions (`data_format.py` 36). -/
structure Cell where
  st : Structure ℝ
  cartesian : Option (List (V3 ℝ))

/-- `isotropic_volume_change` (`structure_utils.py` 61-67).  The exponent is the decimal number of the code. -/
noncomputable def volumeChange (c : Cell) (eps : ℝ) : Cell :=
  { c with st := { c.st with
      axis := scale (eps ^ (3333333333333 / 10 ^ 13 : ℝ)) c.st.axis
      volume := c.st.volume * eps } }

/-- A fitted equation of state: the bulk modulus, the energy and the volume at equilibrium, and the function. -/
structure Fit where
  b0 : ℝ
  e0 : ℝ
  v0 : ℝ
  f : ℝ → ℝ

/-- The attributes of `PolymlpEOS` (`compute_eos.py` 29-36). -/
structure State where
  data : List (ℝ × ℝ)
  fitData : Option (List (ℝ × ℝ))
  eq : Option (ℝ × ℝ × ℝ)

/-- `__init__`; before the first run there are no data. -/
def State.init : State := ⟨[], none, none⟩

/-- The arguments of `run` (`compute_eos.py` 117-124). -/
structure Args where
  lo : ℝ
  hi : ℝ
  step : ℝ
  fine : Bool
  eosFit : Bool

/-- `min(volumes)` and `max(volumes)` of a non-empty list. -/
noncomputable def bounds : List ℝ → ℝ × ℝ
  | [] => (0, 0)
  | v :: vs => vs.foldl (fun b x => (min b.1 x, max b.2 x)) (v, v)

/-- The volumes at which the fit is tabulated (`compute_eos.py` 80-85). -/
noncomputable def fitVolumes (vs : List ℝ) : List ℝ :=
  let b := bounds vs
  arange (b.1 - (b.2 - b.1) * (1 / 10)) (b.2 + (b.2 - b.1) * (1 / 10)) (1 / 100)

/-- `run` (`compute_eos.py` 117-151) with `run_eos_fit_phonopy` (68-88).  A failing fit prints a warning. -/
noncomputable def run (energy : Cell → ℝ) (fit : List (ℝ × ℝ) → Option Fit) (c : Cell) (s : State) (a : Args) : State :=
  let cells := (setEps a.lo a.hi a.step a.fine).map (volumeChange c)
  let data := cells.map fun c' => (c'.st.volume, energy c')
  let s' := { s with data := data }
  if a.eosFit then
    match fit data with
    | none => s'
    | some f =>
      { s' with
        eq := some (f.b0, f.e0, f.v0)
        fitData := some ((fitVolumes (data.map Prod.fst)).map fun v => (v, f.f v)) }
  else s'

/-- `eval_gibbs_pressure` (`eos_utils.py` 22-38): pairs of pressure in GPa and Gibbs free energy. -/
noncomputable def gibbs (f : ℝ → ℝ) (toGPa eps : ℝ) (volumes : List ℝ) : List (ℝ × ℝ) :=
  volumes.map fun v =>
    let deriv := (f (v + eps) - f (v - eps)) / (2 * eps)
    let press := -deriv
    (press * toGPa, f v + press * v)

end Verif.Eos
