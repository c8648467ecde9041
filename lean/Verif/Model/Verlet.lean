import Verif.Model.Py
import Mathlib.Analysis.SpecialFunctions.Sqrt
import Mathlib.LinearAlgebra.Matrix.NonsingularInverse

/-!
# The velocity Verlet integrator

`/repo/src/pypolymlp/misc/dev/md_own`.  Real arithmetic.  Arrays of shape `(3, n_atom)` are functions of the atom with
vectors as values.  The Hamiltonian is a function of axes and fractional positions, as the calculator of properties
reads them.  The modules import each other as `pypolymlp.calculator.md`, where they are not installed; the model is of
their code.
-/

namespace Verif.Verlet
open Verif

/-- Arrays of shape `(3, n_atom)`. -/
abbrev Arr (n : ℕ) := Fin n → Fin 3 → ℝ

/-- `core/units.py` 4. -/
noncomputable def avogadro : ℝ := 6.02214076e23
/-- `core/units.py` 10. -/
noncomputable def kb : ℝ := 1.380649e-23
/-- `core/units.py` 14. -/
noncomputable def evToJ : ℝ := 1.602176634e-19
/-- `core/units.py` 25. -/
noncomputable def massToKg : ℝ := 1e-3 / avogadro
/-- `core/units.py` 28. -/
noncomputable def msToAngFs : ℝ := 1e-5

/-- `const_f_to_p` (`integrators/operator.py` 15). -/
noncomputable def constFToP : ℝ := (avogadro * 1e3) * evToJ * 1e-10

/-- `translate_positions` (`integrators/operator.py` 18-29). -/
def translatePositions {n : ℕ} (positions momenta : Arr n) (dtm : Fin n → ℝ) : Arr n :=
  fun a i => positions a i + momenta a i * dtm a

/-- `translate_momenta` (`integrators/operator.py` 32-43). -/
noncomputable def translateMomenta {n : ℕ} (momenta forces : Arr n) (dt : ℝ) : Arr n :=
  fun a i => momenta a i + (constFToP * dt) * forces a i

/-- The attributes of an integrator that change or are read (`integrators/integrator_base.py` 33-47): `ef` holds
energy and forces, `hist` the saved ones. -/
structure Sim (n : ℕ) where
  axis : Matrix (Fin 3) (Fin 3) ℝ
  masses : Fin n → ℝ
  cart : Arr n
  frac : Arr n
  p : Option (Arr n)
  ef : Option (ℝ × Arr n)
  save : Bool
  hist : List (ℝ × Arr n)

/-- The Hamiltonian: energy and forces. -/
abbrev Ham (n : ℕ) := Matrix (Fin 3) (Fin 3) ℝ → Arr n → ℝ × Arr n

/-- The setter of `x` (`integrators/integrator_base.py` 91-96). -/
noncomputable def Sim.setX {n : ℕ} (s : Sim n) (x : Arr n) : Sim n :=
  { s with cart := x, frac := fun a => s.axis⁻¹.mulVec (x a) }

/-- `eval` (`integrators/integrator_base.py` 61-70). -/
noncomputable def Sim.eval {n : ℕ} (H : Ham n) (s : Sim n) : Sim n :=
  let r := H s.axis s.frac
  { s with ef := some r, hist := if s.save then s.hist ++ [r] else s.hist }

/-- `ke` (`integrators/integrator_base.py` 128-138) for momenta `p`. -/
noncomputable def ke {n : ℕ} (masses : Fin n → ℝ) (p : Arr n) : ℝ :=
  0.5 * massToKg / msToAngFs ^ 2 / evToJ * ∑ a, √(∑ i, p a i ^ 2) ^ 2 / masses a

/-- `_run_single_iteration` (`integrators/integrator_verlet.py` 69-75); arithmetic with `None` raises `TypeError`. -/
noncomputable def iter {n : ℕ} (H : Ham n) (dt : ℝ) (dtm : Fin n → ℝ) (s : Sim n) : Except Err (Sim n) := do
  let p ← orErr .typeError s.p
  let r ← orErr .typeError s.ef
  let p1 := translateMomenta p r.2 (0.5 * dt)
  let s1 := Sim.setX { s with p := some p1 } (translatePositions s.cart p1 dtm)
  let s2 := s1.eval H
  let r2 ← orErr .typeError s2.ef
  return { s2 with p := some (translateMomenta p1 r2.2 (0.5 * dt)) }

/-- The printed line of a step (`integrators/integrator_verlet.py` 67). -/
noncomputable def line {n : ℕ} (s : Sim n) : Except Err (ℝ × ℝ × ℝ) := do
  let r ← orErr .typeError s.ef
  let p ← orErr .runtimeError s.p
  return (r.1, ke s.masses p, r.1 + ke s.masses p)

/-- The loop of `run` (`integrators/integrator_verlet.py` 65-67). -/
noncomputable def loop {n : ℕ} (H : Ham n) (dt : ℝ) (dtm : Fin n → ℝ) :
    ℕ → Sim n → Except Err (Sim n × List (ℝ × ℝ × ℝ))
  | 0, s => .ok (s, [])
  | k + 1, s => do
    let s1 ← iter H dt dtm s
    let l ← line s1
    let r ← loop H dt dtm k s1
    return (r.1, l :: r.2)

/-- `run` (`integrators/integrator_verlet.py` 50-67). -/
noncomputable def run {n : ℕ} (H : Ham n) (dt : ℝ) (nSteps : ℕ) (s : Sim n) : Except Err (Sim n × List (ℝ × ℝ × ℝ)) :=
  if s.p.isNone then .error .runtimeError
  else loop H dt (fun a => dt * (s.masses a)⁻¹) nSteps s

/-- `initialize_velocity` (`utils.py` 10-27).  `z` are the standard normal numbers behind `np.random.normal`.  For `nve`
the name `vel` is not bound (23-26). -/
noncomputable def initializeVelocity {n : ℕ} (ensemble : String) (temperature : ℝ) (masses : Fin n → ℝ) (z : Arr n) :
    Except Err (Arr n) :=
  if ensemble = "nvt" then
    let sigmaConst := kb * temperature / massToKg
    .ok fun a i => √(sigmaConst * (masses a)⁻¹) * z a i * msToAngFs
  else .error .nameError

/-- `initialize` (`integrators/integrator_verlet.py` 43-48). -/
noncomputable def initializeSim {n : ℕ} (H : Ham n) (ensemble : String) (temperature : ℝ) (z : Arr n) (s : Sim n) :
    Except Err (Sim n) := do
  let v ← initializeVelocity ensemble temperature s.masses z
  return Sim.eval H { s with p := some fun a i => v a i * s.masses a }

end Verif.Verlet
