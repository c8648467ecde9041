import Verif.Model.Py
import Verif.Model.FC2
import Mathlib.Analysis.SpecialFunctions.Trigonometric.DerivHyp
import Mathlib.Analysis.SpecialFunctions.Sqrt

/-!
# Samples of the harmonic density matrix

`/repo/src/pypolymlp/calculator/sscha/harmonic_real.py` 25-27 and 103-385, exact arithmetic.

A vector of all atoms has the component `r % 3` of atom `r // 3` at `r`.  The solver of the eigenvalue equation, the random
numbers, the potential (a function of the displacements from the supercell) and the order in which Python lists a set are
parameters.  Messages are left out.
-/

namespace Verif.Harmonic
open Verif.FC2

variable {n : ℕ}

/-- Components of all atoms. -/
abbrev Vec (n : ℕ) := Fin (n * 3) → ℝ

/-- `const_planck` (`harmonic_real.py` 25), J s times 1e12. -/
noncomputable def planck : ℝ := 6.62607015e-22

/-- `const_sq_angfreq_to_sq_freq_thz` (`harmonic_real.py` 26). -/
noncomputable def constSq : ℝ := 2.4440020137144617e2

/-- `const_amplitude` (`harmonic_real.py` 27). -/
noncomputable def constAmp : ℝ := 1.010758017933576

/-- `Kb` (`units.py`). -/
noncomputable def kb : ℝ := 1.380649e-23

/-- `EVtoKJmol` (`units.py`). -/
noncomputable def evToKJ : ℝ := 96.48533212331002

/-- Energy, forces and stress of a structure. -/
structure Values (n : ℕ) where
  energy : ℝ
  forces : Vec n
  stress : Fin 6 → ℝ

/-- What is not modelled: `np.linalg.eigh` (eigenvalues, and eigenvectors by component and mode), the samples of normal
coordinates with given variances, the potential, the list of a set. -/
structure Ext (n : ℕ) where
  eigh : (Fin (n * 3) → Fin (n * 3) → ℝ) → (Fin (n * 3) → ℝ) × (Fin (n * 3) → Fin (n * 3) → ℝ)
  draw : (Fin (n * 3) → ℝ) → ℕ → List (Fin (n * 3) → ℝ)
  potential : Vec n → Values n
  listOfSet : List ℕ → List ℕ

/-- `np.repeat(masses, 3)`. -/
def mass3 (masses : Fin n → ℝ) (r : Fin (n * 3)) : ℝ := masses ⟨r / 3, by omega⟩

/-- The dynamical matrix (`harmonic_real.py` 146-152). -/
noncomputable def dynamical (masses : Fin n → ℝ) (fc2 : FC n ℝ) (r c : Fin (n * 3)) : ℝ :=
  1 / Real.sqrt (mass3 masses r) * toMatrix fc2 r c * (1 / Real.sqrt (mass3 masses c))

/-- The frequency of an eigenvalue (`harmonic_real.py` 154-160): negative for negative eigenvalues. -/
noncomputable def frequency (w : ℝ) : ℝ :=
  if w * constSq < 0 then -Real.sqrt (-(w * constSq)) else Real.sqrt (w * constSq)

/-- `frequencies` (`harmonic_real.py` 386-389) after the equation was solved. -/
noncomputable def frequencies (ext : Ext n) (masses : Fin n → ℝ) (fc2 : FC n ℝ) (k : Fin (n * 3)) : ℝ :=
  frequency ((ext.eigh (dynamical masses fc2)).1 k)

/-- `_hide_imaginary_modes` (`harmonic_real.py` 166-170). -/
noncomputable def hide (f : ℝ) : ℝ := if f < 0.1 then 0 else f

/-- The occupation (`harmonic_real.py` 177-183): `tanh(inf)` is one. -/
noncomputable def occupation (temp f : ℝ) : ℝ :=
  if |temp| ≤ 1e-8 then 0.5 * (1 : ℝ)⁻¹ else 0.5 * (Real.tanh (0.5 * (1 / (kb * temp)) * planck * f))⁻¹

/-- The variance of a normal coordinate with the frequency `f` after hiding (`harmonic_real.py` 175, 185-189). -/
noncomputable def amplitude (temp f : ℝ) : ℝ :=
  if |f| ≤ 1e-8 then 0.01 else constAmp * occupation temp f * (1 / f)

/-- Displacements of normal coordinates (`harmonic_real.py` 196-202). -/
noncomputable def displacement (masses : Fin n → ℝ) (e : Fin (n * 3) → Fin (n * 3) → ℝ) (x : Fin (n * 3) → ℝ) : Vec n :=
  fun r => 1 / Real.sqrt (mass3 masses r) * ∑ k, e r k * x k

/-- `np.mean`. -/
noncomputable def mean (l : List ℝ) : ℝ := l.sum / l.length

/-- The numbers of the samples that are kept (`_eliminate_outliers`, `harmonic_real.py` 204-212), without order; the mean of
an empty array is not a number, and comparisons with it are false. -/
noncomputable def kept (energies : List ℝ) : List ℕ :=
  let good := energies.filter fun e => decide (e > -10)
  if good = [] then []
  else
    let m := mean good
    (List.range energies.length).filter fun (i : ℕ) =>
      decide (energies.getD i 0 > -10 ∧ |energies.getD i 0 - m| < 2 * |m|)

/-- What `run` stores. -/
structure Result (n : ℕ) where
  disps : List (Vec n)
  energiesFull : List ℝ
  forces : List (Vec n)
  stresses : List (Fin 6 → ℝ)
  energiesHarm : List ℝ
  averageForces : Vec n
  averageStress : Fin 6 → ℝ

/-- `array[ids]`. -/
def take {α : Type} (l : List α) (ids : List ℕ) : List α := ids.filterMap fun (i : ℕ) => l[i]?

/-- Forces of `eval_properties_fc2` as one vector. -/
noncomputable def harmForces (fc2 : FC n ℝ) (u : Vec n) : Vec n := forcesFlat (toMatrix fc2) u

/-- `run` (`harmonic_real.py` 103-142) with the averages (`harmonic_real.py` 234-268).  The argument `eliminate_outliers` is
not used.  Without a sample left the array of numbers is one of floats and the access raises IndexError. -/
noncomputable def run (ext : Ext n) (masses : Fin n → ℝ) (fc2 : Option (FC n ℝ)) (temp : ℝ) (nSamples : ℕ)
    (_eliminateOutliers : Bool) : Except Err (Result n) :=
  match fc2 with
  | none => .error .valueError
  | some fc =>
    let eig := ext.eigh (dynamical masses fc)
    let xs := ext.draw (fun k => amplitude temp (hide (frequency (eig.1 k)))) nSamples
    let disps := xs.map (displacement masses eig.2)
    let static := ext.potential fun _ => 0
    let values := disps.map ext.potential
    let energies := values.map fun v => v.energy - static.energy
    let ids := ext.listOfSet (kept energies)
    if ids = [] then .error .indexError
    else
      let d := take disps ids
      let f := take (values.map fun v => v.forces) ids
      let s := take (values.map fun v => v.stress) ids
      .ok {
        disps := d
        energiesFull := take energies ids
        forces := f
        stresses := s
        energiesHarm := d.map fun u => (evalFc2 (toMatrix fc) u).energy
        averageForces := fun r => mean (f.map fun v => v r) - mean (d.map fun u => harmForces fc u r) - static.forces r
        averageStress := fun i => mean (s.map fun v => v i) - mean (d.map fun u => (evalFc2 (toMatrix fc) u).stress i) -
          static.stress i }

/-- `full_potentials` (`harmonic_real.py` 311-316), kJ/mol of unit cells. -/
noncomputable def fullPotentials (nCells : ℕ) (r : Result n) : List ℝ := r.energiesFull.map fun e => e * (evToKJ / nCells)

/-- `average_full_potential` (`harmonic_real.py` 318-323). -/
noncomputable def averageFull (nCells : ℕ) (r : Result n) : ℝ := mean r.energiesFull * (evToKJ / nCells)

/-- `average_harmonic_potential` (`harmonic_real.py` 332-337). -/
noncomputable def averageHarmonic (nCells : ℕ) (r : Result n) : ℝ := mean r.energiesHarm * (evToKJ / nCells)

/-- `anharmonic_potentials` (`harmonic_real.py` 339-346). -/
noncomputable def anharmonicPotentials (nCells : ℕ) (r : Result n) : List ℝ :=
  List.zipWith (fun a b => (a - b) * (evToKJ / nCells)) r.energiesFull r.energiesHarm

/-- `average_anharmonic_potential` (`harmonic_real.py` 348-355). -/
noncomputable def averageAnharmonic (nCells : ℕ) (r : Result n) : ℝ := mean (anharmonicPotentials nCells r)

/-- `static_potential` (`harmonic_real.py` 357-360). -/
noncomputable def staticPotential (ext : Ext n) (nCells : ℕ) : ℝ := (ext.potential fun _ => 0).energy * (evToKJ / nCells)

/-- `average_stress_tensor` (`harmonic_real.py` 379-384), of unit cells. -/
noncomputable def averageStressTensor (nCells : ℕ) (r : Result n) : Fin 6 → ℝ := fun i => r.averageStress i / nCells

/-- `energies` of a distribution (`/repo/src/pypolymlp/calculator/sscha/sscha_distribution.py` 182-188), which are saved in
`sscha_energies.npy` (49). -/
noncomputable def distEnergies (nCells : ℕ) (r : Result n) : List ℝ := fullPotentials nCells r

/-- The potentials in `sscha_averages.yaml` (`sscha_distribution.py` 65-67): `static_potential` (190-196) and
`average_potential`. -/
noncomputable def distAverages (ext : Ext n) (nCells : ℕ) (r : Result n) : ℝ × ℝ :=
  (staticPotential ext nCells, mean (distEnergies nCells r))

/-- `KbEV` (`/repo/src/pypolymlp/core/units.py` 11). -/
noncomputable def kbEV : ℝ := 8.617389435726849e-05

/-- The heat capacity of a variance of energies (`/repo/src/pypolymlp/calculator/md/ase_md.py` 281), eV/K. -/
noncomputable def heatCapacityEV (var temp : ℝ) : ℝ := var / kbEV / temp ^ 2

end Verif.Harmonic
