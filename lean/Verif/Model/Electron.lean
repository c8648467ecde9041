import Verif.Model.SschaApi
import Mathlib.Analysis.SpecialFunctions.ExpDeriv

/-!
# Electronic properties at finite temperatures

`/repo/src/pypolymlp/utils/vasp_utils.py` 153-258, `ElectronProperties`.  Reals stand for floats.
-/

namespace Verif.Electron

/-- What is used of `phonopy.qha.electron.ElectronFreeEnergy`: the eigenvalues of each k-point
(reshaped to one row for a k-point), the weights of the k-points, the spin degeneracy `_g`, and
what `run(temp)` computes.  phonopy is not part of the repository: its functions are parameters.
`entropy` is `T S`, in eV. -/
structure Efe where
  eigenvalues : List (List ℝ)
  weights : List ℝ
  g : ℝ
  mu : ℝ → ℝ
  energy : ℝ → ℝ
  entropy : ℝ → ℝ
  freeEnergy : ℝ → ℝ

open Classical in
/-- `np.where(de < 100, de, 100.0)` and `np.where(de > -100, de, -100.0)`
(`vasp_utils.py` 193-194). -/
noncomputable def clip (x : ℝ) : ℝ :=
  let y := if x < 100 then x else 100
  if y > -100 then y else -100

/-- `_calc_df_dT(epsilon, mu, T)` for one eigenvalue (`vasp_utils.py` 184-195); `kB` is the
Boltzmann constant of phonopy. -/
noncomputable def dfdT (kB epsilon mu T : ℝ) : ℝ :=
  let de := clip ((epsilon - mu) / (kB * T))
  (de * Real.exp de) / (T * ((Real.exp de + 1) ^ 2))

open Classical in
/-- `_calc_cv(T)` (`vasp_utils.py` 197-214). -/
noncomputable def calcCv (kB : ℝ) (efe : Efe) (T : ℝ) : ℝ :=
  if T = 0 then 0
  else efe.g * (List.zipWith (fun w row =>
    w * (row.map fun e => (e - efe.mu T) * dfdT kB e (efe.mu T) T).sum)
      efe.weights efe.eigenvalues).sum

/-- The attributes after `run`. -/
structure Results where
  temperatures : List ℝ
  energies : List ℝ
  entropies : List ℝ
  freeEnergies : List ℝ
  cvs : List ℝ

/-- `np.array(xs) - xs[0]` (`vasp_utils.py` 178-179). -/
noncomputable def minusFirst (xs : List ℝ) : Except Err (List ℝ) := do
  let x ← orErr .indexError xs.head?
  return xs.map (· - x)

/-- `entropies[1:] /= temperatures[1:]` (`vasp_utils.py` 180-181). -/
noncomputable def divRest (ss ts : List ℝ) : List ℝ :=
  ss.take 1 ++ List.zipWith (· / ·) (ss.drop 1) (ts.drop 1)

/-- `run(temp_max, temp_step)` (`vasp_utils.py` 164-183). -/
noncomputable def run (kB : ℝ) (efe : Efe) (tempMax tempStep : ℝ) : Except Err Results := do
  let ts ← SschaApi.arange 0 (tempMax + 1 / 10) tempStep
  let f ← minusFirst (ts.map efe.freeEnergy)
  let e ← minusFirst (ts.map efe.energy)
  return { temperatures := ts
           energies := e
           entropies := divRest (ts.map efe.entropy) ts
           freeEnergies := f
           cvs := ts.map (calcCv kB efe) }

end Verif.Electron
