import Mathlib.Algebra.BigOperators.Fin
import Mathlib.Algebra.Field.Basic
import Mathlib.Logic.Equiv.Fin.Basic

/-!
# Second-order force constants

`/repo/src/pypolymlp/calculator/utils/fc_utils.py` 7-50, exact arithmetic.
-/

namespace Verif.FC2
variable {K : Type} [Field K] {n : ℕ}

/-- A `(n, n, 3, 3)` array. -/
abbrev FC (n : ℕ) (K : Type) := Fin n → Fin n → Fin 3 → Fin 3 → K

/-- `fc.transpose((0, 2, 1, 3)).reshape((n_atom * 3, n_atom * 3))` (`fc_utils.py` 18-19): row `r`
belongs to atom `r // 3` and component `r % 3`. -/
def toMatrix (fc : FC n K) : Fin (n * 3) → Fin (n * 3) → K := fun r c =>
  fc ⟨r / 3, by omega⟩ ⟨c / 3, by omega⟩ ⟨r % 3, by omega⟩ ⟨c % 3, by omega⟩

/-- `v.reshape((n_atom, 3)).T` (`fc_utils.py` 43, 46): component `a` of atom `i`. -/
def reshapeT (v : Fin (n * 3) → K) : Fin 3 → Fin n → K := fun a i => v ⟨3 * i + a, by omega⟩

/-- `fc2 @ disps_minus` with `disps_minus = -disps` (`fc_utils.py` 40-41). -/
def forcesFlat (fc2 : Fin (n * 3) → Fin (n * 3) → K) (disps : Fin (n * 3) → K) : Fin (n * 3) → K :=
  fun r => ∑ c, fc2 r c * (- disps c)

/-- `[(0, 0), (1, 1), (2, 2), (0, 1), (1, 2), (2, 0)]` (`fc_utils.py` 47). -/
def stressIndices : Fin 6 → Fin 3 × Fin 3
  | 0 => (0, 0) | 1 => (1, 1) | 2 => (2, 2) | 3 => (0, 1) | 4 => (1, 2) | 5 => (2, 0)

/-- The three return values of `eval_properties_fc2`. -/
structure Result (n : ℕ) (K : Type) where
  energy : K
  forces : Fin 3 → Fin n → K
  stress : Fin 6 → K

/-- `eval_properties_fc2(fc2, disps)` (`fc_utils.py` 22-51). -/
def evalFc2 (fc2 : Fin (n * 3) → Fin (n * 3) → K) (disps : Fin (n * 3) → K) : Result n K :=
  let ff := forcesFlat fc2 disps
  let energy := ∑ r, (- disps r) * ff r
  let forces := reshapeT ff
  let d := reshapeT disps
  { energy := 1 / 2 * energy
    forces := forces
    stress := fun k =>
      let (i, j) := stressIndices k
      1 / 2 * ∑ a, (forces i a * d j a + forces j a * d i a) }

end Verif.FC2
