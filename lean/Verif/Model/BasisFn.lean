import Verif.Model.MlpFn
import Mathlib.Analysis.SpecialFunctions.Pow.Real
import Mathlib.Analysis.SpecialFunctions.Trigonometric.DerivHyp

/-!
# The other radial functions of the C++ library

`/repo/src/pypolymlp/cxx/src/polymlp/polymlp_basis_function.cpp`.  Each function is given twice in the code: alone
(`f`) and with its derivative (`f_d`, here a pair of value and derivative).  Exact real arithmetic; division by
zero gives zero here and infinity or NaN in the code, so the theorems exclude it.
-/

namespace Verif.Mlp

/-- `bump_cutoff_function` (`polymlp_basis_function.cpp` 11-14). -/
noncomputable def bumpCut (dis cutoff : ℝ) : ℝ :=
  let x := dis / cutoff
  Real.exp (-1 / (1 - x * x))

/-- `bump_cutoff_function_d` (`polymlp_basis_function.cpp` 15-24). -/
noncomputable def bumpCutD (dis cutoff : ℝ) : ℝ × ℝ :=
  let x := dis / cutoff
  let tmp1 := 1 - x ^ 20
  let tmp2 := x ^ 19
  let bf := Real.exp (-1 / tmp1)
  (bf, -20 * tmp2 * bf / (tmp1 * tmp1))

/-- `cosine` (`polymlp_basis_function.cpp` 25-27). -/
noncomputable def cosineFn (dis p1 : ℝ) : ℝ := Real.cos (p1 * dis)

/-- `cosine_d` (`polymlp_basis_function.cpp` 28-34). -/
noncomputable def cosineD (dis p1 : ℝ) : ℝ × ℝ := (cosineFn dis p1, -p1 * Real.sin (p1 * dis))

/-- `polynomial` (`polymlp_basis_function.cpp` 39-41). -/
noncomputable def powerFn (dis p1 : ℝ) : ℝ := dis ^ p1

/-- `polynomial_d` (`polymlp_basis_function.cpp` 42-49). -/
noncomputable def powerD (dis p1 : ℝ) : ℝ × ℝ :=
  (powerFn dis p1, if |p1| < 1 / 10 ^ 15 then 0 else p1 * dis ^ (p1 - 1))

/-- `exp1` (`polymlp_basis_function.cpp` 51-53). -/
noncomputable def exp1 (dis p1 : ℝ) : ℝ := Real.exp (-p1 * dis)

/-- `exp2` (`polymlp_basis_function.cpp` 54-56). -/
noncomputable def exp2 (dis p1 : ℝ) : ℝ := Real.exp (-p1 * dis) / dis

/-- `exp3` (`polymlp_basis_function.cpp` 57-59). -/
noncomputable def exp3 (dis p1 : ℝ) : ℝ := Real.exp (-p1 * dis) * dis

/-- `exp1_d` (`polymlp_basis_function.cpp` 60-63). -/
noncomputable def exp1D (dis p1 : ℝ) : ℝ × ℝ := (exp1 dis p1, -p1 * exp1 dis p1)

/-- `exp2_d` (`polymlp_basis_function.cpp` 64-67). -/
noncomputable def exp2D (dis p1 : ℝ) : ℝ × ℝ := (exp2 dis p1, -(1 / dis + p1) * exp2 dis p1)

/-- `exp3_d` (`polymlp_basis_function.cpp` 68-71). -/
noncomputable def exp3D (dis p1 : ℝ) : ℝ × ℝ := (exp3 dis p1, (1 / dis - p1) * exp3 dis p1)

/-- `sto` (`polymlp_basis_function.cpp` 72-74). -/
noncomputable def sto (dis p1 p2 : ℝ) : ℝ := dis ^ p1 * Real.exp (-p2 * dis)

/-- `sto_d` (`polymlp_basis_function.cpp` 75-82). -/
noncomputable def stoD (dis p1 p2 : ℝ) : ℝ × ℝ := (sto dis p1 p2, (p1 - p2 * dis) * sto dis p1 p2 / dis)

/-- `gto` (`polymlp_basis_function.cpp` 83-85); `gauss` takes distance, exponent and centre in this order
(`polymlp_basis_function.h` 35). -/
noncomputable def gto (dis p1 p2 : ℝ) : ℝ := dis ^ p1 * gauss p2 dis 0

/-- `gto_d` (`polymlp_basis_function.cpp` 86-93). -/
noncomputable def gtoD (dis p1 p2 : ℝ) : ℝ × ℝ := (gto dis p1 p2, (p1 - 2 * p2 * dis * dis) * gto dis p1 p2 / dis)

/-- `morlet` (`polymlp_basis_function.cpp` 94-96). -/
noncomputable def morlet (dis p1 : ℝ) : ℝ := gauss (1 / 2) dis p1 - gauss (1 / 2) (-dis) p1

/-- `morlet_d` (`polymlp_basis_function.cpp` 97-104). -/
noncomputable def morletD (dis p1 : ℝ) : ℝ × ℝ :=
  (morlet dis p1, (p1 - dis) * gauss (1 / 2) dis p1 + (p1 + dis) * gauss (1 / 2) (-dis) p1)

/-- `modified_morlet` (`polymlp_basis_function.cpp` 105-107). -/
noncomputable def modMorlet (dis p1 : ℝ) : ℝ := Real.cos (p1 * dis) / Real.cosh dis

/-- `modified_morlet_d` (`polymlp_basis_function.cpp` 108-114). -/
noncomputable def modMorletD (dis p1 : ℝ) : ℝ × ℝ :=
  (modMorlet dis p1, -p1 * Real.sin (p1 * dis) / Real.cosh dis - modMorlet dis p1 * Real.tanh dis)

/-- `mexican` (`polymlp_basis_function.cpp` 115-119). -/
noncomputable def mexican (dis p1 : ℝ) : ℝ :=
  let prod1 := dis ^ 2 * p1 ^ 2
  let prod2 := Real.exp (-(1 / 2) * prod1)
  Real.sqrt p1 * (1 - prod1) * prod2

/-- `mexican_d` (`polymlp_basis_function.cpp` 120-129). -/
noncomputable def mexicanD (dis p1 : ℝ) : ℝ × ℝ :=
  let prod1 := dis ^ 2 * p1 ^ 2
  let prod2 := Real.exp (-(1 / 2) * prod1)
  let prod3 := dis * p1 ^ (5 / 2 : ℝ)
  (Real.sqrt p1 * (1 - prod1) * prod2, -prod3 * (3 - prod1) * prod2)

/-- `morse` (`polymlp_basis_function.cpp` 130-133). -/
noncomputable def morse (dis p1 p2 : ℝ) : ℝ :=
  let prod1 := -p1 * (dis - p2)
  Real.exp (2 * prod1) - 2 * Real.exp prod1

/-- `morse_d` (`polymlp_basis_function.cpp` 134-142). -/
noncomputable def morseD (dis p1 p2 : ℝ) : ℝ × ℝ :=
  let prod1 := -p1 * (dis - p2)
  let bf := Real.exp (2 * prod1) - 2 * Real.exp prod1
  (bf, -2 * p1 * (bf + Real.exp prod1))

end Verif.Mlp
