import Verif.Model.MlpEval
import Mathlib.Analysis.SpecialFunctions.Trigonometric.Basic
import Mathlib.Analysis.SpecialFunctions.Exp

/-!
# Radial functions

`/repo/src/pypolymlp/cxx/src/polymlp/polymlp_basis_function.h` and `get_fn_` of
`polymlp_functions_interface.cpp`, over the real numbers; the constant `pi` is `π`.  Only
`pair_type == "gaussian"` computes anything in `get_fn_`.
-/

namespace Verif.Mlp
open Real

/-- `cosine_cutoff_function` (`polymlp_basis_function.h` 16-20). -/
noncomputable def cosCut (dis cutoff : ℝ) : ℝ :=
  if dis < cutoff then 0.5 * (cos (π * dis / cutoff) + 1.0) else 0.0

/-- `cf` and `cf_d` of `cosine_cutoff_function_d` (`polymlp_basis_function.h` 21-33). -/
noncomputable def cosCutD (dis cutoff : ℝ) : ℝ × ℝ :=
  if dis < cutoff then
    let val1 := π / cutoff
    let val2 := val1 * dis
    (0.5 * (cos val2 + 1.0), -0.5 * val1 * sin val2)
  else (0.0, 0.0)

/-- `gauss` (`polymlp_basis_function.h` 35-38). -/
noncomputable def gauss (x beta mu : ℝ) : ℝ :=
  let dx := x - mu
  exp (-beta * dx * dx)

/-- `bf` and `bf_d` of `gauss_d` (`polymlp_basis_function.h` 39-43). -/
noncomputable def gaussD (dis beta mu : ℝ) : ℝ × ℝ :=
  let dx := dis - mu
  let bf := exp (-beta * dx * dx)
  (bf, -2.0 * beta * dx * bf)

/-- `fn[n]` of `get_fn_` without derivatives (`polymlp_functions_interface.cpp` 11-24). -/
noncomputable def getFn (params : ℕ → ℝ × ℝ) (cutoff : ℝ) (n : ℕ) (dis : ℝ) : ℝ :=
  gauss dis (params n).1 (params n).2 * cosCut dis cutoff

/-- `fn[n]` and `fn_dr[n]` of `get_fn_` with derivatives (`polymlp_functions_interface.cpp`
40-62). -/
noncomputable def getFnD (params : ℕ → ℝ × ℝ) (cutoff : ℝ) (n : ℕ) (dis : ℝ) : ℝ × ℝ :=
  let fc := cosCutD dis cutoff
  let fn := gaussD dis (params n).1 (params n).2
  (fn.1 * fc.1, fn.2 * fc.1 + fn.1 * fc.2)

/-- `feature_params` of a pair model with Gaussian radial functions. -/
structure GaussParams where
  nType : ℕ
  cond : ℕ → ℕ → List ℕ
  params : ℕ → ℝ × ℝ
  cutoff : ℝ
  modelType : ℕ
  maxp : ℕ

/-- The parameters with the radial functions filled in.  The code computes `fn` with or without
derivatives; both values are the same (`C57_same_value`). -/
noncomputable def GaussParams.pair (g : GaussParams) : PairParams ℝ where
  nType := g.nType
  cond := g.cond
  rad := getFn g.params g.cutoff
  radD := fun n r => (getFnD g.params g.cutoff n r).2
  cutoff := g.cutoff
  modelType := g.modelType
  maxp := g.maxp

/-- `PolymlpAPI::convert_unit` on `fp` (`polymlp_api.cpp` 210-218). -/
noncomputable def GaussParams.convertLength (g : GaussParams) (len inv : ℝ) : GaussParams :=
  { g with
    params := fun n => ((g.params n).1 * (inv * inv), (g.params n).2 * len)
    cutoff := g.cutoff * len }

end Verif.Mlp
