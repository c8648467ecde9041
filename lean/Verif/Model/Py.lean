import Mathlib.Algebra.Order.Floor.Ring
import Mathlib.Data.Rat.Floor

/-!
# Small models of the Python / numpy primitives the modelled code is written in

Only the behaviours used by `/repo` are modelled.
-/

namespace Verif

/-- Exceptions that the modelled code can raise (the class only, no message). -/
inductive Err where
  | valueError | indexError | keyError | runtimeError | assertionError | nameError | typeError
  | attributeError | zeroDivision
  deriving DecidableEq, Repr

/-- Python `round(x)` (one argument) and `numpy.round(x)`: to the nearest integer, ties to the
even one.  Used at `/repo/src/pypolymlp/core/utils.py` 20 and 22.  Simplification: exact
rationals instead of doubles. -/
def roundHalfEven (x : ℚ) : ℤ :=
  let f := ⌊x⌋
  let d := x - f
  if d < 1 / 2 then f
  else if 1 / 2 < d then f + 1
  else if f % 2 = 0 then f else f + 1

/-- `numpy.linspace(a, b, num)` with the default `endpoint=True`; `num = 1` gives `[a]`,
negative `num` raises `ValueError`.  Used at `core/utils.py` 22, `core/params_utils.py` 16-94,
`utils/dataset_divide_utils.py`.  Simplification: exact rationals. -/
def linspace (a b : ℚ) (num : ℤ) : Except Err (List ℚ) :=
  if num < 0 then .error .valueError
  else .ok ((List.range num.toNat).map fun (i : ℕ) =>
    if num = 1 then a else a + (i : ℚ) * ((b - a) / ((num : ℚ) - 1)))

/-- Python / numpy index normalisation: an index `i` into a sequence of length `n` refers to
position `i` if `0 ≤ i < n`, to `n + i` if `-n ≤ i < 0`, and raises `IndexError` otherwise. -/
def pyIndex (n : ℕ) (i : ℤ) : Except Err ℕ :=
  if 0 ≤ i ∧ i < n then .ok i.toNat
  else if -(n : ℤ) ≤ i ∧ i < 0 then .ok (i + n).toNat
  else .error .indexError

/-- A missing value raises exception `e`. -/
def orErr {α : Type} (e : Err) : Option α → Except Err α
  | some a => .ok a
  | none => .error e

/-- `xs[ids]` for an integer index array (numpy) or `[xs[i] for i in ids]` (list). -/
def gather {α : Type} (xs : List α) (ids : List ℕ) : Except Err (List α) :=
  ids.mapM fun i => orErr .indexError xs[i]?

/-- `xs[b:e]` for `0 ≤ b`, `0 ≤ e`. -/
def slice {α : Type} (xs : List α) (b e : ℕ) : List α := (xs.take e).drop b

/-- `numpy.where(mask)[0]`. -/
def whereTrue (mask : List Bool) : List ℕ :=
  (List.range mask.length).filter fun i => mask[i]? == some true

end Verif
