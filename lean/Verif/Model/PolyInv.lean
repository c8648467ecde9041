import Verif.Model.Py
import Mathlib.MeasureTheory.Integral.IntervalIntegral.Basic
import Mathlib.Analysis.SpecialFunctions.Trigonometric.Basic
import Mathlib.MeasureTheory.Integral.Bochner.Basic
import Mathlib.Algebra.Order.Round

/-!
# Enumeration of polynomial invariants

`/repo/src/pypolymlp/polyinv/polyinv_utils.py` and `run_enum_single_order` of
`polyinv/api_polyinv.py`.  Reals stand for floats, and the numerical integral of
`scipy.integrate.quad` is the integral.
-/

namespace Verif.PolyInv

/-- `itertools.combinations_with_replacement(xs, n)`. -/
def combsRep {α : Type} : List α → ℕ → List (List α)
  | _, 0 => [[]]
  | [], _ + 1 => []
  | x :: xs, n + 1 => (combsRep (x :: xs) n).map (x :: ·) ++ combsRep xs (n + 1)

/-- `chi(x, l, n)` (`polyinv_utils.py` 27-29). -/
noncomputable def chi (x : ℝ) (l n : ℕ) : ℝ :=
  Real.sin ((2 * l + 1) * n * x / 2) / Real.sin (x * n / 2)

/-- `chi_prod(x, lcomb)` (`polyinv_utils.py` 32-34). -/
noncomputable def chiProd (x : ℝ) (lcomb : List ℕ) : ℝ := (lcomb.map fun l => chi x l 1).prod

/-- `num_basis(lcomb, lproj)` (`polyinv_utils.py` 17-24).  Simplification: `round` takes halves
up, Python takes them to even; the number rounded is an integer (`C102_number`). -/
noncomputable def numBasis (lcomb : List ℕ) (lproj : ℕ) : ℤ :=
  round ((∫ x in (0)..(2 * Real.pi),
    chi x lproj 1 * chiProd x lcomb * Real.sin (x / 2) ^ 2) / Real.pi)

/-- `get_l_combs(maxl, order, lproj)` (`polyinv_utils.py` 9-15), as pairs. -/
noncomputable def getLCombs (maxl order lproj : ℕ) : List (List ℕ × ℤ) :=
  (combsRep (List.range (maxl + 1)) order).map fun l => (l, numBasis l lproj)

/-- `lm_to_matrix_index(l_list, m_list)` (`polyinv_utils.py` 37-45), the loop from position `i`:
the rest of the two lists. -/
def lmToIndex : List ℕ → List ℤ → ℤ
  | l :: ls, m :: ms => ((l : ℤ) + m) * (ls.map fun (k : ℕ) => 2 * (k : ℤ) + 1).prod + lmToIndex ls ms
  | _, _ => 0

/-- The loop of `matrix_index_to_lm` over the reversed list (`polyinv_utils.py` 50-53): the digits,
and what is left of the index. -/
def digits : List ℕ → ℤ → List ℤ
  | [], _ => []
  | l :: ls, n => n % (2 * l + 1) :: digits ls (n / (2 * l + 1))

/-- `matrix_index_to_lm(index, l_list)` (`polyinv_utils.py` 48-55). -/
def indexToLm (index : ℤ) (ls : List ℕ) : List (ℕ × ℤ) :=
  List.zipWith (fun i (l : ℕ) => (l, i - (l : ℤ))) (digits ls.reverse index).reverse ls

/-- `np.any(lcomb_all >= minl, axis=1)` (`api_polyinv.py` 59-61). -/
def reaches : Option ℕ → List ℕ → Bool
  | none, _ => true
  | some m, ls => ls.any fun l => decide (l ≥ m)

/-- The conditions of `run_enum_single_order` (`api_polyinv.py` 58-68). -/
def keep (minl : Option ℕ) (eliminateOdd : Bool) (c : List ℕ × ℤ) : Bool :=
  decide (c.2 > 0) &&
    reaches minl c.1 &&
    (!eliminateOdd || decide (c.1.sum % 2 = 0))

/-- `solve(lcomb, lproj)` (`api_polyinv.py` 81-99): only `lproj = 0`, and `build_projector` has
orders from 2 to 8 (`projector.cpp` 29-41, the exceptions become `ValueError`) and even sums
(`projector.cpp` 21-24).  `basis` is the rest of it. -/
def solve {β : Type} (basis : List ℕ → Except Err β) (lproj : ℕ) (lcomb : List ℕ) : Except Err β :=
  if lproj ≠ 0 then .error .runtimeError
  else if lcomb.sum % 2 ≠ 0 then .error .valueError
  else if 2 ≤ lcomb.length ∧ lcomb.length ≤ 8 then basis lcomb
  else .error .valueError

/-- `run_enum_single_order(..., return_l=True)` (`api_polyinv.py` 46-78). -/
noncomputable def enumSingle {β : Type} (basis : List ℕ → Except Err β) (order maxl : ℕ)
    (minl : Option ℕ) (eliminateOdd : Bool) (lproj : ℕ) :
    Except Err (List (β × List ℕ × ℤ)) :=
  ((getLCombs maxl order lproj).filter (keep minl eliminateOdd)).mapM fun c => do
    let b ← solve basis lproj c.1
    return (b, c)

/-- `run_enum` (`api_polyinv.py` 18-43).  The eigenvectors and the indices are the two parts of
`β`. -/
noncomputable def runEnum {β : Type} (basis : List ℕ → Except Err β) (orders : List ℕ)
    (maxl : ℕ) (minl : Option ℕ) (eliminateOdd : Bool) (lproj : ℕ) : Except Err (List β) :=
  if orders.any fun o => decide (o > 6) then .error .runtimeError
  else do
    let out ← orders.mapM fun o => do
      let r ← enumSingle basis o maxl minl eliminateOdd lproj
      return r.map (·.1)
    return out.flatten

end Verif.PolyInv
