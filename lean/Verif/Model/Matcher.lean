import Verif.Model.Structure
import Verif.Model.GridSearch
import Mathlib.Data.List.Lex
import Mathlib.Data.List.Sort

/-!
# Normalized positions

`/repo/src/pypolymlp/calculator/utils/structure_matcher/matcher.py` 9-91.  Exact arithmetic; `decimals` is a natural
number.  Rows of arrays are lists, compared in lexicographic order.
-/

namespace Verif.Matcher
open Verif.GridSearch (rint)

/-- `_round_positions` for one number, without `use_center` (`matcher.py` 32-33). -/
def wrap (tol : ℚ) (decimals : ℕ) (x : ℚ) : ℚ :=
  let y : ℚ := rint ((x - rint x) * 10 ^ decimals) / 10 ^ decimals
  if |y - 1 / 2| < tol then -1 / 2 else y

/-- `np.average`. -/
def average (l : List ℚ) : ℚ := l.sum / l.length

/-- `rpos -= center` (`matcher.py` 34-37) and `pos1d - np.average(pos1d)` (43). -/
def center (l : List ℚ) : List ℚ := l.map fun x => x - average l

/-- The candidates (`matcher.py` 43-47): `np.arange(0.0, 1.0, 1.0 / natom)` has `natom` entries in exact
arithmetic. -/
def candidates (tol : ℚ) (decimals : ℕ) (pos : List ℚ) : List (List ℚ) :=
  (List.range pos.length).map fun (j : ℕ) => (center pos).map fun x => wrap tol decimals (x + j * (1 / pos.length))

/-- `np.sort` of a row. -/
def sortRow (l : List ℚ) : List ℚ := l.insertionSort (· ≤ ·)

/-- The row that `_argsort_2d(rows)[0]` picks (`matcher.py` 9-11): the first key of the sort is the first column, so
this is the least row in lexicographic order. -/
def leastRow : List (List ℚ) → Option (List ℚ)
  | [] => none
  | r :: rs => some (rs.foldl (fun b r => if r < b then r else b) r)

/-- `_apply_origin_shifts_1d` (`matcher.py` 41-53): the candidates whose sorted row is at a distance below `tol` from
the least sorted row.  Without atoms `1.0 / natom` is a `ZeroDivisionError`. -/
def originShifts (tol : ℚ) (decimals : ℕ) (pos : List ℚ) : Except Err (List (List ℚ)) :=
  if pos = [] then .error .zeroDivision
  else do
    let c := candidates tol decimals pos
    let best ← orErr .indexError (leastRow (c.map sortRow))
    return c.filter fun r => (List.zipWith (fun a b => (a - b) ^ 2) (sortRow r) best).sum < tol ^ 2

/-- An atom as a row. -/
def row (v : V3 ℚ) : List ℚ := [v.x, v.y, v.z]

/-- `_sort_positions` (`matcher.py` 14-22): each block of atoms is sorted by its rows; slices end at the last atom. -/
def sortBlocks : List ℕ → List (V3 ℚ) → List (V3 ℚ)
  | [], l => l
  | n :: ns, l => ((l.take n).insertionSort fun a b => row a ≤ row b) ++ sortBlocks ns (l.drop n)

/-- The positions with the given rows. -/
def zip3 (a b c : List ℚ) : List (V3 ℚ) := (a.zip (b.zip c)).map fun p => ⟨p.1, p.2.1, p.2.2⟩

/-- `positions.reshape(-1)`. -/
def flat (l : List (V3 ℚ)) : List ℚ := l.map V3.x ++ (l.map V3.y ++ l.map V3.z)

/-- `row.reshape((3, -1))` for `n` atoms. -/
def unflat (n : ℕ) (l : List ℚ) : List (V3 ℚ) := zip3 (l.take n) ((l.drop n).take n) (l.drop (n + n))

/-- `normalize_positions` (`matcher.py` 56-91). -/
def normalize (tol : ℚ) (decimals : ℕ) (positions : List (V3 ℚ)) (nAtoms : List ℕ) : Except Err (List (V3 ℚ)) := do
  let round := fun (l : List ℚ) => center (l.map (wrap tol decimals))
  let cx ← originShifts tol decimals (round (positions.map V3.x))
  let cy ← originShifts tol decimals (round (positions.map V3.y))
  let cz ← originShifts tol decimals (round (positions.map V3.z))
  let cands := cx.flatMap fun a => cy.flatMap fun b => cz.map fun c => flat (sortBlocks nAtoms (zip3 a b c))
  let best ← orErr .indexError (leastRow cands)
  return unflat positions.length best

end Verif.Matcher
