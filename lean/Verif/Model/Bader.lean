import Verif.Model.Py
import Mathlib.Algebra.BigOperators.Group.List.Basic

/-!
# Files with Bader charges

`/repo/src/pypolymlp/core/interface_bader.py`.  A file is the list of its lines and a line is the list of its words
(`str.split`), so that a blank line is the empty list.  Conversions of words to numbers are parameters.
-/

namespace Verif.Bader

open Verif

variable {K : Type}

/-- `float` and `int` of Python applied to a word (`core/interface_bader.py` 15, 31, 36, 37). -/
structure Conv (K : Type) where
  float : String → Except Err K
  int : String → Except Err ℤ

/-- `str.isdecimal` (`core/interface_bader.py` 14).  Simplification: ASCII digits only. -/
def isDecimal (w : String) : Bool := decide (w.toList ≠ []) && w.toList.all Char.isDigit

/-- The loop of `ACF.__init__` (`core/interface_bader.py` 12-15). -/
def acf (cv : Conv K) : List (List String) → Except Err (List K)
  | [] => .ok []
  | line :: rest => do
    let w ← orErr .indexError line[0]?
    if isDecimal w then
      let t ← orErr .indexError line[4]?
      let c ← cv.float t
      let r ← acf cv rest
      return c :: r
    else acf cv rest

/-- `lines2[2:-1]` (`core/interface_bader.py` 31, 34). -/
def dataLines (lines : List (List String)) : List (List String) := (lines.drop 2).dropLast

/-- `int(line.split()[5])` (`core/interface_bader.py` 31, 37). -/
def atomOf (cv : Conv K) (line : List String) : Except Err ℤ := do
  let t ← orErr .indexError line[5]?
  cv.int t

/-- One line of the loop of `BCF.__init__` (`core/interface_bader.py` 35-38); a negative index counts from the end as
in numpy. -/
def addLine [Add K] (cv : Conv K) (charge : List K) (line : List String) : Except Err (List K) := do
  let t ← orErr .indexError line[4]?
  let c ← cv.float t
  let a ← atomOf cv line
  let k ← pyIndex charge.length (a - 1)
  return charge.modify k (· + c)

/-- `BCF.__init__` (`core/interface_bader.py` 26-38): `max` of no lines and a negative size raise `ValueError`. -/
def bcf [Zero K] [Add K] (cv : Conv K) (lines : List (List String)) : Except Err (List K) := do
  let ids ← (dataLines lines).mapM (atomOf cv)
  let n ← orErr .valueError ids.max?
  if n < 0 then .error .valueError
  else (dataLines lines).foldlM (addLine cv) (List.replicate n.toNat 0)

/-- `print_charge` of both classes (`core/interface_bader.py` 20-21, 43-44): the text refers to a name `charge` of the
module, not to the attribute.  `glob` is the value of that name: nothing after an import, the charges of `BCF.dat`
when the file is run as a script (46-52).  The result is the content of the file `bader_charge` afterwards. -/
def printCharge (glob : Option (List K)) (_self : List K) (file : Option (List K)) : Option (List K) × Option Err :=
  match glob with
  | none => (file, some .nameError)
  | some c => (some c, none)

end Verif.Bader
