import Verif.Model.Py
import Verif.Model.Dict

/-!
# The input-file parser

`/repo/src/pypolymlp/core/parser_infile.py` and `strtobool` of `core/utils.py`.
A Python `str` is the list of its characters.
-/

namespace Verif.Infile

/-- A Python string. -/
abbrev PStr := List Char

/-- `str.lower()`.  Simplification: only ASCII letters are changed.  Python also lowers other
alphabets, but no non-ASCII character is lowered to one of the letters used by `strtobool`. -/
def lower (s : PStr) : PStr := s.map Char.toLower

/-- `strtobool(val)` (`core/utils.py` 8-15). -/
def strtobool (val : PStr) : Except Err Bool :=
  let v := lower val
  if v = ['t'] ∨ v = ['t', 'r', 'u', 'e'] ∨ v = ['1'] then .ok true
  else if v = ['f'] ∨ v = ['f', 'a', 'l', 's', 'e'] ∨ v = ['0'] then .ok false
  else .error .runtimeError

/-- `line.split()`: maximal runs of non-space characters.  `ws` is the set of white-space
characters; `cur` is the run being read. -/
def splitWs (ws : Char → Bool) : PStr → PStr → List PStr
  | cur, [] => if cur = [] then [] else [cur]
  | cur, c :: cs =>
    if ws c then (if cur = [] then splitWs ws [] cs else cur :: splitWs ws [] cs)
    else splitWs ws (cur ++ [c]) cs

/-- `f.readlines()`: the lines of a text.  Simplification: the trailing newline is not kept,
`split` drops it anyway. -/
def readlines : PStr → PStr → List PStr
  | cur, [] => if cur = [] then [] else [cur]
  | cur, c :: cs => if c = '\n' then cur :: readlines [] cs else readlines (cur ++ [c]) cs

/-- `a in s` for strings: `a` is a contiguous substring of `s`. -/
def contains (a : PStr) : PStr → Bool
  | [] => a = []
  | c :: s => a.isPrefixOf (c :: s) || contains a s

/-- `"distance"` (`parser_infile.py` 24). -/
def tagDistance : PStr := ['d', 'i', 's', 't', 'a', 'n', 'c', 'e']
/-- `"data"` (`parser_infile.py` 26). -/
def tagData : PStr := ['d', 'a', 't', 'a']
/-- `"dataset_type"` (`parser_infile.py` 26). -/
def tagDatasetType : PStr := ['d', 'a', 't', 'a', 's', 'e', 't', '_', 't', 'y', 'p', 'e']
/-- `"elements"` (`parser_infile.py` 78). -/
def tagElements : PStr := ['e', 'l', 'e', 'm', 'e', 'n', 't', 's']

/-- The attributes of an `InputParser`. -/
structure Parsed where
  data : Dict PStr (List PStr) := []
  distance : List (List PStr) := []
  datasetStrings : List (List PStr) := []
  deriving DecidableEq

/-- One iteration of the loop over the lines (`parser_infile.py` 21-30). -/
def step (p : Parsed) (d : List PStr) : Parsed :=
  match d with
  | t :: v :: vs =>
    if tagDistance = t then { p with distance := p.distance ++ [v :: vs] }
    else if contains tagData t && !contains tagDatasetType t then
      { p with datasetStrings := p.datasetStrings ++ [t :: v :: vs] }
    else { p with data := p.data.set t (v :: vs) }
  | _ => p

/-- The parser on lines already split into words (`parser_infile.py` 19-30). -/
def parseWords (lines : List (List PStr)) : Parsed := lines.foldl step {}

/-- `InputParser(filename)` on the text of the file (`parser_infile.py` 12-30). -/
def parse (ws : Char → Bool) (text : PStr) : Parsed :=
  parseWords ((readlines [] text).map (splitWs ws []))

/-- What `get_params` can return. -/
inductive Value (α δ : Type) where
  | scalar (a : α)
  | array (as : List α)
  | default (d : δ)
  deriving DecidableEq

/-- `params[0] if size == 1 and return_array == False else params`
(`parser_infile.py` 65-67). -/
def pack {α δ : Type} (size : ℕ) (returnArray : Bool) (vals : List α) :
    Except Err (Value α δ) :=
  if size = 1 ∧ returnArray = false then (orErr .indexError vals.head?).map .scalar
  else .ok (.array vals)

/-- `get_params` (`parser_infile.py` 32-68).  `conv` is the conversion selected by `dtype`
(`strtobool`, `int`, `float`, `str`).  Simplification: the warning on a wrong length is not
modelled. -/
def getParams {α δ : Type} (conv : PStr → Except Err α) (p : Parsed) (tag : PStr) (size : ℕ)
    (dflt : δ) (required returnArray : Bool) : Except Err (Value α δ) :=
  match p.data.get? tag with
  | none => if required then .error .keyError else .ok (.default dflt)
  | some vals => do
    let xs ← (vals.take size).mapM conv
    pack size returnArray xs

/-- `sorted(pair, key=lambda x: elements.index(x))` for a list of at most two words, a stable
sort (`parser_infile.py` 88). -/
def sortPair (elements : List PStr) (pair : List PStr) : List PStr :=
  match pair with
  | [a, b] => if elements.idxOf b < elements.idxOf a then [b, a] else [a, b]
  | l => l

/-- One line of the loop in `distance` (`parser_infile.py` 80-89). -/
def distanceStep {α : Type} (conv : PStr → Except Err α) (elements : List PStr)
    (acc : Dict (List PStr) (List α)) (line : List PStr) :
    Except Err (Dict (List PStr) (List α)) :=
  if (line.take 2).all fun e => decide (e ∈ elements) then do
    let ds ← (line.drop 2).mapM conv
    return acc.set (sortPair elements (line.take 2)) ds
  else .error .runtimeError

/-- `InputParser.distance` (`parser_infile.py` 75-90).  `conv` is `float`. -/
def distance {α : Type} (conv : PStr → Except Err α) (p : Parsed) :
    Except Err (Dict (List PStr) (List α)) := do
  let elements ← orErr .keyError (p.data.get? tagElements)
  p.distance.foldlM (distanceStep conv elements) []

end Verif.Infile
