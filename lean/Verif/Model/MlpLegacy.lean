import Verif.Model.MlpYaml

/-!
# Potential files in the old text format

`/repo/src/pypolymlp/core/io_polymlp_legacy.py` and the conversion in
`/repo/src/pypolymlp/core/io_polymlp.py` 52-75, 121-156.
-/

namespace Verif.MlpLegacy
open Verif.MlpYaml Verif.Params

/-- `pat in line`. -/
def has (pat : String) (line : Txt) : Bool := decide (pat.toList <:+: line)

/-- `line.split("#")[0].split()` (`io_polymlp_legacy.py` 17).  Lines are without their end of line. -/
def toks (line : Txt) : List Txt := words (line.takeWhile (· ≠ '#'))

/-- `int(v)`.  Simplification: digits only, so no signs and no underscores. -/
def pyNat (t : Txt) : Except Err ℕ :=
  if t ≠ [] ∧ t.all Char.isDigit then .ok (Nat.ofDigitChars 10 t 0) else .error .valueError

/-- `float(v)`.  Simplification: exact value. -/
def pyFloat (t : Txt) : Except Err ℚ := stod t

/-- `str(v)`. -/
def pyStr (t : Txt) : Except Err String := .ok (String.ofList t)

/-- `strtobool` (`core/utils.py` 8-15). -/
def strtobool (t : Txt) : Except Err Bool :=
  let v := t.map Char.toLower
  if v = "t".toList ∨ v = "true".toList ∨ v = "1".toList then .ok true
  else if v = "f".toList ∨ v = "false".toList ∨ v = "0".toList then .ok false
  else .error .runtimeError

/-- `_read_var(line, dtype, return_list=True)` (`io_polymlp_legacy.py` 16-19). -/
def readMany {α : Type} (dtype : Txt → Except Err α) (line : Txt) : Except Err (List α) :=
  (toks line).mapM dtype

/-- `_read_var(line, dtype)` (`io_polymlp_legacy.py` 16-20). -/
def readOne {α : Type} (dtype : Txt → Except Err α) (line : Txt) : Except Err α := do
  let t ← orErr .indexError (toks line)[0]?
  dtype t

/-- `lines[idx]` followed by `idx += 1`, on the lines that are left. -/
def next (lines : List Txt) : Except Err (Txt × List Txt) :=
  match lines with
  | [] => .error .indexError
  | l :: r => .ok (l, r)

/-- The `for` loop over the lines of pair parameters (`io_polymlp_legacy.py` 83-86). -/
def readParams : ℕ → List Txt → Except Err (List (List ℚ) × List Txt)
  | 0, lines => .ok ([], lines)
  | n + 1, lines => do
    let l ← next lines
    let p ← readMany pyFloat l.1
    let r ← readParams n l.2
    return (p :: r.1, r.2)

/-- The version of the invariants (`io_polymlp_legacy.py` 94-104). -/
def readVersion (featureType : String) (lines : List Txt) : ℕ × List Txt :=
  if featureType = "gtinv" then
    match lines with
    | [] => (1, [])
    | l :: r =>
      if has "gtinv_version" l then
        match readOne pyNat l with
        | .ok v => (v, r)
        | .error _ => (1, l :: r)
      else (1, l :: r)
  else (1, lines)

/-- `_read_var(line, int, return_list=True)[0:2]` as a key.  Simplification: fewer than two numbers
are an error. -/
def readKey (line : Txt) : Except Err (ℕ × ℕ) := do
  let k ← readMany pyNat line
  let a ← orErr .indexError k[0]?
  let b ← orErr .indexError k[1]?
  return (a, b)

/-- The `for` loop over the pairs of types (`io_polymlp_legacy.py` 112-117): whether it ended without
an exception, the lines that are left and the dictionary. -/
def pairLoop : ℕ → List Txt → Dict (ℕ × ℕ) (List ℕ) → Bool × List Txt × Dict (ℕ × ℕ) (List ℕ)
  | 0, lines, d => (true, lines, d)
  | _ + 1, [], d => (false, [], d)
  | n + 1, l :: r, d =>
    match readKey l with
    | .error _ => (false, l :: r, d)
    | .ok k =>
      match r with
      | [] => (false, [], d)
      | l2 :: r2 =>
        match readMany pyNat l2 with
        | .error _ => (false, l2 :: r2, d)
        | .ok v => pairLoop n r2 (d.set k v)

/-- `itertools.combinations_with_replacement(range(n_type), 2)`. -/
def combos (n : ℕ) : List (ℕ × ℕ) :=
  (List.range n).flatMap fun i => ((List.range n).filter (i ≤ ·)).map fun j => (i, j)

/-- The handler of the section of pairs (`io_polymlp_legacy.py` 118-121). -/
def pairDefault (nType nPairParams : ℕ) (d : Dict (ℕ × ℕ) (List ℕ)) : Dict (ℕ × ℕ) (List ℕ) :=
  Dict.setAll d ((combos nType).map fun k => (k, List.range nPairParams))

/-- The section of pairs (`io_polymlp_legacy.py` 106-121): `pair_cond` (`none` if it is never
assigned), the table and the lines that are left. -/
def readPairs (nType nPairParams : ℕ) (lines : List Txt) :
    Option Bool × Dict (ℕ × ℕ) (List ℕ) × List Txt :=
  match lines with
  | [] => (some false, pairDefault nType nPairParams [], [])
  | l :: r =>
    if has "n_type_pairs" l then
      match readOne pyNat l with
      | .error _ => (some false, pairDefault nType nPairParams [], l :: r)
      | .ok n =>
        let e := pairLoop n r []
        if e.1 then (some true, e.2.2, e.2.1)
        else (some false, pairDefault nType nPairParams e.2.2, e.2.1)
    else (none, [], l :: r)

/-- The section of types (`io_polymlp_legacy.py` 123-131); `none` if the names are never assigned. -/
def readTypes (nType : ℕ) (lines : List Txt) : Option (Bool × List ℕ) :=
  let default := some (true, List.range nType)
  match lines with
  | [] => default
  | l :: r =>
    if has "type_full" l then
      match readOne strtobool l with
      | .error _ => default
      | .ok b =>
        match r with
        | [] => default
        | l2 :: _ =>
          match readMany pyNat l2 with
          | .error _ => default
          | .ok ti => some (b, ti)
    else none

/-- The lines for the invariants (`io_polymlp_legacy.py` 60-71): order, `max_l` per order and the
value of `max_l`, with the lines that are left. -/
def readGtinv (featureType : String) (maxL : ℕ) (lines : List Txt) :
    Except Err ((ℕ × List ℕ × ℕ) × List Txt) :=
  if featureType = "gtinv" then do
    let a ← next lines
    let order ← readOne pyNat a.1
    let b ← next a.2
    let maxl ← readMany pyNat b.1
    let c ← next b.2
    let _ ← readMany strtobool c.1
    return ((order, maxl, maxL), c.2)
  else .ok ((0, [], 0), lines)

/-- Everything up to the optional sections (`io_polymlp_legacy.py` 42-92). -/
structure Head where
  elements : List String
  cutoff : ℚ
  pairType : String
  featureType : String
  modelType : ℕ
  maxP : ℕ
  gtinv : ℕ × List ℕ × ℕ
  coeffs : List ℚ
  scales : List ℚ
  pairParams : List (List ℚ)
  mass : List ℚ
  deriving DecidableEq

/-- `io_polymlp_legacy.py` 42-92. -/
def readHead (lines : List Txt) : Except Err (Head × List Txt) := do
  let a ← next lines
  let elements ← readMany pyStr a.1
  let a ← next a.2
  let cutoff ← readOne pyFloat a.1
  let a ← next a.2
  let pairType ← readOne pyStr a.1
  let a ← next a.2
  let featureType ← readOne pyStr a.1
  let a ← next a.2
  let modelType ← readOne pyNat a.1
  let a ← next a.2
  let maxP ← readOne pyNat a.1
  let a ← next a.2
  let maxL ← readOne pyNat a.1
  let g ← readGtinv featureType maxL a.2
  let a ← next g.2
  let _ ← readOne pyNat a.1
  let a ← next a.2
  let coeffs ← readMany pyFloat a.1
  let a ← next a.2
  let scales ← readMany pyFloat a.1
  let a ← next a.2
  let n ← readOne pyNat a.1
  let p ← readParams n a.2
  let a ← next p.2
  let mass ← readMany pyFloat a.1
  let a ← next a.2
  let _ ← readOne strtobool a.1
  return (⟨elements, cutoff, pairType, featureType, modelType, maxP, g.1, coeffs, scales, p.1, mass⟩,
    a.2)

/-- What `load_mlp_lammps` returns: the parameters, `pair_conditional`, `mass` and the coefficients. -/
structure Loaded where
  obj : Obj
  pairCond : Bool
  mass : List ℚ
  coeffs : List ℚ
  deriving DecidableEq

/-- `load_mlp_lammps` (`io_polymlp_legacy.py` 23-161).  An unassigned name raises
`UnboundLocalError`, a `NameError`.  Simplification: different numbers of coefficients and scales
raise `ValueError` also where numpy would broadcast; a zero scale is not an infinity. -/
def loadLegacy (lines : List Txt) : Except Err Loaded := do
  let h ← readHead lines
  let n := h.1.elements.length
  let v := readVersion h.1.featureType h.2
  let p := readPairs n h.1.pairParams.length v.2
  let t := readTypes n p.2.2
  let _ ← if h.1.gtinv.2.1.length + 1 < h.1.gtinv.1 then .error .assertionError else .ok ()
  let pairCond ← orErr .nameError p.1
  let types ← orErr .nameError t
  let o ← mkObj ⟨⟨n, h.1.elements, none, none, p.2.1⟩,
    ⟨h.1.cutoff, h.1.pairType, h.1.featureType, h.1.modelType, h.1.maxP, h.1.gtinv.2.2,
      ⟨h.1.gtinv.1, h.1.gtinv.2.1, v.1⟩, h.1.pairParams⟩, some types.1, types.2⟩
  if h.1.coeffs.length ≠ h.1.scales.length then .error .valueError
  else return ⟨o, pairCond, h.1.mass, List.zipWith (· / ·) h.1.coeffs h.1.scales⟩

/-- `is_legacy` (`core/io_polymlp.py` 142-156). -/
def isLegacy (lines : List Txt) : Bool := has "# ele" (lines.head?.getD [])

/-- `convert_to_yaml` for one file (`core/io_polymlp.py` 121-130): `none` if the file is not an old
one, else the new document. -/
def convert (showF : ℚ → Txt) (lines : List Txt) : Except Err (Option Doc) :=
  if isLegacy lines then do
    let r ← loadLegacy lines
    let d ← save showF r.obj r.coeffs (List.replicate r.coeffs.length 1)
    return some d
  else .ok none

end Verif.MlpLegacy
