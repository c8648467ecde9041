import Verif.Model.MlpLegacy

/-!
# The C++ reader of potential files in the old text format

`/repo/src/pypolymlp/cxx/src/polymlp/polymlp_parse_potential_legacy.cpp` and `.h`, and the choice of
the reader in `polymlp_api.cpp`.  Undefined behaviour is an error, except that memory that is never
initialised has an arbitrary value, a parameter.
-/

namespace Verif.LegacyCxx
open Verif.MlpYaml

/-- The stream of the file: the lines that are left and `input.eof()`. -/
structure Inp where
  rest : List Txt
  eof : Bool
  deriving DecidableEq

/-- `std::getline(input, line)`.  `nl`: the last line has an end of line.  Reading a last line without
one sets `eof`; so does an attempt after the last line. -/
def getline (nl : Bool) (s : Inp) : Txt × Inp :=
  if s.eof then ([], s)
  else match s.rest with
    | [] => ([], ⟨[], true⟩)
    | [l] => (l, ⟨[], !nl⟩)
    | l :: r => (l, ⟨r, false⟩)

/-- `ss >> val` of a number.  A text that is not a number stores zero. -/
def toInt (t : Txt) : ℤ × Bool := match stoi t with
  | .ok v => (v, true)
  | .error _ => (0, false)

/-- `ss >> val` of a floating-point number. -/
def toReal (t : Txt) : ℚ × Bool := match stod t with
  | .ok v => (v, true)
  | .error _ => (0, false)

/-- `ss >> val` of a string. -/
def toStr (t : Txt) : Txt × Bool := (t, true)

/-- `get_value` (`polymlp_parse_potential_legacy.h` 39-51): an empty line leaves `val` as it was
before, `junk`. -/
def value {α : Type} (conv : Txt → α × Bool) (junk : α) (l : Txt) : α :=
  match words l with
  | [] => junk
  | w :: _ => (conv w).1

/-- The loop of `get_value_array` (`polymlp_parse_potential_legacy.h` 80-83): at the end of the line, and
after a text that is not a number, `val` keeps its value.  Simplification: a word is read as a whole. -/
def fill {α : Type} (conv : Txt → α × Bool) : ℕ → List Txt → α → List α
  | 0, _, _ => []
  | n + 1, [], val => val :: fill conv n [] val
  | n + 1, w :: ws, _ => (conv w).1 :: fill conv n (if (conv w).2 then ws else []) (conv w).1

/-- `get_value_array` (`polymlp_parse_potential_legacy.h` 69-86); a negative size is an exception. -/
def array {α : Type} (conv : Txt → α × Bool) (junk : α) (n : ℤ) (l : Txt) : Except Err (List α) :=
  if n < 0 then .error .valueError else .ok (fill conv n.toNat (words l) junk)

/-- `parse_elements` (`polymlp_parse_potential_legacy.cpp` 10-33): whether the file is an old one, and
the elements. -/
def elements (l : Txt) : Except Err (Bool × List Txt) :=
  let w := readAll l
  if w.length < 2 then .error .indexError
  else .ok (MlpLegacy.has "# element" l, w.take (w.length - 2))

/-- `check_polymlp_legacy` (`polymlp_parse_potential_legacy.cpp` 113-122), which decides on the reader
(`polymlp_api.cpp` 27-29). -/
def isLegacyCxx (nl : Bool) (lines : List Txt) : Except Err Bool := do
  let e ← elements (getline nl ⟨lines, false⟩).1
  return e.1

/-- What is read into `fp`, `reg_coeffs`, `ele` and `mass`.  The tables of invariants are represented by
the order, the values of `max_l` and the version that `Readgtinv` is given. -/
structure Pot where
  elements : List Txt
  cutoff : ℚ
  pairType : Txt
  featureType : Txt
  modelType : ℤ
  maxP : ℤ
  maxL : ℤ
  gtinv : Option (ℤ × List ℤ × ℤ)
  coeffs : List ℚ
  params : List (List ℚ)
  mass : List ℚ
  pairs : List (List (List ℤ))
  deriving DecidableEq

/-- `parse_gtinv_params` (`polymlp_parse_potential_legacy.cpp` 45-55), if the features are invariants
(147-153).  The symmetries are never used; only their line is consumed. -/
def gtinvParams (nl : Bool) (junk : ℤ) (featureType : Txt) (s : Inp) :
    Except Err (Option (ℤ × List ℤ) × Inp) :=
  if featureType = "gtinv".toList then do
    let a := getline nl s
    let order := value toInt junk a.1
    let b := getline nl a.2
    let maxl ← array toInt junk (order - 1) b.1
    let c := getline nl b.2
    return (some (order, maxl), c.2)
  else .ok (none, s)

/-- The loop of `parse_gaussians` (`polymlp_parse_potential_legacy.cpp` 69-70). -/
def gaussians (nl : Bool) (junk : ℚ) : ℕ → Inp → List (List ℚ) × Inp
  | 0, s => ([], s)
  | n + 1, s =>
    let a := getline nl s
    let r := gaussians nl junk n a.2
    (fill toReal 2 (words a.1) junk :: r.1, r.2)

/-- The version of the invariants (`polymlp_parse_potential_legacy.cpp` 167-177). -/
def version (nl : Bool) (junk : ℤ) (g : Option (ℤ × List ℤ)) (s : Inp) :
    Option (ℤ × List ℤ × ℤ) × Inp :=
  match g with
  | none => (none, s)
  | some (order, maxl) =>
    let a := getline nl s
    (some (order, maxl, if value toInt junk a.1 = 2 then 2 else 1), a.2)

/-- The loop over the pairs of types (`polymlp_parse_potential_legacy.cpp` 79-84). -/
def pairLoop (nl : Bool) (junk : ℤ) : ℕ → Inp → List (List (List ℤ)) →
    Except Err (List (List (List ℤ)) × Inp)
  | 0, s, tab => .ok (tab, s)
  | n + 1, s, tab => do
    let a := getline nl s
    let k := fill toInt 3 (words a.1) junk
    let b := getline nl a.2
    let idx ← array toInt junk (k.getD 2 0) b.1
    let t ← put2 tab (k.getD 0 0) (k.getD 1 0) idx
    pairLoop nl junk n b.2 t

/-- All parameters for `[j][i]` with `j ≤ i` (`polymlp_parse_potential_legacy.cpp` 87-94). -/
def allParams (nType nParams : ℕ) : List (List (List ℤ)) :=
  (List.range nType).map fun j => (List.range nType).map fun i =>
    if j ≤ i then (List.range nParams).map Int.ofNat else []

/-- `parse_params_conditional` (`polymlp_parse_potential_legacy.cpp` 74-96). -/
def conditional (nl : Bool) (junk : ℤ) (nType nParams : ℕ) (s : Inp) :
    Except Err (List (List (List ℤ)) × Inp) :=
  let a := getline nl s
  let n := value toInt junk a.1
  if a.2.eof = false ∧ 0 < n then
    pairLoop nl junk n.toNat a.2 (List.replicate nType (List.replicate nType []))
  else .ok (allParams nType nParams, a.2)

/-- `parse_polymlp_legacy` (`polymlp_parse_potential_legacy.cpp` 124-186).  The types of the last section
(98-111) are read into variables that are never used; they are not modelled.  Simplification: exact
arithmetic, and a zero scale is not an infinity. -/
def parse (nl : Bool) (junk : ℤ) (junkF : ℚ) (lines : List Txt) : Except Err Pot := do
  let a := getline nl ⟨lines, false⟩
  let e ← elements a.1
  let c := getline nl a.2
  let p := getline nl c.2
  let f := getline nl p.2
  let m := getline nl f.2
  let x := getline nl m.2
  let l := getline nl x.2
  let ft := value toStr [] f.1
  let g ← gtinvParams nl junk ft l.2
  let n := getline nl g.2
  let nCoeffs := value toInt junk n.1
  let r := getline nl n.2
  let coeffs ← array toReal junkF nCoeffs r.1
  let s := getline nl r.2
  let scales ← array toReal junkF nCoeffs s.1
  let q := getline nl s.2
  let nParams := value toInt junk q.1
  let _ ← if nParams < 0 then .error .valueError else .ok ()
  let ga := gaussians nl junkF nParams.toNat q.2
  let ma := getline nl ga.2
  let mass := fill toReal e.2.length (words ma.1) junkF
  let el := getline nl ma.2
  let v := version nl junk g.1 el.2
  let t ← conditional nl junk e.2.length nParams.toNat v.2
  return ⟨e.2, value toReal junkF c.1, value toStr [] p.1, ft, value toInt junk m.1,
    value toInt junk x.1, value toInt junk l.1, v.1,
    List.zipWith (fun r s => r * (2 / s)) coeffs scales, ga.1, mass, t.1⟩

end Verif.LegacyCxx
