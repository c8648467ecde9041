import Verif.Model.Params
import Mathlib.Data.Int.Log
import Mathlib.Algebra.Order.Field.Rat

/-!
# Potential files in yaml format

`/repo/src/pypolymlp/core/io_polymlp_yaml.py` (writer and Python reader) and
`/repo/src/pypolymlp/cxx/src/polymlp/polymlp_parse_potential.cpp` (the reader used from C++).
Text is a list of characters.
-/

namespace Verif.MlpYaml
open Verif.Params

/-- Text. -/
abbrev Txt := List Char

/-! ## Numbers as text -/

/-- `str(n)` for a non-negative integer. -/
def showNat (n : ℕ) : Txt := Nat.toDigits 10 n

/-- `16` significant decimal digits and exponent of a positive number: `x ≈ m · 10^(e-15)` with
`10^15 ≤ m < 10^16` (correct rounding, ties to even, as CPython's `format` does). -/
def sig16 (x : ℚ) : ℕ × ℤ :=
  let e := Int.log 10 x
  let m := (roundHalfEven (x * (10 : ℚ) ^ (15 - e))).toNat
  if m = 10 ^ 16 then (10 ^ 15, e + 1) else (m, e)

/-- The exponent part of the `e` format: a sign and at least two digits. -/
def showExp (e : ℤ) : Txt :=
  (if e < 0 then '-' else '+') ::
    (let d := showNat e.natAbs
     if d.length = 1 then '0' :: d else d)

/-- The digits of the mantissa with the point after the first one. -/
def showMant (m : ℕ) : Txt :=
  match showNat m with
  | [] => []
  | d :: ds => d :: '.' :: ds

/-- `f"{c:.15e}"` (`io_polymlp_yaml.py` 82).  Simplification: `c` is a rational number (every finite
double is one), so there is no negative zero. -/
def fmtE (x : ℚ) : Txt :=
  if x = 0 then "0.000000000000000e+00".toList
  else (if x < 0 then ['-'] else []) ++ showMant (sig16 |x|).1 ++ 'e' :: showExp (sig16 |x|).2

/-- A number as it is written: sign, digits before the point, whether there is a point, digits after
it, and the exponent (its sign character, if any, and its digits). -/
structure Num where
  neg : Bool
  int : Txt
  dot : Bool
  frac : Txt
  exp : Option (Option Bool × Txt)
  deriving DecidableEq, Repr

/-- An optional sign; `some true` is minus. -/
def takeSign : Txt → Option Bool × Txt
  | [] => (none, [])
  | c :: r => if c = '-' then (some true, r) else if c = '+' then (some false, r) else (none, c :: r)

/-- An optional point and the digits after it. -/
def takeFrac : Txt → Bool × Txt × Txt
  | [] => (false, [], [])
  | c :: r => if c = '.' then (true, r.takeWhile Char.isDigit, r.dropWhile Char.isDigit)
      else (false, [], c :: r)

/-- An optional exponent up to the end of the text; `none` if something else follows. -/
def takeExp : Txt → Option (Option (Option Bool × Txt))
  | [] => some none
  | c :: r => if c = 'e' ∨ c = 'E' then
      let s := takeSign r
      if s.2 ≠ [] ∧ s.2.all Char.isDigit then some (some s) else none
    else none

/-- Read a whole token as a number: `[-+]?[0-9]*(\.[0-9]*)?([eE][-+]?[0-9]+)?` with at least one
digit in the mantissa. -/
def scan (t : Txt) : Option Num :=
  let s := takeSign t
  let int := s.2.takeWhile Char.isDigit
  let f := takeFrac (s.2.dropWhile Char.isDigit)
  if int = [] ∧ f.2.1 = [] then none
  else (takeExp f.2.2).map fun e => ⟨s.1 == some true, int, f.1, f.2.1, e⟩

/-- The exponent. -/
def Num.expVal (n : Num) : ℤ :=
  match n.exp with
  | none => 0
  | some (s, d) => if s = some true then -(Nat.ofDigitChars 10 d 0 : ℤ) else Nat.ofDigitChars 10 d 0

/-- The value of a number.  Simplification: exact, no rounding to a double. -/
def Num.value (n : Num) : ℚ :=
  (if n.neg then -1 else 1) * (Nat.ofDigitChars 10 (n.int ++ n.frac) 0 : ℚ) *
    (10 : ℚ) ^ (n.expVal - n.frac.length)

/-! ## Scalars of PyYAML -/

/-- What `yaml.safe_load` makes of a plain scalar. -/
inductive Scalar where
  | null
  | bool (b : Bool)
  | int (i : ℤ)
  | float (q : ℚ)
  | str (s : String)
  deriving DecidableEq, Repr

/-- Words for true (PyYAML `resolver.py`, YAML 1.1). -/
def trueWords : List String := ["yes", "Yes", "YES", "true", "True", "TRUE", "on", "On", "ON"]
/-- Words for false. -/
def falseWords : List String := ["no", "No", "NO", "false", "False", "FALSE", "off", "Off", "OFF"]
/-- Words for null. -/
def nullWords : List String := ["~", "null", "Null", "NULL", ""]

/-- PyYAML's float pattern requires a point, and a sign in front of the exponent. -/
def isFloat (n : Num) : Bool := n.dot && n.exp.all fun e => e.1.isSome

/-- PyYAML's decimal integer pattern. -/
def isInt (n : Num) : Bool :=
  !n.dot && n.exp.isNone && (n.int == ['0'] || n.int.head? != some '0')

/-- The implicit resolver of PyYAML.  Simplification: octal, hexadecimal, binary and sexagesimal
numbers, digit separators, infinities, NaN and dates are not recognised; the writer prints none. -/
def resolve (t : Txt) : Scalar :=
  let s := String.ofList t
  if s ∈ trueWords then .bool true
  else if s ∈ falseWords then .bool false
  else if s ∈ nullWords then .null
  else match scan t with
    | none => .str s
    | some n =>
      if isFloat n then .float n.value
      else if isInt n then .int (if n.neg then -(Nat.ofDigitChars 10 n.int 0 : ℤ)
        else Nat.ofDigitChars 10 n.int 0)
      else .str s

/-! ## Parameters -/

/-- `PolymlpGtinvParams` (`core/data_format.py` 92-137) without the tables read from disk. -/
structure Gtinv where
  order : ℕ
  maxL : List ℕ
  version : ℕ
  deriving DecidableEq

/-- `PolymlpModelParams` (`core/data_format.py` 141-200) without the pair table, which is in
`Params.Single`. -/
structure Mod where
  cutoff : ℚ
  pairType : String
  featureType : String
  modelType : ℕ
  maxP : ℕ
  maxL : ℕ
  gtinv : Gtinv
  pairParams : List (List ℚ)
  deriving DecidableEq

/-- The fields of `PolymlpParamsSingle` (`core/data_format.py` 203-262) that a potential file
stores. -/
structure Fields where
  single : Single ℚ (List ℕ)
  mod : Mod
  typeFull : Option Bool
  typeIndices : List ℕ
  deriving DecidableEq

/-- A `PolymlpParamsSingle` object: its fields, and the copy `params_elements` made before spin
channels are added (`core/data_format.py` 293, 324-327). -/
structure Obj where
  cur : Fields
  base : Fields
  deriving DecidableEq

/-- `PolymlpParamsSingle(…)` (`core/data_format.py` 263-266, 291-322); the constructor of the
invariants has the assertion of `core/data_format.py` 126-129.  Simplification: the tables of
invariants are not read. -/
def mkObj (f : Fields) : Except Err Obj :=
  if f.mod.gtinv.maxL.length + 1 < f.mod.gtinv.order then .error .assertionError
  else (mkSingle f.single).map fun s => ⟨{ f with single := s }, f⟩

/-! ## The document -/

/-- The entries of a potential file, scalars as text. -/
structure Doc where
  elements : List Txt
  enableSpins : List Txt
  cutoff : Txt
  pairType : Txt
  featureType : Txt
  modelType : Txt
  maxP : Txt
  maxL : Txt
  gtinv : Option (Txt × List Txt × List Txt × Txt)
  mass : List Txt
  nPairParams : Txt
  pairParams : List (List Txt)
  nTypePairs : Txt
  typePairs : List (List Txt × List Txt)
  typeFull : Txt
  typeIndices : List Txt
  nCoeffs : Txt
  coeffs : List Txt
  deriving DecidableEq

/-- `mass_table()` (`core/utils.py` 42-153), values as Python prints them. -/
def massTable : List (String × String) :=
  [("H", "1.008"), ("He", "4.003"), ("Li", "6.941"), ("Be", "9.012"), ("B", "10.81"),
   ("C", "12.01"), ("N", "14.01"), ("O", "16.0"), ("F", "19.0"), ("Ne", "20.18"),
   ("Na", "22.99"), ("Mg", "24.31"), ("Al", "26.98"), ("Si", "28.09"), ("P", "30.97"),
   ("S", "32.07"), ("Cl", "35.45"), ("Ar", "39.95"), ("K", "39.1"), ("Ca", "40.08"),
   ("Sc", "44.96"), ("Ti", "47.88"), ("V", "50.94"), ("Cr", "52.0"), ("Mn", "54.94"),
   ("Fe", "55.85"), ("Co", "58.93"), ("Ni", "58.69"), ("Cu", "63.55"), ("Zn", "65.39"),
   ("Ga", "69.72"), ("Ge", "72.61"), ("As", "74.92"), ("Se", "78.96"), ("Br", "79.9"),
   ("Kr", "83.8"), ("Rb", "85.47"), ("Sr", "87.62"), ("Y", "88.91"), ("Zr", "91.22"),
   ("Nb", "92.91"), ("Mo", "95.94"), ("Tc", "99"), ("Ru", "101.1"), ("Rh", "102.9"),
   ("Pd", "106.4"), ("Ag", "107.9"), ("Cd", "112.4"), ("In", "114.8"), ("Sn", "118.7"),
   ("Sb", "121.8"), ("Te", "127.6"), ("I", "126.9"), ("Xe", "131.3"), ("Cs", "132.9"),
   ("Ba", "137.3"), ("La", "138.9"), ("Ce", "140.1"), ("Pr", "140.9"), ("Nd", "144.2"),
   ("Pm", "145"), ("Sm", "150.4"), ("Eu", "152.0"), ("Gd", "157.3"), ("Tb", "158.9"),
   ("Dy", "162.5"), ("Ho", "164.9"), ("Er", "167.3"), ("Tm", "168.9"), ("Yb", "173.0"),
   ("Lu", "175.0"), ("Hf", "178.5"), ("Ta", "180.9"), ("W", "183.8"), ("Re", "186.2"),
   ("Os", "190.2"), ("Ir", "192.2"), ("Pt", "195.1"), ("Au", "197.0"), ("Hg", "200.6"),
   ("Tl", "204.4"), ("Pb", "207.2"), ("Bi", "209.0"), ("Po", "210"), ("At", "210"),
   ("Rn", "222"), ("Fr", "223"), ("Ra", "226"), ("Ac", "227"), ("Th", "232.0"), ("Pa", "231.0"),
   ("U", "238.0"), ("Np", "237"), ("Pu", "239"), ("Am", "243"), ("Cm", "247"), ("Bk", "247"),
   ("Cf", "252"), ("Es", "252"), ("Fm", "257"), ("Md", "256"), ("No", "259"), ("Lr", "260")]

/-- `mass_table()[ele]`. -/
def massOf (ele : String) : Except Err Txt :=
  orErr .keyError (((massTable.find? fun p => p.1 == ele).map (·.2)).map String.toList)

/-- The values written for `enable_spins` (`io_polymlp_yaml.py` 34-37). -/
def spinFlags (s : Single ℚ (List ℕ)) : List ℕ :=
  match s.enableSpins with
  | none => s.elements.map fun _ => 0
  | some f => f.map Bool.toNat

/-- The values written for `type_full` and `type_indices` (`io_polymlp_yaml.py` 73-78). -/
def typeInfo (f : Fields) : ℕ × List ℕ :=
  match f.typeFull with
  | some b => (b.toNat, f.typeIndices)
  | none => (1, List.range f.single.nType)

/-- The entries for the invariants (`io_polymlp_yaml.py` 47-53). -/
def gtinvEntry (m : Mod) : Option (Txt × List Txt × List Txt × Txt) :=
  if m.featureType = "gtinv" then
    some (showNat m.gtinv.order, m.gtinv.maxL.map showNat, m.gtinv.maxL.map fun _ => showNat 0,
      showNat m.gtinv.version)
  else none

/-- `save_mlp_yaml` (`io_polymlp_yaml.py` 17-86).  `showF` is Python's `repr` of a float.
Simplification: coefficients and scales of different lengths raise `ValueError` also where numpy
would broadcast. -/
def save (showF : ℚ → Txt) (o : Obj) (coeffs scales : List ℚ) : Except Err Doc := do
  let mass ← o.cur.single.elements.mapM massOf
  if coeffs.length ≠ scales.length then .error .valueError
  else return {
    elements := o.base.single.elements.map String.toList
    enableSpins := (spinFlags o.base.single).map showNat
    cutoff := showF o.base.mod.cutoff
    pairType := o.base.mod.pairType.toList
    featureType := o.base.mod.featureType.toList
    modelType := showNat o.base.mod.modelType
    maxP := showNat o.base.mod.maxP
    maxL := showNat o.base.mod.maxL
    gtinv := gtinvEntry o.base.mod
    mass := mass
    nPairParams := showNat o.base.mod.pairParams.length
    pairParams := o.base.mod.pairParams.map fun p => p.map showF
    nTypePairs := showNat o.base.single.pairs.length
    typePairs := o.base.single.pairs.map fun kv =>
      ([showNat kv.1.1, showNat kv.1.2], kv.2.map showNat)
    typeFull := showNat (typeInfo o.base).1
    typeIndices := (typeInfo o.base).2.map showNat
    nCoeffs := showNat coeffs.length
    coeffs := (List.zipWith (· / ·) coeffs scales).map fmtE }

/-! ## The text -/

/-- `", ".join(l)`. -/
def joinComma : List Txt → Txt
  | [] => []
  | [a] => a
  | a :: b :: l => a ++ ',' :: ' ' :: joinComma (b :: l)

/-- `str(l)` of a list with elements printed as `l`. -/
def showList (l : List Txt) : Txt := '[' :: joinComma l ++ [']']

/-- `print("key:…", value)`: `pad` spaces in total between the colon and the value. -/
def kv (key : String) (pad : ℕ) (val : Txt) : Txt :=
  key.toList ++ ':' :: List.replicate pad ' ' ++ val

/-- The lines for the invariants (`io_polymlp_yaml.py` 47-53). -/
def gtinvLines : Option (Txt × List Txt × List Txt × Txt) → List Txt
  | none => []
  | some (o, l, s, v) => [kv "gtinv_order" 3 o, kv "gtinv_maxl" 4 (showList l),
      kv "gtinv_sym" 5 (showList s), kv "gtinv_version" 1 v, []]

/-- The lines printed by `save_mlp_yaml` (`io_polymlp_yaml.py` 28-86). -/
def render (d : Doc) : List Txt :=
  [kv "elements" 6 (showList d.elements), kv "enable_spins" 2 (showList d.enableSpins),
    kv "cutoff" 8 d.cutoff, kv "pair_type" 5 d.pairType, kv "feature_type" 2 d.featureType,
    kv "model_type" 4 d.modelType, kv "max_p" 9 d.maxP, kv "max_l" 9 d.maxL, []] ++
  gtinvLines d.gtinv ++
  [kv "electrostatic" 1 (showNat 0), kv "mass" 10 (showList d.mass), [],
    kv "n_pair_params" 1 d.nPairParams, "pair_params:".toList] ++
  d.pairParams.map (fun p => '-' :: ' ' :: showList p) ++
  [[], kv "n_type_pairs" 1 d.nTypePairs, "type_pairs:".toList] ++
  d.typePairs.flatMap (fun p => [kv "- atom_type_pair" 6 (showList p.1),
    kv "  pair_params_indices" 1 (showList p.2)]) ++
  [[], kv "type_full" 4 d.typeFull, kv "type_indices" 1 (showList d.typeIndices), [],
    kv "n_coeffs" 1 d.nCoeffs, kv "coeffs" 1 (showList d.coeffs)]

/-! ## The Python reader

`yaml.safe_load` is not modelled on text: it is taken to return the entries of the document with
every scalar resolved by `resolve`.  The Python code does not check types; where the model raises
`TypeError` for a value of another type, the code goes on with that value. -/

/-- A natural number. -/
def asNat : Scalar → Except Err ℕ
  | .int i => if 0 ≤ i then .ok i.toNat else .error .typeError
  | _ => .error .typeError

/-- A number. -/
def asNum : Scalar → Except Err ℚ
  | .int i => .ok i
  | .float q => .ok q
  | _ => .error .typeError

/-- A string. -/
def asStr : Scalar → Except Err String
  | .str s => .ok s
  | _ => .error .typeError

/-- `bool(v)` of a number. -/
def asFlag (s : Scalar) : Except Err Bool := (asNum s).map fun q => decide (q ≠ 0)

/-- The invariants read from the document (`io_polymlp_yaml.py` 118-126); a missing key raises
`KeyError`. -/
def loadGtinv (d : Doc) (featureType : String) : Except Err Gtinv :=
  if featureType = "gtinv" then do
    let g ← orErr .keyError d.gtinv
    let order ← asNat (resolve g.1)
    let maxL ← g.2.1.mapM fun t => asNat (resolve t)
    let version ← asNat (resolve g.2.2.2)
    return ⟨order, maxL, version⟩
  else .ok ⟨0, [], 1⟩

/-- The pair table (`io_polymlp_yaml.py` 128-130); an empty sequence reads as `None`, which cannot be
iterated over. -/
def loadPairs (d : Doc) : Except Err (Dict (ℕ × ℕ) (List ℕ)) :=
  if d.typePairs = [] then .error .typeError
  else do
    let items ← d.typePairs.mapM fun p => do
      let k ← p.1.mapM fun t => asNat (resolve t)
      let v ← p.2.mapM fun t => asNat (resolve t)
      let a ← orErr .indexError k[0]?
      let b ← orErr .indexError k[1]?
      return ((a, b), v)
    return Dict.setAll [] items

/-- `load_mlp_yaml` (`io_polymlp_yaml.py` 89-154) for documents with `enable_spins`. -/
def load (d : Doc) : Except Err (Obj × List ℚ) := do
  let elements ← d.elements.mapM fun t => asStr (resolve t)
  let spins ← d.enableSpins.mapM fun t => asFlag (resolve t)
  let featureType ← asStr (resolve d.featureType)
  let gtinv ← loadGtinv d featureType
  let pairs ← loadPairs d
  let cutoff ← asNum (resolve d.cutoff)
  let modelType ← asNat (resolve d.modelType)
  let maxP ← asNat (resolve d.maxP)
  let maxL ← asNat (resolve d.maxL)
  let pairType ← asStr (resolve d.pairType)
  let pairParams ← d.pairParams.mapM fun p => p.mapM fun t => asNum (resolve t)
  let typeFull ← asFlag (resolve d.typeFull)
  let typeIndices ← d.typeIndices.mapM fun t => asNat (resolve t)
  let o ← mkObj ⟨⟨elements.length, elements, some (spins.map fun _ => 0), some spins, pairs⟩,
    ⟨cutoff, pairType, featureType, modelType, maxP, maxL, gtinv, pairParams⟩,
    some typeFull, typeIndices⟩
  let coeffs ← d.coeffs.mapM fun t => asNum (resolve t)
  return (o, coeffs)

/-! ## The C++ reader -/

/-- White space of `operator>>`. -/
def isWs (c : Char) : Bool := c == ' ' || c == '\t'

/-- The pieces between separators, including empty ones. -/
def pieces (p : Char → Bool) : Txt → List Txt
  | [] => [[]]
  | c :: r => if p c then [] :: pieces p r
      else match pieces p r with
        | [] => [[c]]
        | h :: t => (c :: h) :: t

/-- `split(s, delim)` (`polymlp_parse_potential.cpp` 20-31). -/
def splitC (delim : Char) (s : Txt) : List Txt := (pieces (· == delim) s).filter (· ≠ [])

/-- The words that `ss >> tmp` reads one after the other. -/
def words (s : Txt) : List Txt := (pieces isWs s).filter (· ≠ [])

/-- `while (!ss.eof()){ ss >> tmp; push_back(tmp) }` (`polymlp_parse_potential.cpp` 45-48): the
stream is at its end after the last word only if nothing follows; otherwise one more read fails and
leaves `tmp` as it was. -/
def readAll (s : Txt) : List Txt :=
  let w := words s
  if s.getLast?.all isWs then w ++ [w.getLast?.getD []] else w

/-- `split_list` (`polymlp_parse_potential.cpp` 33-56).  Indexing an empty vector (undefined
behaviour) is an error. -/
def splitList (s : Txt) : Except Err (List Txt) :=
  if '[' ∈ s then do
    let a ← orErr .indexError (splitC '[' s)[1]?
    let b ← orErr .indexError (splitC ']' a)[0]?
    return readAll (b.map fun c => if c = ',' then ' ' else c)
  else .ok [((words s).head?).getD []]

/-- `std::stoi`; no digits raise `std::invalid_argument`. -/
def stoi (t : Txt) : Except Err ℤ :=
  let s := takeSign t
  let d := s.2.takeWhile Char.isDigit
  if d = [] then .error .valueError
  else .ok (if s.1 == some true then -(Nat.ofDigitChars 10 d 0 : ℤ) else Nat.ofDigitChars 10 d 0)

/-- `std::stod`.  Simplification: the whole token must be a number; exact value. -/
def stod (t : Txt) : Except Err ℚ := (orErr .valueError (scan t)).map Num.value

/-- The members of `ParsePolymlpYaml` and the local `key`. -/
structure St where
  key : Txt := []
  params : Dict Txt (List Txt) := []
  pairParams : List (List Txt) := []
  pairCond : List (List (List Txt)) := []
  deriving DecidableEq

/-- `table[i][j] = v`; out of range (undefined behaviour) is an error. -/
def put2 {α : Type} (table : List (List α)) (i j : ℤ) (v : α) : Except Err (List (List α)) := do
  let row ← orErr .indexError (table[i.toNat]?)
  if 0 ≤ i ∧ 0 ≤ j ∧ j.toNat < row.length then .ok (table.set i.toNat (row.set j.toNat v))
  else .error .indexError

/-- The loop over type pairs (`polymlp_parse_potential.cpp` 105-113): the table and the lines left.
Simplification: reading past the end of the file is an error. -/
def parsePairs : ℕ → List Txt → List (List (List Txt)) →
    Except Err (List (List (List Txt)) × List Txt)
  | 0, lines, tab => .ok (tab, lines)
  | n + 1, l1 :: l2 :: rest, tab => do
    let s1 ← splitList l1
    let s2 ← splitList l2
    let t1 ← orErr .indexError s1[0]?
    let i1 ← stoi t1
    let t2 ← orErr .indexError s1[1]?
    let i2 ← stoi t2
    let tab' ← put2 tab i1 i2 s2
    parsePairs n rest tab'
  | _ + 1, _, _ => .error .runtimeError

/-- `parse_2d` after the header line (`polymlp_parse_potential.cpp` 117-127). -/
def parse2d : ℕ → List Txt → List (List Txt) → Except Err (List (List Txt) × List Txt)
  | 0, lines, acc => .ok (acc, lines)
  | n + 1, l :: rest, acc => do
    let s ← splitList l
    parse2d n rest (acc ++ [s])
  | _ + 1, [], _ => .error .runtimeError

/-- `assign_exceptional_parameters` (`polymlp_parse_potential.cpp` 85-115): the new state and the
lines left. -/
def assign (st : St) (lines : List Txt) : Except Err (St × List Txt) :=
  if st.key = "n_pair_params".toList then do
    let v ← orErr .keyError (st.params.get? st.key)
    let t ← orErr .indexError v[0]?
    let n ← stoi t
    let r ← parse2d n.toNat (lines.drop 1) []
    return ({ st with pairParams := r.1 }, r.2)
  else if st.key = "n_type_pairs".toList then do
    let n := ((st.params.get? "elements".toList).getD []).length
    let v ← orErr .keyError (st.params.get? st.key)
    let t ← orErr .indexError v[0]?
    let m ← stoi t
    let r ← parsePairs m.toNat (lines.drop 1) (List.replicate n (List.replicate n []))
    return ({ st with pairCond := r.1 }, r.2)
  else .ok (st, lines)

/-- The main loop of the constructor (`polymlp_parse_potential.cpp` 68-80).  The first argument bounds
the number of lines. -/
def parseLoop : ℕ → List Txt → St → Except Err St
  | _, [], st => .ok st
  | 0, _ :: _, st => .ok st
  | fuel + 1, line :: rest, st =>
    match splitC ':' line with
    | [] => parseLoop fuel rest st
    | [k] => parseLoop fuel rest { st with key := ((words k).head?).getD st.key }
    | k :: v :: _ => do
      let val ← splitList v
      let key := ((words k).head?).getD st.key
      let r ← assign { st with key := key, params := st.params.set key val } rest
      parseLoop fuel r.2 r.1

/-- `ParsePolymlpYaml(file)`. -/
def parseFile (lines : List Txt) : Except Err St := parseLoop lines.length lines {}

/-- `params[key]`: a missing key gives an empty vector. -/
def St.get (st : St) (key : String) : List Txt := (st.params.get? key.toList).getD []

/-- `params[key][0]`. -/
def St.get0 (st : St) (key : String) : Except Err Txt := orErr .indexError (st.get key)[0]?

/-- What `parse_polymlp` sets. -/
structure Fp where
  elements : List String
  cutoff : ℚ
  pairType : String
  featureType : String
  modelType : ℤ
  maxP : ℤ
  maxL : ℤ
  gtinv : Option (ℤ × List ℤ × ℤ)
  regCoeffs : List ℚ
  params : List (List ℚ)
  paramsConditional : List (List (List ℤ))
  mass : List ℚ
  deriving DecidableEq

/-- The arguments for the table of invariants (`polymlp_parse_potential.cpp` 234-244). -/
def fpGtinv (st : St) (featureType : String) : Except Err (Option (ℤ × List ℤ × ℤ)) :=
  if featureType = "gtinv" then do
    let o ← st.get0 "gtinv_order"
    let order ← stoi o
    let maxl ← (st.get "gtinv_maxl").mapM stoi
    let v ← st.get0 "gtinv_version"
    let version ← stoi v
    return some (order, maxl, if version ≠ 2 then 1 else version)
  else .ok none

/-- `parse_polymlp` (`polymlp_parse_potential.cpp` 214-257). -/
def parsePolymlp (lines : List Txt) : Except Err Fp := do
  let st ← parseFile lines
  let cutoff ← (st.get0 "cutoff").bind stod
  let pairType ← st.get0 "pair_type"
  let featureType ← st.get0 "feature_type"
  let modelType ← (st.get0 "model_type").bind stoi
  let maxP ← (st.get0 "max_p").bind stoi
  let maxL ← (st.get0 "max_l").bind stoi
  let gtinv ← fpGtinv st (String.ofList featureType)
  let coeffs ← (st.get "coeffs").mapM stod
  let params ← st.pairParams.mapM fun p => p.mapM stod
  let cond ← st.pairCond.mapM fun r => r.mapM fun c => c.mapM stoi
  let mass ← (st.get "mass").mapM stod
  let _ ← (st.get "type_indices").mapM stoi
  return ⟨(st.get "elements").map String.ofList, cutoff, String.ofList pairType,
    String.ofList featureType, modelType, maxP, maxL, gtinv, coeffs.map (· * 2), params, cond, mass⟩

end Verif.MlpYaml
