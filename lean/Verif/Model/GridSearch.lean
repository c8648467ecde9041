import Verif.Model.Py
import Verif.Model.Dict
import Verif.Model.Infile
import Verif.Model.Params
import Mathlib.Data.Rat.Floor
import Mathlib.Data.List.ProdSigma

/-!
# Grid search of models

`/repo/src/pypolymlp/utils/grid_search/{grid_utils,grid_enum,grid_io,api_grid_search}.py`, and the
reader of the files it writes, `/repo/src/pypolymlp/core/parser_polymlp_params.py` 50-222.

Simplifications: cutoffs and regularisation parameters are exact rationals, `model_types`, `maxps`
and the maximum angular numbers are natural numbers.  Printing to the terminal is left out.
-/

namespace Verif.GridSearch
open Verif.Infile (PStr Parsed Value)

/-- `np.rint`, `np.round`, `round`: ties go to the even neighbour. -/
def rint (x : ℚ) : ℤ :=
  if x - ⌊x⌋ < 1 / 2 then ⌊x⌋
  else if 1 / 2 < x - ⌊x⌋ then ⌊x⌋ + 1
  else if ⌊x⌋ % 2 = 0 then ⌊x⌋ else ⌊x⌋ + 1

/-! ## Parameters of the grid -/

/-- `GtinvAttrs` (`grid_utils.py` 10-24). -/
structure GtinvAttrs where
  modelType : ℕ
  order : ℕ
  maxl : List ℕ
  deriving DecidableEq

/-- `GaussianAttrs` (`grid_utils.py` 27-38). -/
structure GaussianAttrs where
  cutoff : ℚ
  n : ℤ
  deriving DecidableEq

/-- The arguments of `set_params` (`api_grid_search.py` 55-69).  Simplification: a single integer
given for a tuple (`grid_utils.py` 78-85) is the tuple of that integer. -/
structure Args where
  cutoffs : Option (List ℚ) := none
  nums : Option (List ℤ) := none
  modelTypes : List ℕ := [2, 3, 4]
  maxps : List ℕ := [2, 3]
  gtinv : Bool := true
  orderUb : ℕ := 4
  maxlUb : List ℕ := [12, 8, 2, 1, 1]
  maxlInt : List ℕ := [4, 4, 2, 1, 1]
  attrs : Option (List GtinvAttrs) := none
  includeForce : Bool := true
  includeStress : Bool := true
  alpha : List ℚ := [-4, 1, 6]
  deriving DecidableEq

/-- `ParamsGrid` after `__post_init__` (`grid_utils.py` 41-75). -/
structure Grid where
  radial : List GaussianAttrs
  modelTypes : List ℕ
  maxps : List ℕ
  gtinv : Bool
  attrs : Option (List GtinvAttrs)
  includeForce : Bool
  includeStress : Bool
  alpha : List ℚ
  deriving DecidableEq

/-- `list(range(interval, ub + 1, interval))` (`grid_utils.py` 115); a step of zero raises
`ValueError`. -/
def maxlRange (interval ub : ℕ) : Except Err (List ℕ) :=
  if interval = 0 then .error .valueError
  else .ok ((List.range (ub / interval)).map fun (k : ℕ) => (k + 1) * interval)

/-- One iteration of the loop over the orders (`grid_utils.py` 112-115), `idx = gtinv_order - 2`. -/
def maxlAt (maxlInt maxlUb : List ℕ) (idx : ℕ) : Except Err (List ℕ) := do
  let interval ← orErr .indexError maxlInt[idx]?
  let ub ← orErr .indexError maxlUb[idx]?
  maxlRange interval ub

/-- `itertools.product(*lists)`: the last factor runs fastest. -/
def product : List (List ℕ) → List (List ℕ)
  | [] => [[]]
  | l :: ls => l.flatMap fun (a : ℕ) => (product ls).map fun t => a :: t

/-- `np.all(lp[:-1] - lp[1:] >= 0)` (`grid_utils.py` 121). -/
def nonIncreasing (lp : List ℕ) : Bool :=
  (List.zipWith (fun (a b : ℕ) => decide (b ≤ a)) lp.dropLast lp.tail).all id

/-- The `include` flag (`grid_utils.py` 126-132). -/
def included (model : ℕ) (lp : List ℕ) : Bool :=
  if model = 2 ∧ 2 < lp.length then false
  else if model = 2 ∧ lp.length = 1 then false
  else if model = 2 ∧ 5 < lp.getD 1 0 then false
  else true

/-- `l_list` (`grid_utils.py` 117-122). -/
def lList (maxls : List (List ℕ)) (orderUb : ℕ) : List (List ℕ) :=
  (List.range (orderUb - 1)).flatMap fun (i : ℕ) =>
    (product (maxls.take (i + 1))).filter nonIncreasing

/-- `_set_gtinv_params` without given attributes (`grid_utils.py` 107-137). -/
def gtinvAttrs (a : Args) : Except Err (List GtinvAttrs) :=
  if (List.zip a.maxlUb a.maxlInt).any fun p => decide (p.1 < p.2) then .error .runtimeError
  else do
    let maxls ← (List.range (a.orderUb - 1)).mapM (maxlAt a.maxlInt a.maxlUb)
    return ((a.modelTypes ×ˢ lList maxls a.orderUb).filter fun p => included p.1 p.2).map fun p =>
      ⟨p.1, p.2.length + 1, p.2⟩

/-- `_set_gtinv_params` (`grid_utils.py` 102-137). -/
def setGtinv (a : Args) : Except Err (List GtinvAttrs) :=
  match a.attrs with
  | some l => .ok l
  | none => gtinvAttrs a

/-- `_auto_cutoff` (`api_grid_search.py` 31-38).  `sizes` is the table of `get_atomic_size_scales`;
`np.unique` sorts and removes the second value if it equals the first. -/
def autoCutoff (sizes : PStr → Option ℚ) (elements : List PStr) : Except Err (List ℚ) := do
  let ss ← elements.mapM fun e => orErr .keyError (sizes e)
  let m ← orErr .valueError ss.max?
  let c1 : ℚ := max (rint (11 / 2 * m)) 6
  let c2 : ℚ := max (rint (15 / 2 * m)) 8
  return if c1 = c2 then [c1] else if c1 < c2 then [c1, c2] else [c2, c1]

/-- `_auto_gaussians` (`api_grid_search.py` 40-53). -/
def autoGaussians (cutoffs : List ℚ) (nums : Option (List ℤ)) : List GaussianAttrs :=
  match nums with
  | none => (cutoffs ×ˢ [(1 : ℚ), 5 / 4, 3 / 2]).map fun p => ⟨p.1, rint ((p.1 + 1) * p.2)⟩
  | some ns => (cutoffs ×ˢ ns).map fun p => ⟨p.1, p.2⟩

/-- `if cutoffs is None: cutoffs = self._auto_cutoff()` (`api_grid_search.py` 85-86). -/
def theCutoffs (sizes : PStr → Option ℚ) (elements : List PStr) (a : Args) : Except Err (List ℚ) :=
  match a.cutoffs with
  | some c => .ok c
  | none => autoCutoff sizes elements

/-- `ParamsGrid(…)` (`grid_utils.py` 69-100): with invariants the attributes are set, without them
the model types are cut. -/
def mkGrid (a : Args) (radial : List GaussianAttrs) : Except Err Grid :=
  if a.alpha.length ≠ 3 then .error .runtimeError
  else if a.gtinv then do
    let l ← setGtinv a
    return ⟨radial, a.modelTypes, a.maxps, true, some l, a.includeForce, a.includeStress, a.alpha⟩
  else .ok ⟨radial, a.modelTypes.filter (· < 3), a.maxps, false, a.attrs, a.includeForce,
    a.includeStress, a.alpha⟩

/-! ## Enumeration -/

/-- `feature_type`. -/
inductive Feature where
  | pair
  | gtinv
  deriving DecidableEq

/-- The fields of `PolymlpParamsSingle` and its model that the grid search sets
(`grid_enum.py` 15-30). -/
structure Params where
  cutoff : ℚ
  modelType : ℕ
  maxP : ℕ
  maxL : ℕ
  feature : Feature
  gtinv : Option GtinvAttrs
  n : ℤ
  nType : ℕ
  elements : List PStr
  alpha : List ℚ
  includeForce : Bool
  includeStress : Bool
  deriving DecidableEq

/-- `get_model_types_pair` (`grid_utils.py` 90-94). -/
def pairTypes (g : Grid) : List ℕ := if g.gtinv then [2] else g.modelTypes.filter (· < 3)

/-- `enum_pair_models` (`grid_enum.py` 9-33). -/
def enumPair (g : Grid) (elements : List PStr) : List Params :=
  (g.radial ×ˢ (pairTypes g ×ˢ g.maxps)).map fun p =>
    { cutoff := p.1.cutoff, modelType := p.2.1, maxP := p.2.2, maxL := 0, feature := .pair
      gtinv := none, n := p.1.n, nType := elements.length, elements := elements, alpha := g.alpha
      includeForce := g.includeForce, includeStress := g.includeStress }

/-- `add_single_model` (`grid_enum.py` 64-92); `max(())` raises `ValueError`. -/
def addSingle (g : Grid) (elements : List PStr) (cutoff : ℚ) (n : ℤ) (maxP : ℕ)
    (attr : GtinvAttrs) : Except Err Params := do
  let m ← orErr .valueError attr.maxl.max?
  return { cutoff := cutoff, modelType := attr.modelType, maxP := maxP, maxL := m, feature := .gtinv
           gtinv := some attr, n := n, nType := elements.length, elements := elements
           alpha := g.alpha, includeForce := g.includeForce, includeStress := g.includeStress }

/-- `enum_gtinv_models` (`grid_enum.py` 36-61); `itertools.product` of `None` raises
`TypeError`. -/
def enumGtinv (g : Grid) (elements : List PStr) : Except Err (List Params) := do
  let attrs ← orErr .typeError g.attrs
  (g.radial ×ˢ attrs).mapM fun p => addSingle g elements p.1.cutoff p.1.n 2 p.2

/-! ## The object -/

/-- One entry of the list of hybrid models (`api_grid_search.py` 201, 210). -/
structure Hybrid where
  main : Params
  aux : Params
  idMain : ℕ
  idHyb : ℕ
  deriving DecidableEq

/-- The attributes of `PolymlpGridSearch` (`api_grid_search.py` 22-29). -/
structure State where
  elements : List PStr
  grid : Option Grid := none
  params : Option (List Params) := none
  hybrid : Option (List Hybrid) := none
  deriving DecidableEq

/-- `set_params` (`api_grid_search.py` 55-110). -/
def setParams (sizes : PStr → Option ℚ) (a : Args) (s : State) : Except Err State := do
  let cutoffs ← theCutoffs sizes s.elements a
  let g ← mkGrid a (autoGaussians cutoffs a.nums)
  return { s with grid := some g }

/-- `enum_pair_models` (`api_grid_search.py` 119-129). -/
def pairModels (s : State) : Except Err State := do
  let g ← orErr .runtimeError s.grid
  return { s with params := some (s.params.getD [] ++ enumPair g s.elements) }

/-- `enum_gtinv_models` (`api_grid_search.py` 131-141).  Simplification: if the enumeration raises,
the list set in line 137 is not kept. -/
def gtinvModels (s : State) : Except Err State := do
  let g ← orErr .runtimeError s.grid
  let l ← enumGtinv g s.elements
  return { s with params := some (s.params.getD [] ++ l) }

/-- `run` (`api_grid_search.py` 112-117).  Simplification: if the second step raises, the pair models
of the first are not kept. -/
def run (s : State) : Except Err State := do
  let s1 ← pairModels s
  let g ← orErr .attributeError s.grid
  if g.gtinv then gtinvModels s1 else return s1

/-- `add_complex_models` (`api_grid_search.py` 143-179); `None.append` raises `AttributeError`. -/
def complexModels (s : State) : Except Err State := do
  let g ← orErr .runtimeError s.grid
  let c ← orErr .valueError (g.radial.map (·.cutoff)).max?
  let n ← orErr .valueError (g.radial.map (·.n)).max?
  if 15 ≤ n then return s
  else do
    let k : ℤ := if n < 12 then 12 else 15
    let p1 ← addSingle g s.elements c k 2 ⟨4, 3, [8, 8]⟩
    let p2 ← addSingle g s.elements c k 2 ⟨4, 4, [12, 8, 2]⟩
    let l ← orErr .attributeError s.params
    return { s with params := some (l ++ [p1, p2]) }

/-- The two hybrid models of model `i` (`api_grid_search.py` 190-210). -/
def hybridPair (g : Grid) (elements : List PStr) (main : Params) (i : ℕ) :
    Except Err (List Hybrid) := do
  let c : ℤ := rint (main.cutoff * 2 / 3)
  let n : ℤ := rint (((c : ℚ) + 1) * 2)
  let a1 ← addSingle g elements c n 2 ⟨4, 3, [4, 4]⟩
  let a2 ← addSingle g elements c n 2 ⟨4, 3, [8, 8]⟩
  return [⟨main, a1, i, 1⟩, ⟨main, a2, i, 2⟩]

/-- `enum_hybrid_models` (`api_grid_search.py` 181-211). -/
def hybridModels (s : State) : Except Err State := do
  let g ← orErr .runtimeError s.grid
  let l ← orErr .runtimeError s.params
  let hs ← l.zipIdx.mapM fun p => hybridPair g s.elements p.1 p.2
  return { s with hybrid := some hs.flatten }

/-- A call of the object that changes it. -/
inductive Op where
  | setParams (a : Args)
  | pair
  | gtinv
  | run
  | complex
  | hybrid

/-- One call. -/
def call (sizes : PStr → Option ℚ) (s : State) : Op → Except Err State
  | .setParams a => setParams sizes a s
  | .pair => pairModels s
  | .gtinv => gtinvModels s
  | .run => run s
  | .complex => complexModels s
  | .hybrid => hybridModels s

/-- A sequence of calls; a call that raises is caught by the caller and the next one follows. -/
def calls (sizes : PStr → Option ℚ) (ops : List Op) (s : State) : State :=
  ops.foldl (fun s op => ((call sizes s op).toOption).getD s) s

/-! ## Files -/

/-- How numbers are written to and read from text: `str` of an `int` and of a `float`, `int` and
`float` of a word. -/
structure Text where
  ofInt : ℤ → PStr
  ofRat : ℚ → PStr
  toInt : PStr → Except Err ℤ
  toRat : PStr → Except Err ℚ

/-- `str(bool)`. -/
def showBool (b : Bool) : PStr := (if b then "True" else "False").toList

/-- `str` of a feature type. -/
def showFeature : Feature → PStr
  | .pair => "pair".toList
  | .gtinv => "gtinv".toList

/-- A line of `print`: words separated by one space, and a newline. -/
def line (ws : List PStr) : PStr := (List.intercalate [' '] ws) ++ ['\n']

/-- The two lines of the invariants (`grid_io.py` 16-22).  Attribute access on `gtinv=None` raises
`AttributeError`; this cannot happen for enumerated models. -/
def gtinvLines (t : Text) (g : GtinvAttrs) : List (List PStr) :=
  [["gtinv_order".toList, t.ofInt g.order],
    "gtinv_maxl".toList :: g.maxl.map fun (l : ℕ) => t.ofInt l]

/-- The words of the lines of `save_params` (`grid_io.py` 6-35). -/
def fileLines (t : Text) (p : Params) : Except Err (List (List PStr)) := do
  let inv ← match p.feature with
    | .pair => Except.ok []
    | .gtinv => (orErr Err.attributeError p.gtinv).map (gtinvLines t)
  let a0 ← orErr .indexError p.alpha[0]?
  let a1 ← orErr .indexError p.alpha[1]?
  let a2 ← orErr .indexError p.alpha[2]?
  return [["feature_type".toList, showFeature p.feature], ["cutoff".toList, t.ofRat p.cutoff],
      ["n_gaussians".toList, t.ofInt p.n], ["model_type".toList, t.ofInt p.modelType],
      ["max_p".toList, t.ofInt p.maxP]] ++ inv ++
    [[], ["include_force".toList, showBool p.includeForce],
      ["include_stress".toList, showBool p.includeStress],
      ["reg_alpha_params".toList, t.ofRat a0, t.ofRat a1, t.ofRat a2], [],
      ["n_type".toList, t.ofInt p.elements.length], "elements".toList :: p.elements]

/-- The text of the file. -/
def fileText (t : Text) (p : Params) : Except Err PStr :=
  (fileLines t p).map fun ls => ls.flatMap line

/-- `str(k).zfill(w)` of a natural number. -/
def zfill (w k : ℕ) : PStr :=
  let digits := Nat.toDigits 10 k
  List.replicate (w - digits.length) '0' ++ digits

/-- The file of model `i` (`api_grid_search.py` 216-218). -/
def modelPath (path : PStr) (k : ℕ) : PStr :=
  path ++ "/polymlp-".toList ++ zfill 4 k ++ "/polymlp.in".toList

/-- The directory of a hybrid model (`api_grid_search.py` 224-225). -/
def hybridDir (path : PStr) (k h : ℕ) : PStr :=
  path ++ "/polymlp-".toList ++ zfill 4 k ++ "-h".toList ++ zfill 2 h

/-- A file system: the text of each file. -/
abbrev Files := Dict PStr PStr

/-- `save_models` (`api_grid_search.py` 213-219); iterating over `None` raises `TypeError`.
Simplification: `first_id` is not negative; if a model cannot be written no file is. -/
def saveModels (t : Text) (path : PStr) (firstId : ℕ) (s : State) (f : Files) :
    Except Err Files := do
  let l ← orErr .typeError s.params
  let ws ← l.zipIdx.mapM fun p => (fileText t p.1).map fun x => (modelPath path (p.2 + firstId), x)
  return Dict.setAll f ws

/-- The two files of a hybrid model (`api_grid_search.py` 223-228). -/
def hybridFiles (t : Text) (path : PStr) (firstId : ℕ) (h : Hybrid) :
    Except Err (List (PStr × PStr)) := do
  let x1 ← fileText t h.main
  let x2 ← fileText t h.aux
  let d := hybridDir path (h.idMain + firstId) h.idHyb
  return [(d ++ "/polymlp.in.1".toList, x1), (d ++ "/polymlp.in.2".toList, x2)]

/-- `save_hybrid_models` (`api_grid_search.py` 221-229). -/
def saveHybrid (t : Text) (path : PStr) (firstId : ℕ) (s : State) (f : Files) :
    Except Err Files := do
  let l ← orErr .typeError s.hybrid
  let ws ← l.mapM (hybridFiles t path firstId)
  return Dict.setAll f ws.flatten

/-! ## Reading the files -/

/-- The parameters read from a file (`parser_polymlp_params.py` 50-66 and 138-166), without those of
spins, of electrons, of conditional pairs and the version of the invariants. -/
structure Read where
  cutoff : ℚ
  modelType : ℤ
  maxP : ℤ
  maxL : ℤ
  feature : PStr
  order : ℤ
  maxl : List ℤ
  gaussians : List (ℚ × ℚ)
  nType : ℤ
  elements : List PStr
  alphas : List ℚ
  includeForce : Bool
  includeStress : Bool
  atomicEnergy : List ℚ
  datasetType : PStr
  deriving DecidableEq

/-- A scalar setting with a default. -/
def scalarOr {α : Type} (conv : PStr → Except Err α) (p : Parsed) (tag : String) (dflt : α) :
    Except Err α :=
  (Infile.getParams conv p tag.toList 1 dflt false false).map fun v =>
    match v with
    | .scalar a => a
    | .array _ => dflt
    | .default d => d

/-- An array setting with a default. -/
def arrayOr {α : Type} (conv : PStr → Except Err α) (p : Parsed) (tag : String) (size : ℕ)
    (dflt : List α) (required : Bool) : Except Err (List α) :=
  (Infile.getParams conv p tag.toList size dflt required true).map fun v =>
    match v with
    | .scalar a => [a]
    | .array l => l
    | .default d => d

/-- `set_gtinv_params` (`params_utils.py` 49-69). -/
def gtinvOf (feature : PStr) (order : ℤ) (maxl : List ℤ) : Except Err (ℤ × List ℤ × ℤ) :=
  if feature = "pair".toList then .ok (0, [], 0)
  else (orErr Err.valueError maxl.max?).map fun m => (order, maxl, m)

/-- `set_regression_alphas` (`params_utils.py` 16-19). -/
def alphasOf : List ℚ → Except Err (List ℚ)
  | [a, b, c] => linspace a b (rint c)
  | _ => .error .assertionError

/-- `set_gaussian_params` without a number of Gaussians, from settings read as floats
(`parser_polymlp_params.py` 197-210, `params_utils.py` 79-83); `int` cuts the fraction. -/
def gaussiansFrom : List ℚ → List ℚ → Except Err (List (ℚ × ℚ))
  | [a, b, c], [d, e, f] => Params.gaussianGrid (a, b, c.num.tdiv c.den) (d, e, f.num.tdiv f.den)
  | _, _ => .error .assertionError

/-- `set_gaussian_params` (`params_utils.py` 71-95). -/
def gaussiansOf (p1 p2 : List ℚ) (n : Option ℤ) (cutoff : ℚ) : Except Err (List (ℚ × ℚ)) :=
  match n with
  | some k => Params.gaussianAuto k (some cutoff)
  | none => gaussiansFrom p1 p2

/-- `_get_force_tags` (`parser_polymlp_params.py` 78-92). -/
def forceTags (p : Parsed) : Except Err (Bool × Bool) := do
  let f ← scalarOr Infile.strtobool p "include_force" true
  let s ← if f then scalarOr Infile.strtobool p "include_stress" true else .ok false
  return (f, s)

/-- `if len(gtinv_maxl) < size: gtinv_maxl.extend([2, …])` (`parser_polymlp_params.py` 180-182). -/
def fillMaxl (maxl : List ℤ) (size : ℕ) : List ℤ := maxl ++ List.replicate (size - maxl.length) 2

/-- `ParamsParserSingle(filename).set_params()` (`parser_polymlp_params.py` 50-222), with
`check_errors` of `PolymlpParamsSingle` (`data_format.py` 275-281).  Simplification: a negative
number of types or a negative order counts as zero or one. -/
def readParams (t : Text) (p : Parsed) : Except Err Read := do
  let tags ← forceTags p
  let nType ← scalarOr t.toInt p "n_type" 1
  let elements ← arrayOr .ok p "elements" nType.toNat [] true
  let atomE ← arrayOr t.toRat p "atomic_energy" nType.toNat (List.replicate nType.toNat 0) false
  let alphaParams ← arrayOr t.toRat p "reg_alpha_params" 3 [-3, 1, 5] false
  let alphas ← alphasOf alphaParams
  let cutoff ← scalarOr t.toRat p "cutoff" 6
  let modelType ← scalarOr t.toInt p "model_type" 1
  let maxP ← scalarOr t.toInt p "max_p" 1
  let feature ← scalarOr .ok p "feature_type" "gtinv".toList
  let order ← scalarOr t.toInt p "gtinv_order" 3
  let maxl ← arrayOr t.toInt p "gtinv_maxl" (order - 1).toNat
    (List.replicate (order - 1).toNat 2) false
  let inv ← gtinvOf feature order (fillMaxl maxl (order - 1).toNat)
  let p1 ← arrayOr t.toRat p "gaussian_params1" 3 [1, 1, 1] false
  let p2 ← arrayOr t.toRat p "gaussian_params2" 3 [0, cutoff - 1, 7] false
  let n ← scalarOr (fun w => (t.toInt w).map some) p "n_gaussians" none
  let gaussians ← gaussiansOf p1 p2 n cutoff
  let datasetType ← scalarOr .ok p "dataset_type" "vasp".toList
  if elements.length = nType.toNat ∧ atomE.length = nType.toNat then
    return ⟨cutoff, modelType, maxP, inv.2.2, feature, inv.1, inv.2.1, gaussians, nType, elements,
      alphas, tags.1, tags.2, atomE, datasetType⟩
  else .error .assertionError

end Verif.GridSearch
