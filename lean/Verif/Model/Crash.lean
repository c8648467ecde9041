import Verif.Model.MlpFiles
import Verif.Model.MlpYaml

/-!
# Interrupted saving of potential files

`/repo/src/pypolymlp/core/io_polymlp_yaml.py` 17-86 (`save_mlp_yaml`) and 89-154 (`load_mlp_yaml`),
`/repo/src/pypolymlp/core/io_polymlp.py` 25-51 (`save_mlps`), and the reading of lines in
`/repo/src/pypolymlp/cxx/src/polymlp/polymlp_parse_potential.cpp` 60-81.

A save is a list of elementary steps on the disk; a crash after `j` of them leaves the result of the
first `j` steps.  Simplification: characters reach the disk in the order in which they are printed
(buffering only delays them), and a step on one file does not touch another one.
-/

namespace Verif.Crash
open Verif.MlpYaml Verif.Params

/-- The contents of the files. -/
abbrev Disk := String → Option Txt

/-- A step on the disk. -/
inductive Op where
  | create (name : String)
  | write (name : String) (c : Char)
  deriving DecidableEq

/-- One step: `open(filename, "w")` (`io_polymlp_yaml.py` 29) makes an empty file, also where there
was one; a character is put at the end of the file. -/
def step (d : Disk) : Op → Disk
  | .create n => fun x => if x = n then some [] else d x
  | .write n c => fun x => if x = n then (d n).map (· ++ [c]) else d x

/-- The disk after a crash that lets `j` steps happen. -/
def crash (d : Disk) (ops : List Op) (j : ℕ) : Disk := (ops.take j).foldl step d

/-- The text of lines that are printed with `print` (`io_polymlp_yaml.py` 32-84). -/
def text (lines : List Txt) : Txt := lines.flatMap (· ++ ['\n'])

/-- The steps of printing `t` to a file (`io_polymlp_yaml.py` 29-86). -/
def printed (name : String) (t : Txt) : List Op := .create name :: t.map (.write name)

/-- The arguments of one call of `save_mlp` (`io_polymlp.py` 15-22). -/
structure Job where
  name : String
  obj : Obj
  coeffs : List ℚ
  scales : List ℚ

/-- The lines printed before the masses are looked up (`io_polymlp_yaml.py` 30-55). -/
def headLines (showF : ℚ → Txt) (o : Obj) : List Txt :=
  [kv "elements" 6 (showList (o.base.single.elements.map String.toList)),
    kv "enable_spins" 2 (showList ((spinFlags o.base.single).map showNat)),
    kv "cutoff" 8 (showF o.base.mod.cutoff), kv "pair_type" 5 o.base.mod.pairType.toList,
    kv "feature_type" 2 o.base.mod.featureType.toList,
    kv "model_type" 4 (showNat o.base.mod.modelType), kv "max_p" 9 (showNat o.base.mod.maxP),
    kv "max_l" 9 (showNat o.base.mod.maxL), []] ++
  gtinvLines (gtinvEntry o.base.mod) ++ [kv "electrostatic" 1 (showNat 0)]

/-- The lines printed before the coefficients are divided by the scales (`io_polymlp_yaml.py`
57-79). -/
def midLines (showF : ℚ → Txt) (o : Obj) (mass : List Txt) : List Txt :=
  [kv "mass" 10 (showList mass), [],
    kv "n_pair_params" 1 (showNat o.base.mod.pairParams.length), "pair_params:".toList] ++
  o.base.mod.pairParams.map (fun p => '-' :: ' ' :: showList (p.map showF)) ++
  [[], kv "n_type_pairs" 1 (showNat o.base.single.pairs.length), "type_pairs:".toList] ++
  o.base.single.pairs.flatMap (fun p => [kv "- atom_type_pair" 6
      (showList [showNat p.1.1, showNat p.1.2]),
    kv "  pair_params_indices" 1 (showList (p.2.map showNat))]) ++
  [[], kv "type_full" 4 (showNat (typeInfo o.base).1),
    kv "type_indices" 1 (showList ((typeInfo o.base).2.map showNat)), []]

/-- The lines that `save_mlp_yaml` prints, and the exception that ends it early
(`io_polymlp_yaml.py` 30-86): an element without a mass raises `KeyError` (56), lengths that differ
raise `ValueError` (81).  Simplification: as in `MlpYaml.save`, numpy's broadcasting is left out; a file
that is not closed by the code is closed when the exception is reported. -/
def saveLines (showF : ℚ → Txt) (o : Obj) (coeffs scales : List ℚ) : List Txt × Option Err :=
  match o.cur.single.elements.mapM massOf with
  | .error e => (headLines showF o, some e)
  | .ok mass =>
    if coeffs.length ≠ scales.length then
      (headLines showF o ++ midLines showF o mass, some .valueError)
    else
      (headLines showF o ++ midLines showF o mass ++
        [kv "n_coeffs" 1 (showNat coeffs.length),
          kv "coeffs" 1 (showList ((List.zipWith (· / ·) coeffs scales).map fmtE))], none)

/-- One call of `save_mlp` (`io_polymlp.py` 15-22): its steps and its exception. -/
def saveJob (showF : ℚ → Txt) (j : Job) : List Op × Option Err :=
  let r := saveLines showF j.obj j.coeffs j.scales
  (printed j.name (text r.1), r.2)

/-- The loop of `save_mlps` (`io_polymlp.py` 38-49): one file after the other; an exception ends it. -/
def saveLoop (showF : ℚ → Txt) : List Job → List Op × Option Err
  | [] => ([], none)
  | j :: js =>
    match saveJob showF j with
    | (ops, some e) => (ops, some e)
    | (ops, none) => (ops ++ (saveLoop showF js).1, (saveLoop showF js).2)

/-- The calls of `save_mlps` (`io_polymlp.py` 33-49): one file for a single model; for hybrid models the
files `filename.1`, `filename.2`, … with the slices of coefficients and scales that end at the
cumulative numbers of features.  Simplification: there is a cumulative number for every model. -/
def jobs (filename : String) (params : List Obj) (cum : List ℕ) (coeffs scales : List ℚ) : List Job :=
  match params with
  | [o] => [⟨filename, o, coeffs, scales⟩]
  | _ => params.mapIdx fun i o =>
    let b := if i = 0 then 0 else cum.getD (i - 1) 0
    let e := cum.getD i 0
    ⟨MlpFiles.subName filename i, o, (coeffs.take e).drop b, (scales.take e).drop b⟩

/-- `save_mlps` (`io_polymlp.py` 25-51). -/
def saveMlps (showF : ℚ → Txt) (filename : String) (params : List Obj) (cum : List ℕ)
    (coeffs scales : List ℚ) : List Op × Option Err :=
  saveLoop showF (jobs filename params cum coeffs scales)

/-- The lines that `getline` returns one after the other (`polymlp_parse_potential.cpp` 69): the text
after the last line break counts only if there is any. -/
def linesOf (t : Txt) : List Txt :=
  let l := pieces (· == '\n') t
  if l.getLast? = some [] then l.dropLast else l

/-- `parse_polymlp` on the text of a file. -/
def readCxx (t : Txt) : Except Err Fp := parsePolymlp (linesOf t)

/-- `yml = yaml.safe_load(…)` and the last statement `return params, yml["coeffs"]` of `load_mlp_yaml`
(`io_polymlp_yaml.py` 102-105, 154): what is returned for the coefficients.  `parse` is the yaml
library.  Simplification: an error of the library is `RuntimeError`; the statements between may fail
as well. -/
def pyCoeffs {V : Type} (parse : Txt → Option (String → Option V)) (t : Txt) : Except Err V := do
  let yml ← orErr .runtimeError (parse t)
  orErr .keyError (yml "coeffs")

end Verif.Crash
