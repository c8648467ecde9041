import Mathlib.Algebra.Order.Field.Basic
import Verif.Model.Dict
import Verif.Model.MlpFiles
import Verif.Model.ElectronFiles

/-!
# Repository entries

`/repo/src/pypolymlp/api/pypolymlp_repository.py`, `calculator/auto_repository/figures_summary.py` 84-140,
`calculator/auto_repository/web.py` 67-74 and `core/io_polymlp.py` 107-141.  Files are items of a dictionary from
directory and name to content; the working directory, the directories of the potentials and those of the entry are
different.  Not modelled: figures, text of the web pages, archives.
-/

namespace Verif.Repository

/-- The directories: the working directory, the directory of a potential, and `polymlps/<id>` of the entry. -/
inductive Dir
  | cwd
  | src (path : List Char)
  | mlp (id : List Char)
  deriving DecidableEq

/-- The files. -/
abbrev Fs (C : Type) := Dict (Dir × List Char) C

variable {C : Type}

/-- `os.remove`. -/
def remove (fs : Fs C) (k : Dir × List Char) : Fs C := fs.filter fun p => p.1 ≠ k

/-- The code that is not modelled: `is_legacy` of the content of a file, and `load_mlp` with `save_mlp` (C24). -/
structure Ext (C : Type) where
  legacy : C → Bool
  conv : C → Except Err C

/-- `glob.glob(path + "/" + start + "*")`, sorted: all names have the same directory. -/
def namesIn (fs : Fs C) (d : Dir) (start : List Char) : List (List Char) :=
  ((fs.keys.filter fun k => k.1 = d ∧ start.isPrefixOf k.2 = true).map (·.2)).insertionSort
    fun a b => MlpFiles.strLe a b = true

/-- `find_mlps` (`io_polymlp.py` 107-118). -/
def find (fs : Fs C) (d : Dir) : Option (List (List Char)) :=
  if (namesIn fs d "polymlp.yaml".toList).length > 0 then some (namesIn fs d "polymlp.yaml".toList)
  else if (namesIn fs d "polymlp.lammps".toList).length > 0 then some (namesIn fs d "polymlp.lammps".toList) else none

/-- The name of a converted file (`io_polymlp.py` 135-138). -/
def convName (total i : ℕ) : List Char :=
  if total > 1 then "polymlp.yaml.".toList ++ (toString (i + 1)).toList else "polymlp.yaml".toList

/-- The loop of `convert_to_yaml` (`io_polymlp.py` 131-141); the new files are in the working directory.  The result says
whether all files were old ones.  A file that is missing raises FileNotFoundError, here `runtimeError`. -/
def convertFrom (ext : Ext C) (d : Dir) (total : ℕ) : ℕ → List (List Char) → Fs C → Except Err (Fs C × Bool)
  | _, [], fs => .ok (fs, true)
  | i, n :: ns, fs => do
    let c ← orErr .runtimeError (fs.get? (d, n))
    if ext.legacy c then do
      let c' ← ext.conv c
      convertFrom ext d total (i + 1) ns (fs.set (.cwd, convName total i) c')
    else .ok (fs, false)

/-- `shutil.move(p, target)` of a file of the working directory, with `os.remove(p)` if it raises an exception: it does if
the target has a file with that name (`pypolymlp_repository.py` 163-168). -/
def moveFile (target : Dir) (fs : Fs C) (n : List Char) : Fs C :=
  match fs.get? (.cwd, n), fs.get? (target, n) with
  | some c, none => remove (fs.set (target, n) c) (.cwd, n)
  | _, _ => remove fs (.cwd, n)

/-- `shutil.copy(p, target)` without exceptions (`pypolymlp_repository.py` 170-174). -/
def copyQuiet (source target : Dir) (fs : Fs C) (n : List Char) : Fs C :=
  match fs.get? (source, n) with
  | some c => fs.set (target, n) c
  | none => fs

/-- The two loops of `_copy_mlp` (`pypolymlp_repository.py` 162-174). -/
def place (source target : Dir) (pot : List (List Char)) (fs : Fs C) : Bool → Except Err (Fs C)
  | true => do
    let l ← orErr .typeError (find fs .cwd)
    return l.foldl (moveFile target) fs
  | false => .ok (pot.foldl (copyQuiet source target) fs)

/-- `_copy_mlp` (`pypolymlp_repository.py` 157-175). -/
def copyMlp (ext : Ext C) (source target : Dir) (fs : Fs C) : Except Err (Fs C) := do
  let pot ← orErr .typeError (find fs source)
  let r ← convertFrom ext source pot.length 0 pot fs
  place source target pot r.1 r.2

/-- `shutil.copy`; FileNotFoundError is `runtimeError`. -/
def copyFile (source target : Dir) (n : List Char) (fs : Fs C) : Except Err (Fs C) := do
  let c ← orErr .runtimeError (fs.get? (source, n))
  return fs.set (target, n) c

/-- `path.split("/")[-1]`. -/
def lastPart (path : List Char) : List Char := (path.reverse.takeWhile (· ≠ '/')).reverse

/-- One turn of the loop of `_copy_convex_mlp_files` (`pypolymlp_repository.py` 131-137). -/
def copyOne (ext : Ext C) (fs : Fs C) (path : List Char) : Except Err (Fs C) := do
  let fs ← copyMlp ext (.src path) (.mlp (lastPart path)) fs
  let fs ← copyFile (.src path) (.mlp (lastPart path)) "polymlp_cost.yaml".toList fs
  copyFile (.src path) (.mlp (lastPart path)) "polymlp_error.yaml".toList fs

/-- The loop of `_copy_convex_mlp_files` (`pypolymlp_repository.py` 130-139). -/
def copyAll (ext : Ext C) (fs : Fs C) (paths : List (List Char)) : Except Err (Fs C) := paths.foldlM (copyOne ext) fs

/-! ## Properties of the potentials -/

/-- One comparison with first principles: a file with rows and a figure (`pypolymlp_repository.py` 228-247,
`autocalc_distribution.py` 245-252, `figures_properties.py` 65-73): the suffix is used for the figure only. -/
def comparisonFiles {R : Type} (files : Dict (List Char) R) (rows : R) (suffix : Option (List Char)) : Dict (List Char) R :=
  (files.set "polymlp_comparison.dat".toList rows).set
    ("polymlp_comparison".toList ++ (suffix.elim [] fun s => '_' :: s) ++ ".png".toList) rows

/-- The comparisons of `calc_properties_binary_alloys` (`pypolymlp_repository.py` 309-330): of the alloys and of both
elements, each if it is given. -/
def binaryComparisons {R : Type} (files : Dict (List Char) R) (given : List (Option R × List Char)) : Dict (List Char) R :=
  given.foldl (fun files g => match g.1 with
    | some rows => comparisonFiles files rows (some g.2)
    | none => files) files

/-- The figures that a web page has for comparisons: `glob.glob(path + "polymlp_comparison_*.png")` (`web_utils.py`
191-198) of the files `polymlp_*.png` (`web.py` 136-138). -/
def comparisonFigures {R : Type} (files : Dict (List Char) R) : List (List Char) :=
  files.keys.filter fun n => "polymlp_comparison_".toList.isPrefixOf n && ".png".toList.isSuffixOf n

variable {K : Type} [Field K] [LinearOrder K]

/-- A prototype as the summary of all potentials uses it: its name, a property, and the composition of its optimized
structure, `none` without one. -/
structure Prot (K : Type) where
  name : List Char
  value : Option K
  comp : Option K

/-- The values that `eqm_props_dict` collects for a name (`figures_summary.py` 104-111). -/
def valuesOf (data : List (List (Prot K))) (name : List Char) : List (Option K) :=
  data.flatMap fun l => (l.filter fun p => p.name = name).map (·.value)

/-- The points of a curve (`figures_summary.py` 122-124). -/
def curve (times : List K) (data : List (List (Prot K))) (name : List Char) : List (K × K) :=
  (((times.zip (valuesOf data name)).filter fun p => p.2.isSome).map fun p => p.1 / 1000).zip
    ((valuesOf data name).filterMap id)

/-- The ranges of compositions of `_plot_eqm_properties_binary` (`pypolymlp_repository.py` 355-357). -/
def ranges : List (K × K) :=
  [(-1 / 100, 1 / 100), (1 / 100, 45 / 100), (45 / 100, 55 / 100), (55 / 100, 99 / 100), (99 / 100, 101 / 100)]

/-- The prototypes of one figure (`pypolymlp_repository.py` 358-367): those without a composition are left out. -/
def inRange (r : K × K) (data : List (List (Prot K))) : List (List (Prot K)) :=
  data.map fun l => l.filter fun p => match p.comp with
    | some c => decide (r.1 < c ∧ c < r.2)
    | none => false

/-- `_find_active_mlps` (`web.py` 67-74): the errors of the potentials, and which of them are active. -/
def active (rmses : List K) : Except Err (List Bool) := do
  let m ← orErr .valueError rmses.min?
  let threshold := if 5 / 2 < m then min 10 (m * 2) else 5
  return rmses.map fun e => decide (e < threshold)

end Verif.Repository
