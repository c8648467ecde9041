import Verif.Model.HybridEval

/-!
# Names of potential files

`/repo/src/pypolymlp/core/io_polymlp.py` 41, 107-118.
-/

namespace Verif.MlpFiles

/-- Order of Python strings (code point by code point), used by `sorted`. -/
def strLe : List Char → List Char → Bool
  | [], _ => true
  | _ :: _, [] => false
  | a :: s, b :: t => if a.toNat < b.toNat then true else if a.toNat = b.toNat then strLe s t else false

/-- `filename + "." + str(i + 1)` (`io_polymlp.py` 41). -/
def subName (filename : String) (i : ℕ) : String := filename ++ "." ++ toString (i + 1)

/-- `sorted(files)`. -/
def sortNames (l : List String) : List String :=
  l.insertionSort fun a b => strLe a.toList b.toList = true

/-- `glob.glob(pattern + "*")`: the entries that begin with the pattern, in the order of the directory
listing, which is arbitrary. Simplification: no `*`, `?`, `[` in the path. -/
def globStar (listing : List String) (pattern : String) : List String :=
  listing.filter fun f => pattern.toList.isPrefixOf f.toList

/-- `find_mlps` (`io_polymlp.py` 107-118); `listing` are the paths of the files that exist. -/
def findMlps (listing : List String) (path : String) : Option (List String) :=
  let files := globStar listing (path ++ "/polymlp.yaml")
  if files.length > 0 then some (sortNames files)
  else
    let files := globStar listing (path ++ "/polymlp.lammps")
    if files.length > 0 then some (sortNames files) else none

end Verif.MlpFiles
