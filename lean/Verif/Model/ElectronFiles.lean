import Verif.Model.Accuracy

/-!
# Names of the files of electronic properties

`/repo/src/pypolymlp/api/pypolymlp_utils.py` 54-98,
`compute_electron_properties_from_vaspruns`.
-/

namespace Verif.ElectronFiles

/-- `s.split("/")`; `cur` is the part being read. -/
def splitSlash : List Char → List Char → List (List Char)
  | cur, [] => [cur]
  | cur, c :: s => if c = '/' then cur :: splitSlash [] s else splitSlash (cur ++ [c]) s

/-- `"/".join(parts)`. -/
def joinSlash (parts : List (List Char)) : List Char := ['/'].intercalate parts

/-- The name of the output for a file (`pypolymlp_utils.py` 72-77). -/
def outputName (vasp : List Char) : List Char :=
  let split := splitSlash [] vasp
  joinSlash split.dropLast ++ "/electron".toList ++
    Accuracy.replace "xml".toList "yaml".toList
      (Accuracy.replace "vasprun".toList [] (split.getLast?.getD []))

/-- The loop over the files (`pypolymlp_utils.py` 70-86): each file is read and its table is
written, a later one over an earlier one of the same name.  `table` is
`load_electronic_properties_from_vasprun`.  Simplification: the order of parallel jobs is that of
the list. -/
def computeAll {τ : Type} (table : List Char → Except Err τ) :
    List (List Char) → Dict (List Char) τ → Except Err (Dict (List Char) τ)
  | [], fs => .ok fs
  | v :: vs, fs => do
    let t ← table v
    computeAll table vs (fs.set (outputName v) t)

end Verif.ElectronFiles
