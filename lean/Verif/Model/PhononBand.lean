import Verif.Model.Py

/-!
# Phonon bands along a path

`/repo/src/pypolymlp/calculator/utils/phonon_band_utils.py`.  Phonopy is a parameter: it takes the cells, the
transformation to the primitive cell, the force constants and, when given, the Born charges, and returns distances
and frequencies segment by segment.
-/

namespace Verif.PhononBand

open Verif

/-- A point of reciprocal space in the basis of the primitive cell. -/
abbrev Q3 := ℚ × ℚ × ℚ

/-- Transformation, path and labels (`phonon_band_utils.py` 15-80); `hcp` has none of them. -/
structure Attrs where
  primitive : Option (Q3 × Q3 × Q3)
  path : Option (List (List Q3))
  labels : Option (List String)
  deriving DecidableEq

/-- `_band_bcc` (`phonon_band_utils.py` 15-28). -/
def bandBcc : Attrs :=
  ⟨some ((-1/2, 1/2, 1/2), (1/2, -1/2, 1/2), (1/2, 1/2, -1/2)),
    some [[(0, 0, 0), (1/2, -1/2, 1/2), (1/4, 1/4, 1/4), (0, 0, 0), (0, 0, 1/2)]],
    some ["G", "H", "P", "G", "N"]⟩

/-- `_band_fcc` (`phonon_band_utils.py` 31-44). -/
def bandFcc : Attrs :=
  ⟨some ((1/2, 0, 1/2), (1/2, 1/2, 0), (0, 1/2, 1/2)),
    some [[(0, 0, 0), (1/2, 1/2, 0)], [(1/2, 1/2, 1), (3/8, 3/8, 3/4), (0, 0, 0), (1/2, 1/2, 1/2)]],
    some ["G", "X", "K", "G", "L"]⟩

/-- `_band_hcp` (`phonon_band_utils.py` 47-49). -/
def bandHcp : Attrs := ⟨none, none, none⟩

/-- `_band_rocksalt` (`phonon_band_utils.py` 52-57). -/
def bandRocksalt : Attrs :=
  ⟨some ((1/2, 0, 1/2), (1/2, 1/2, 0), (0, 1/2, 1/2)),
    some [[(1/2, 1/2, 0), (0, 0, 0)], [(0, 0, 0), (1/2, 1/2, 1/2)]], some ["X", "G", "L"]⟩

/-- `_band_perovskite` (`phonon_band_utils.py` 60-68). -/
def bandPerovskite : Attrs :=
  ⟨some ((1, 0, 0), (0, 1, 0), (0, 0, 1)),
    some [[(0, 0, 0), (0, 1/2, 0), (1/2, 1/2, 0), (0, 0, 0)], [(0, 0, 0), (1/2, 1/2, 0), (1/2, 1/2, 1/2)]],
    some ["G", "X", "M", "G", "M", "R"]⟩

/-- `_band_perovskite2` (`phonon_band_utils.py` 71-79). -/
def bandPerovskite2 : Attrs :=
  ⟨some ((1, 0, 0), (0, 1, 0), (0, 0, 1)),
    some [[(0, 0, 0), (0, 1/2, 0), (1/2, 1/2, 0), (0, 0, 0)], [(0, 0, 0), (1/2, 1/2, 1/2), (1/2, 1/2, 0)]],
    some ["G", "X", "M", "G", "R", "M"]⟩

/-- `_get_band_attrs` (`phonon_band_utils.py` 82-101). -/
def bandAttrs (t : String) : Except Err Attrs :=
  if t = "bcc" then .ok bandBcc
  else if t = "fcc" then .ok bandFcc
  else if t = "hcp" then .ok bandHcp
  else if t = "rocksalt" then .ok bandRocksalt
  else if t = "perovskite" then .ok bandPerovskite
  else if t = "perovskite2" then .ok bandPerovskite2
  else .error .runtimeError

/-- The parts outside: `load_phonon` by file names (127-131), and Phonopy with `get_band_qpoints_and_path_connections`
(133-153) as one function of cells, transformation, force constants, Born charges, path, number of points and labels.
`S` is what `load_phonon` returns, `B` the Born charges, `K` numbers. -/
structure Engine (S B K : Type) where
  load : String → String → Except Err S
  bands : S → Option (Q3 × Q3 × Q3) → Option B → List (List Q3) → ℕ → Option (List String) →
    Except Err (List (List K) × List (List (List K)))

/-- The lines of `phonon_band.dat` (`phonon_band_utils.py` 154-157): two nested `zip`. -/
def datLines {K : Type} (distances : List (List K)) (frequencies : List (List (List K))) : List (List K) :=
  (distances.zip frequencies).flatMap fun s => (s.1.zip s.2).map fun p => p.1 :: p.2

/-- The Born charges of a run (`phonon_band_utils.py` 140-148): `none` for no correction. -/
def nacOf {B : Type} (born : String → Option B) (fileborn : String) : Except Err (Option B) :=
  if (born fileborn).isSome then (orErr .runtimeError (born "BORN")).map some else .ok none

/-- `calculate_phonon_bands` (`phonon_band_utils.py` 104-157).  `born name` is the result of reading the Born charges
in the file of that name, `none` when there is no such file; `parse_BORN` is called without a name (141), for which
Phonopy reads `BORN`, and a missing file is an error.  Iterating over a path that is `None` raises `TypeError`
(150).  The result is the content of `phonon_band.dat`. -/
def phononBands {S B K : Type} (E : Engine S B K) (born : String → Option B) (yamlfile filefc2 fileborn type : String)
    (npoints : ℕ) : Except Err (List (List K)) := do
  let a ← bandAttrs type
  let s ← E.load yamlfile filefc2
  let nac ← nacOf born fileborn
  let path ← orErr .typeError a.path
  let r ← E.bands s a.primitive nac path npoints a.labels
  return datLines r.1 r.2

end Verif.PhononBand
