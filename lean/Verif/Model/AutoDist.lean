import Verif.Model.Formation
import Verif.Model.Dict

/-!
# Automatic comparison with first principles

`/repo/src/pypolymlp/calculator/auto/autocalc_distribution.py` 24-371 (`FormationEnergyData`, `EnergyData`,
`AutoCalcDistribution`).  Exact arithmetic.  The potential, the optimization, the convex hull, reading files, rounding and
the text of a number are arbitrary functions.  Not modelled: plots, the distribution of training data (a stack of two
columns of `_eval_energies`), the order of the rows in the lists of structures on the hull.
-/

namespace Verif.AutoDist

open Formation

variable {St F K : Type} [Field K] [DecidableEq K] [LinearOrder K]

/-- The code that is not modelled.  `cand` gives the numbers of atoms and the elements of a structure, `hull` the rows on
the convex hull (`Formation.convexHull`), `big` is `1e10`. -/
structure Setup (St F K : Type) where
  elements : List String
  parse : List F → Except Err (List (St × K))
  cand : St → Cand
  pot : St → Except Err K
  opt : St → Except Err (St × K)
  pinv : Matrix (Fin elements.length) (Fin elements.length) K → Matrix (Fin elements.length) (Fin elements.length) K
  hull : List ((Fin elements.length → K) × K) → Except Err (List ((Fin elements.length → K) × K))
  big : K

/-- A row: composition and formation energy. -/
abbrev Row (s : Setup St F K) := (Fin s.elements.length → K) × K

/-- `EnergyData` (`autocalc_distribution.py` 114-124) as `_eval_energies` fills it. -/
structure EnergyData (St K : Type) where
  structures : List St
  nAtom : List ℕ
  dft : List K
  mlp : List K

/-- One entry of `_apply_atomic_energies` (`autocalc_distribution.py` 183-195): the energy minus the atomic energies of
all atoms; a missing element raises KeyError. -/
def cohesive (s : Setup St F K) (atomic : Dict String K) (r : St × K) : Except Err K := do
  let l ← (s.cand r.1).elements.mapM fun e => orErr .keyError (atomic.get? e)
  return r.2 - l.sum

/-- `_parse_vaspruns` and `_eval_energies` (`autocalc_distribution.py` 174-212); `atomic` is the result of
`get_atomic_energies` (C100). -/
def evalEnergies (s : Setup St F K) (atomic : Except Err (Dict String K)) (vaspruns : List F) :
    Except Err (EnergyData St K) := do
  let _ ← orErr .runtimeError (if vaspruns.length = 0 then none else some ())
  let rows ← s.parse vaspruns
  let table ← atomic
  let dft ← rows.mapM (cohesive s table)
  let mlp ← (rows.map (·.1)).mapM s.pot
  return ⟨rows.map (·.1), rows.map fun r => (s.cand r.1).nAtoms.sum, dft, mlp⟩

/-- `energies / n_atom` (`autocalc_distribution.py` 208-209). -/
def perAtom (es : List K) (ns : List ℕ) : List K := List.zipWith (fun (x : K) (n : ℕ) => x / (n : K)) es ns

/-- `_set_structure_names` (`autocalc_distribution.py` 214-227): the files themselves without IDs; IDs are given by their
text, `types` is the table of structure types. -/
def structureNames (show' : F → List Char) (types : Dict (List Char) (List Char)) (vaspruns : List F) :
    Option (List (List Char)) → Except Err (List (List Char))
  | none => .ok (vaspruns.map show')
  | some ids => ids.mapM fun i => do
      let ty ← orErr .keyError (types.get? i)
      return "ICSD-".toList ++ i ++ "-[".toList ++ ty ++ "]".toList

/-- The order of texts: character by character, a shorter text before its continuations. -/
def textLe : List Char → List Char → Bool
  | [], _ => true
  | _ :: _, [] => false
  | a :: x, b :: y => if a = b then textLe x y else decide (a.toNat < b.toNat)

/-- `get_comparison_data` (`autocalc_distribution.py` 126-142): stacking numbers with names makes everything text, and
`argsort` sorts the text.  `argsort` is not stable: the order of equal texts is a simplification. -/
def comparison (round : K → K) (text : K → List Char) (d : EnergyData St K) (names : List (List Char)) :
    Except Err (List (List Char × List Char × List Char)) := do
  let a := (perAtom d.dft d.nAtom).map fun x => text (round x)
  let b := (perAtom d.mlp d.nAtom).map fun x => text (round x)
  let _ ← orErr .valueError (if a.length = b.length ∧ b.length = names.length then some () else none)
  return (a.zip (b.zip names)).mergeSort fun x y => textLe x.1 y.1

/-- `compare_with_dft` (`autocalc_distribution.py` 229-252) without the file. -/
def compareWithDft (s : Setup St F K) (atomic : Except Err (Dict String K)) (round : K → K) (text : K → List Char)
    (names : Except Err (List (List Char))) (vaspruns : List F) :
    Except Err (List (List Char × List Char × List Char)) := do
  let d ← evalEnergies s atomic vaspruns
  let ns ← names
  comparison round text d ns

/-- `find_endmembers` and `define_end_members(energies)` (`autocalc_distribution.py` 277-295): one energy per element, so
that the identity matrix has the size of the elements. -/
def endMembers (s : Setup St F K) (structures : List St) (es : List K) :
    Except Err (Composition s.elements.length s.elements.length K) := do
  let ends ← findEndmembers s.big ((structures.map s.cand).zip es) s.elements
  (Composition.new s.pinv fun i j => if i = j then 1 else 0).setEnergies (ends.map (·.2))

/-- `PolymlpFormationEnergies.compute` for structures (`Formation.compute`). -/
def rowsOf (s : Setup St F K) (c : Composition s.elements.length s.elements.length K) (structures : List St)
    (es : List K) : Except Err (List (Row s)) :=
  compute s.elements (some c) (structures.map fun st => (s.cand st).elements) es

/-- `FormationEnergyData` (`autocalc_distribution.py` 24-34). -/
structure FormationData (s : Setup St F K) where
  names : List (List Char)
  dft : List (Row s)
  dftHull : List (Row s)
  mlp : List (Row s)
  mlpHull : List (Row s)
  go : Option (List (Row s) × List (Row s))

/-- `_run_formation_energy_with_optimization` (`autocalc_distribution.py` 346-366): structures whose optimization raises
an exception are left out; whether an optimization was successful is not looked at. -/
def optimizedRows (s : Setup St F K) (c : Composition s.elements.length s.elements.length K) (structures : List St) :
    Except Err (List (Row s) × List (Row s)) := do
  let done := structures.filterMap fun st => (s.opt st).toOption
  let rows ← rowsOf s c (done.map (·.1)) (done.map (·.2))
  let h ← s.hull rows
  return (rows, h)

/-- The optional part of `calc_formation_energies` (`autocalc_distribution.py` 326-330). -/
def optimizedPart (s : Setup St F K) (c : Composition s.elements.length s.elements.length K) (structures : List St) :
    Bool → Except Err (Option (List (Row s) × List (Row s)))
  | false => .ok none
  | true => (optimizedRows s c structures).map some

/-- `calc_formation_energies` (`autocalc_distribution.py` 297-344) for more than one element. -/
def formationData (s : Setup St F K) (atomic : Except Err (Dict String K)) (names : Except Err (List (List Char)))
    (geo : Bool) (vaspruns : List F) : Except Err (FormationData s) := do
  let d ← evalEnergies s atomic vaspruns
  let cd ← endMembers s d.structures d.dft
  let cm ← endMembers s d.structures d.mlp
  let ns ← names
  let rd ← rowsOf s cd d.structures d.dft
  let hd ← s.hull rd
  let rm ← rowsOf s cm d.structures d.mlp
  let hm ← s.hull rm
  let go ← optimizedPart s cm d.structures geo
  return ⟨ns, rd, hd, rm, hm, go⟩

/-- `calc_formation_energies` (`autocalc_distribution.py` 297-305): nothing is done for one element. -/
def calcFormation (s : Setup St F K) (atomic : Except Err (Dict String K)) (names : Except Err (List (List Char)))
    (geo : Bool) (vaspruns : List F) : Except Err (Option (FormationData s)) :=
  if s.elements.length = 1 then .ok none else (formationData s atomic names geo vaspruns).map some

/-- The lists `formation_energies_...` of the file (`autocalc_distribution.py` 71-88): rows and names side by side. -/
def labelled {s : Setup St F K} (names : List (List Char)) (rows : List (Row s)) : List (List Char × Row s) :=
  names.zip rows

/-- `_collect_equiv_data` (`autocalc_distribution.py` 91-111) before sorting: `close` is `isclose` in all columns; the
name is the one with the index of the row. -/
def equivalent {s : Setup St F K} (close : Row s → Row s → Bool) (names : List (List Char)) (all hull : List (Row s)) :
    Except Err (List (Row s × List Char)) :=
  (hull.flatMap fun de => (all.zipIdx.filter fun p => close p.1 de)).mapM fun p => do
    let n ← orErr .indexError names[p.2]?
    return (p.1, n)

end Verif.AutoDist
