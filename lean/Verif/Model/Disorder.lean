import Verif.Model.StrUtils
import Verif.Model.GridSearch
import Mathlib.Data.Real.Basic

/-!
# Disordered models

`/repo/src/pypolymlp/postproc/disorder_utils.py` and `/repo/src/pypolymlp/postproc/disorder.py`: potentials averaged over random
substitutional structures.  The random samples of Python, the order of sets, the potential and the generation of displaced
structures are arbitrary functions.  Printing is left out.
-/

namespace Verif.Disorder
open Verif.StrUtils Verif.GridSearch

variable {K : Type}

/-- An element in an occupancy: a name, a name with a number of spin, or something else (`disorder_utils.py` 19-31). -/
inductive Key where
  | element (e : String)
  | spin (e : String) (n : ℕ)
  | broken (e : String)
  deriving DecidableEq, Repr

/-- The name of an element. -/
def Key.name : Key → String
  | .element e => e
  | .spin e _ => e
  | .broken e => e

/-- What is used of the parameters of the potential. -/
structure Pars where
  elements : List String
  enableSpins : Option (List Bool)

/-- One entry of `_check_occupancy` (`disorder_utils.py` 19-31). -/
def checkKey (p : Pars) : Key → Except Err Unit
  | .element e => if e ∈ p.elements then .ok () else .error .runtimeError
  | .spin e _ =>
    if e ∈ p.elements then do
      let s ← orErr .typeError p.enableSpins
      let b ← orErr .indexError s[p.elements.idxOf e]?
      if b then .ok () else .error .runtimeError
    else .error .runtimeError
  | .broken _ => .error .runtimeError

/-- `np.isclose(sum, 1.0)` (`disorder_utils.py` 18). -/
def sumsToOne (l : List ℚ) : Bool := decide (|l.sum - 1| ≤ 1 / 10 ^ 8 + 1 / 10 ^ 5)

/-- One sublattice of `_check_occupancy` (`disorder_utils.py` 17-31). -/
def checkOcc (p : Pars) (occ : List (Key × ℚ)) : Except Err Unit := do
  if sumsToOne (occ.map (·.2)) then
    let _ ← occ.mapM fun o => checkKey p o.1
    return ()
  else .error .runtimeError

/-- The keys of one element and their types from `t` on (`disorder_utils.py` 42-50). -/
def keysOf (p : Pars) (e : String) (t : ℕ) : List (Key × ℕ) :=
  if p.elements.count e = 1 then [(.element e, t)] else [(.spin e 0, t), (.spin e 1, t + 1)]

/-- `map_element_to_type` for the unique elements from type `t` on (`disorder_utils.py` 38-50). -/
def typeMap (p : Pars) : List String → ℕ → List (Key × ℕ)
  | [], _ => []
  | e :: es, t => keysOf p e t ++ typeMap p es (t + (keysOf p e t).length)

/-- `set_full_occupancy` (`disorder_utils.py` 34-67). -/
def setFullOccupancy (p : Pars) (occupancy : List (List (Key × ℚ))) : Except Err (List (List (String × ℕ × ℚ))) := do
  let _ ← occupancy.mapM (checkOcc p)
  let m := typeMap p p.elements.eraseDups 0
  if m.all fun k => (occupancy.flatten.map (·.1)).contains k.1 then
    occupancy.mapM fun occ => occ.mapM fun o => do
      let t ← orErr .keyError (m.lookup o.1)
      return (o.1.name, t, o.2)
  else .error .assertionError

/-! ## Random structures -/

/-- `random.sample`, in the order of calls, and `list` of a set. -/
structure Rand where
  pick : ℕ → List ℕ → ℕ → List ℕ
  order : List ℕ → List ℕ

/-- `replace_ids`, a dictionary from elements and types to sites. -/
abbrev Ids := List ((String × ℕ) × List ℕ)

/-- `replace_ids[key]` of a `defaultdict`. -/
def sitesOf (d : Ids) (k : String × ℕ) : List ℕ := (d.lookup k).getD []

/-- `replace_ids[key].extend(samples)`. -/
def extend : Ids → String × ℕ → List ℕ → Ids
  | [], k, l => [(k, l)]
  | (k', l') :: d, k, l => if k' = k then (k', l' ++ l) :: d else (k', l') :: extend d k l

/-- The samples of one element (`disorder_utils.py` 79-80): `random.sample` raises ValueError for more sites than there are, and
for negative numbers. -/
def samples (r : Rand) (calls : ℕ) (cand : List ℕ) (k : ℤ) : Except Err (ℕ × List ℕ) :=
  if (cand.length : ℤ) = k then .ok (calls, cand)
  else if k < 0 ∨ (cand.length : ℤ) < k then .error .valueError
  else .ok (calls + 1, r.pick calls cand k.toNat)

/-- One sublattice with `n` sites of `_generate_substitutional_indices` (`disorder_utils.py` 77-82). -/
def fillSub (r : Rand) (n : ℕ) : List (String × ℕ × ℚ) → List ℕ → ℕ × Ids → Except Err (ℕ × Ids)
  | [], _, s => .ok s
  | (e, t, p) :: occ, cand, s => do
    let c ← samples r s.1 cand (rint (n * p))
    let d := extend s.2 (e, t) c.2
    fillSub r n occ (r.order (cand.filter fun i => decide (i ∉ sitesOf d (e, t)))) (c.1, d)

/-- `_generate_substitutional_indices` (`disorder_utils.py` 70-84): `zip(strict=True)` raises ValueError at the end of the shorter
list. -/
def fill (r : Rand) : List (List (String × ℕ × ℚ)) → List ℕ → ℕ → ℕ × Ids → Except Err (ℕ × Ids)
  | [], [], _, s => .ok s
  | occ :: occs, n :: ns, b, s => do
    let s ← fillSub r n occ (List.range' b n) s
    fill r occs ns (b + n) s
  | _, _, _, _ => .error .valueError

/-- `array[ids] = value`. -/
def assign {α : Type} (xs : List α) (ids : List ℕ) (v : α) : List α := xs.mapIdx fun (i : ℕ) x => if i ∈ ids then v else x

/-- The width of an array of strings in numpy: that of its longest string. -/
def width (l : List String) : ℕ := l.foldl (fun w e => max w e.toList.length) 0

/-- What is stored in an array of strings of the given width. -/
def cut (w : ℕ) (e : String) : String := String.ofList (e.toList.take w)

/-- The elements and types of the sites (`disorder_utils.py` 101-106). -/
def place (d : Ids) (st : Structure K) : Structure K :=
  let w := width st.elements
  d.foldl (fun st k => { st with
    elements := assign st.elements k.2 (cut w k.1.1)
    types := assign st.types k.2 k.1.2 }) st

/-- One random structure and its order of atoms (`disorder_utils.py` 99-110). -/
def randomStructure (r : Rand) (lattice : Structure K) (occ : List (List (String × ℕ × ℚ))) (calls : ℕ) :
    Except Err (ℕ × Structure K × List ℕ) := do
  let s ← fill r occ lattice.nAtoms 0 (calls, [])
  let st ← sortWrtTypes (place s.2 lattice)
  return (s.1, st)

/-- `generate_substitutional_structures` (`disorder_utils.py` 87-111). -/
def generate (r : Rand) (lattice : Structure K) (occ : List (List (String × ℕ × ℚ))) :
    ℕ → ℕ → Except Err (ℕ × List (Structure K × List ℕ))
  | 0, calls => .ok (calls, [])
  | n + 1, calls => do
    let s ← randomStructure r lattice occ calls
    let t ← generate r lattice occ n s.1
    return (t.1, s.2 :: t.2)

/-! ## Averages -/

/-- Energy, forces and stress of a structure. -/
structure Values where
  energy : ℝ
  forces : List (V3 ℝ)
  stress : Fin 6 → ℝ

/-- `_reorder` (`disorder_utils.py` 114-118), atom by atom. -/
def reorderBack (f : List (V3 ℝ)) (ids : List ℕ) : List (V3 ℝ) :=
  (ids.zip f).foldl (fun acc p => acc.set p.1 p.2) (List.replicate f.length ⟨0, 0, 0⟩)

/-- `eval_substitutional_structures` (`disorder_utils.py` 121-136) for a potential. -/
def evalSubs (eval : Structure K → Except Err Values) (r : Rand) (lattice : Structure K) (occ : List (List (String × ℕ × ℚ)))
    (n calls : ℕ) : Except Err (ℕ × List Values) := do
  let g ← generate r lattice occ n calls
  let vs ← g.2.mapM fun s => eval s.1
  return (g.1, List.zipWith (fun v s => { v with forces := reorderBack v.forces s.2 }) vs g.2)

/-- `np.mean`; the mean of nothing is not a number in numpy and zero here. -/
noncomputable def mean (l : List ℝ) : ℝ := l.sum / l.length

/-- `np.mean(forces, axis=0)` for arrays of `n` atoms. -/
noncomputable def meanForces (n : ℕ) (l : List (List (V3 ℝ))) : List (V3 ℝ) :=
  (List.range n).map fun (i : ℕ) =>
    let c := l.map fun f => f.getD i ⟨0, 0, 0⟩
    ⟨mean (c.map (·.x)), mean (c.map (·.y)), mean (c.map (·.z))⟩

/-- `diff` after an iteration (`disorder.py` 183-184). -/
noncomputable def nextDiff (diff ave : ℝ) (nAtoms : ℕ) : Option ℝ → ℝ
  | none => diff
  | some p => |ave - p| / nAtoms

/-- The loop of `_eval_single` (`disorder.py` 160-189) with `left` iterations left.  Averages of the energy before and `diff`;
the number of samples is positive. -/
noncomputable def loop (eval : Structure K → Except Err Values) (r : Rand) (lattice : Structure K)
    (occ : List (List (String × ℕ × ℚ))) (n : ℕ) (etol : ℝ) :
    ℕ → ℝ → Option ℝ → ℕ × List Values → Except Err (Option ℝ × ℕ × List Values)
  | 0, _, prev, s => .ok (prev, s)
  | left + 1, diff, prev, s =>
    if diff > etol then do
      let v ← evalSubs eval r lattice occ n s.1
      let all := s.2 ++ v.2
      let ave := mean (all.map (·.energy))
      loop eval r lattice occ n etol left (nextDiff diff ave lattice.nAtoms.sum prev) (some ave) (v.1, all)
    else .ok (prev, s)

/-- `_eval_single` (`disorder.py` 152-193).  Without an iteration the average is not bound (UnboundLocalError, a NameError). -/
noncomputable def evalSingle (eval : Structure K → Except Err Values) (r : Rand) (lattice : Structure K)
    (occ : List (List (String × ℕ × ℚ))) (n maxIter : ℕ) (etol : ℝ) (calls : ℕ) : Except Err (ℕ × Values) := do
  let s ← loop eval r lattice occ n etol maxIter (etol + 1) none (calls, [])
  let ave ← orErr .nameError s.1
  return (s.2.1, ⟨ave, meanForces lattice.positions.length (s.2.2.map (·.forces)),
    fun i => mean (s.2.2.map fun v => v.stress i)⟩)

/-- The lattices of `eval_random_properties` one after another (`disorder.py` 134-148): what was found before an exception is kept.
The calls of `random` within a lattice that fails are not counted. -/
noncomputable def evalAll (eval : Structure K → Except Err Values) (r : Rand) (occ : List (List (String × ℕ × ℚ)))
    (n maxIter : ℕ) (etol : ℝ) : List (Structure K) → ℕ → List Values → Except Err Unit × ℕ × List Values
  | [], calls, done => (.ok (), calls, done)
  | lat :: lats, calls, done =>
    match evalSingle eval r lat occ n maxIter etol calls with
    | .error e => (.error e, calls, done)
    | .ok v => evalAll eval r occ n maxIter etol lats v.1 (done ++ [v.2])

/-! ## Sessions -/

/-- What is not modelled: reading of lattices, supercells, displaced structures. -/
structure Ext (K : Type) where
  rand : Rand
  eval : Structure K → Except Err Values
  poscar : String → Except Err (Structure K)
  supercell : Structure K → List ℕ → Except Err (Structure K)
  displaced : ℕ → Structure K → ℕ → ℝ → Except Err (List (Structure K))

/-- `PolymlpDisorder` (`disorder.py` 50-67).  `calls` counts the random samples, `gens` the generations of structures. -/
structure Session (K : Type) where
  occupancy : List (List (String × ℕ × ℚ))
  lattice : Structure K
  cell : Structure K
  displaced : Option (List (Structure K)) := none
  values : Option (List Values) := none
  calls : ℕ := 0
  gens : ℕ := 0

/-- The lattice that is given, or read (`disorder.py` 86-89). -/
def latticeOf (ext : Ext K) (file : String) : Option (Structure K) → Except Err (Structure K)
  | some st => .ok st
  | none => ext.poscar file

/-- The supercell (`disorder.py` 94-100). -/
def cellOf (ext : Ext K) (st : Structure K) : Option (List ℕ) → Except Err (Structure K)
  | some size => ext.supercell st size
  | none => .ok st

/-- The constructor (`disorder.py` 23-67, 79-101). -/
def create (ext : Ext K) (p : Pars) (occupancy : List (List (Key × ℚ))) (file : String) (st : Option (Structure K))
    (size : Option (List ℕ)) : Except Err (Session K) := do
  let occ ← setFullOccupancy p occupancy
  let lat ← latticeOf ext file st
  if lat.nAtoms.length ≠ occ.length then .error .runtimeError
  else
    let cell ← cellOf ext lat size
    return { occupancy := occ, lattice := lat, cell := cell }

/-- The operations. -/
inductive Op where
  | displace (nSamples : ℕ) (maxDistance : ℝ) (base : Bool)
  | evaluate (nSamples maxIter : ℕ) (etol : ℝ)

/-- `set_displaced_lattices` and `eval_random_properties` (`disorder.py` 103-150). -/
noncomputable def step (ext : Ext K) (s : Session K) : Op → Except Err Unit × Session K
  | .displace n d base =>
    match ext.displaced s.gens s.cell n d with
    | .error e => (.error e, s)
    | .ok l => (.ok (), { s with displaced := some (if base then s.cell :: l else l), gens := s.gens + 1 })
  | .evaluate n m etol =>
    match s.displaced with
    | none => (.error .runtimeError, s)
    | some l =>
      let v := evalAll ext.eval ext.rand s.occupancy n m etol l s.calls []
      (v.1, { s with values := some v.2.2, calls := v.2.1 })

/-- A history of operations; exceptions are caught. -/
noncomputable def history (ext : Ext K) (s : Session K) (ops : List Op) : Session K := ops.foldl (fun s o => (step ext s o).2) s

/-- `save_properties` (`disorder.py` 195-210): the names of files and what is saved there. -/
def saveProperties (s : Session K) (path : Infile.PStr) : Except Err (List (Infile.PStr × Structure K × Values)) :=
  match s.displaced, s.values with
  | some l, some v => .ok ((l.zip v).zipIdx.map fun p =>
      (if 1 < v.length then path ++ "/polymlp_disorder_".toList ++ zfill 5 (p.2 + 1) ++ ".yaml".toList
        else path ++ "/polymlp_disorder.yaml".toList,
        p.1))
  | _, _ => .error .typeError

end Verif.Disorder
