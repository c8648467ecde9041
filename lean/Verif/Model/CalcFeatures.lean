import Verif.Model.Spins
import Verif.Model.Rows

/-!
# Features of given structures

`/repo/src/pypolymlp/calculator/compute_features.py`, `PypolymlpCalc.run_features`
(`api/pypolymlp_calc.py` 172-210, 671-673, 707-734, 746-749), `replace_types`
(`core/dataset_utils.py` 11-46), `Features` (`mlp_dev/core/features.py` 13-19, 67-84, 96-134), the
setters of `PolymlpParams` (`core/params.py` 212-237).
-/

namespace Verif.CalcFeatures
open Verif.AtomOrder Verif.Rows
variable {K α : Type}

/-- One element of the branch of `replace_types` for repeated elements (`dataset_utils.py` 29-42):
new types, number of matching atoms, first type of the next element.  Simplification: the atoms are
not sorted by type before the assignment, which does not depend on their order. -/
def repeatedStep (st : Structure K) (s : List ℕ × ℕ × ℕ) (ele : String) : List ℕ × ℕ × ℕ :=
  let keys := uniqSorted (maskSelect st.elements ele st.types)
  ((st.elements.zip (st.types.zip s.1)).map fun q =>
      if q.1 = ele then keys.idxOf q.2.1 + s.2.2 else q.2.2,
    s.2.1 + st.elements.count ele, s.2.2 + keys.length)

/-- `replace_types` (`dataset_utils.py` 11-46): the object after the call and whether the call
returned (line 44-45: `RuntimeError` otherwise, after the types have been assigned). -/
def replaceTypes (st : Structure K) (elems : List String) : Structure K × Bool :=
  if elems.Nodup then
    let r := elems.zipIdx.foldl (replaceStep st.elements) (st.types, 0)
    ({ st with types := r.1 }, r.2 = st.elements.length)
  else
    let r := (fromkeys elems).foldl (repeatedStep st) (st.types.map fun _ => 0, 0, 0)
    ({ st with types := r.1 }, r.2.1 = st.elements.length)

/-- `update_types` for a list of structures (`compute_features.py` 23-25): the objects after the call
and whether it returned. -/
def updateTypes (elems : List String) : List (Structure K) → List (Structure K) × Bool
  | [] => ([], true)
  | st :: rest =>
    let a := replaceTypes st elems
    if a.2 then
      let b := updateTypes elems rest
      (a.1 :: b.1, b.2)
    else (a.1 :: rest, false)

/-- Parameters of a potential (`PolymlpParams`): elements, number of models, type of data, flags. -/
structure Par where
  elements : List String
  nModels : ℕ
  dtype : String
  includeForce : Bool
  includeStress : Bool
  deriving DecidableEq, Repr

/-- Setter of `include_force` (`params.py` 212-223). -/
def setForce (p : Par) (v : Bool) : Except Err Par :=
  if p.dtype = "electron" ∧ v = true then .error .runtimeError else .ok { p with includeForce := v }

/-- Setter of `include_stress` (`params.py` 230-241). -/
def setStress (p : Par) (v : Bool) : Except Err Par :=
  if p.dtype ∈ ["phono3py", "sscha", "openmx", "electron"] ∧ v = true then .error .runtimeError
  else .ok { p with includeStress := v }

/-- A potential: parameters, and the C++ features of a structure given by its axis, its Cartesian
positions and its types. -/
structure Pot (K α : Type) where
  par : Par
  feat : M3 K → List (V3 K) → List ℕ → StFeatures α

/-- `axis @ positions`, column by column (`features.py` 16). -/
def cartesian [CommRing K] (a : M3 K) (v : V3 K) : V3 K :=
  ⟨a.r0.x * v.x + a.r0.y * v.y + a.r0.z * v.z, a.r1.x * v.x + a.r1.y * v.y + a.r1.z * v.z,
    a.r2.x * v.x + a.r2.y * v.y + a.r2.z * v.z⟩

/-- What `Model::run` computes for a structure (`features.py` 13-19). -/
def featOf [CommRing K] (P : Pot K α) (st : Structure K) : StFeatures α :=
  P.feat st.axis (st.positions.map (cartesian st.axis)) st.types

/-- Surroundings: content of new memory by size, order of execution of the parallel loop by size. -/
structure Env (α : Type) where
  mem : ℕ → List α
  order : ℕ → List ℕ

/-- `Features(params, structures=...).x` (`features.py` 67-84, 107-129, `py_model.cpp` 10-54).
`feat i` beyond the end, never used, is the features of nothing. -/
def featuresX [CommRing K] (E : Env α) (P : Pot K α) (sts : List (Structure K)) :
    Except Err (List α) :=
  if P.par.nModels > 1 then .error .runtimeError
  else do
    let ix ← setIndex [(sts.length, P.par.includeForce)] (sts.map fun st => st.nAtoms.sum)
    return fillX ix (fun (i : ℕ) => ((sts[i]?).map (featOf P)).getD (P.feat ⟨⟨0, 0, 0⟩, ⟨0, 0, 0⟩, ⟨0, 0, 0⟩⟩ [] []))
      (E.mem (ix.nE + ix.nF + ix.nS)) (E.order sts.length)

/-- Outcome of a call: structures and parameters afterwards, result. -/
structure Out (K ρ : Type) where
  structures : Option (List (Structure K))
  par : Par
  result : Except Err ρ

/-- The end of both functions (`compute_features.py` 65-68, 115-118): `structures` is `None` if none
were ever given (`TypeError` in the loop). -/
def finish [CommRing K] (E : Env α) (P : Pot K α) (sts : Option (List (Structure K))) :
    Out K (List α) :=
  match sts with
  | none => ⟨none, P.par, .error .typeError⟩
  | some l =>
    let u := updateTypes P.par.elements l
    ⟨some u.1, P.par, if u.2 then featuresX E P u.1 else .error .runtimeError⟩

/-- `params.include_force = force; params.include_stress = stress` (`compute_features.py` 63-64):
the parameters after both assignments, or after those that were done, and whether there was an error. -/
def setFlags (p : Par) (force stress : Bool) : Par × Bool :=
  match setForce p force with
  | .error _ => (p, false)
  | .ok p1 => match setStress p1 stress with
    | .error _ => (p1, false)
    | .ok p2 => (p2, true)

/-- `compute_from_polymlp` after a potential has been found (`compute_features.py` 63-68). -/
def withFlags [CommRing K] (E : Env α) (P : Pot K α) (sts : Option (List (Structure K)))
    (force stress : Bool) : Out K (List α) :=
  let f := setFlags P.par force stress
  if f.2 then finish E { P with par := f.1 } sts else ⟨sts, f.1, .error .runtimeError⟩

/-- Where `compute_from_polymlp` takes the potential from (`compute_features.py` 47-61).  Loading a
file gives a potential with its coefficients, or an error. -/
inductive Source (K α C : Type) where
  | none
  | file (load : Except Err (Pot K α × C))
  | files (loads : List (Except Err (Pot K α × C)))
  | params (P : Pot K α)

/-- The potential of the call and its coefficients (`compute_features.py` 47-61).
`NotImplementedError` is represented by `attributeError`.  An empty list of files has no first
entry. -/
def source {C : Type} (s : Source K α C) : Except Err (Pot K α × Option C) :=
  match s with
  | .none => .error .runtimeError
  | .file l => l.map fun r => (r.1, some r.2)
  | .files ls =>
    if ls.length > 1 then .error .attributeError
    else match ls with
      | [] => .error .indexError
      | l :: _ => l.map fun r => (r.1, some r.2)
  | .params P => if P.par.nModels > 1 then .error .attributeError else .ok (P, none)

/-- `compute_from_polymlp(..., return_features_obj=False)` (`compute_features.py` 28-76): features, and
coefficients if they are asked for and the potential came from a file. -/
def computeFromPolymlp [CommRing K] {C : Type} (E : Env α) (s : Source K α C)
    (sts : List (Structure K)) (force stress returnMlp : Bool) :
    List (Structure K) × Except Err (List α × Option C) :=
  match source s with
  | .error e => (sts, .error e)
  | .ok (P, c) =>
    let o := withFlags E P (some sts) force stress
    (o.structures.getD sts, o.result.map fun x => (x, if returnMlp then c else none))

/-- The calculator: structures, features, potential. -/
structure Calc (K α : Type) where
  structures : Option (List (Structure K))
  features : Option (List α)
  pot : Pot K α

/-- Argument `structures`: a structure, a list, or another type. -/
inductive Given (K : Type) where
  | single (st : Structure K)
  | list (l : List (Structure K))
  | other

/-- Setter of `structures` (`pypolymlp_calc.py` 724-734). -/
def setStructures (c : Calc K α) : Given K → Except Err (Calc K α)
  | .single st => .ok { c with structures := some [st] }
  | .list l => .ok { c with structures := some l }
  | .other => .error .runtimeError

/-- A call of `run_features`. -/
structure Call (K α : Type) where
  structures : Option (Given K)
  infile : Option (Except Err (Pot K α))
  force : Bool
  stress : Bool

/-- `run_features` with the structures of the calculator (`pypolymlp_calc.py` 194-210).  The flags of
the call have default values, so that those of the input file are always replaced
(`compute_features.py` 111-114). -/
def runWith [CommRing K] (E : Env α) (c : Calc K α) (infile : Option (Except Err (Pot K α)))
    (force stress : Bool) : Calc K α × Except Err (List α) :=
  match infile with
  | none =>
    if c.pot.par.nModels > 1 then (c, .error .attributeError)
    else
      let o := withFlags E c.pot c.structures force stress
      let c1 : Calc K α := { c with structures := o.structures, pot := { c.pot with par := o.par } }
      (match o.result with
        | .ok x => { c1 with features := some x }
        | .error _ => c1, o.result)
  | some (.error e) => (c, .error e)
  | some (.ok P) =>
    let o := withFlags E P c.structures force stress
    let c1 : Calc K α := { c with structures := o.structures }
    (match o.result with
      | .ok x => { c1 with features := some x }
      | .error _ => c1, o.result)

/-- `run_features` (`pypolymlp_calc.py` 172-210). -/
def runFeatures [CommRing K] (E : Env α) (c : Calc K α) (q : Call K α) :
    Calc K α × Except Err (List α) :=
  match q.structures with
  | none => runWith E c q.infile q.force q.stress
  | some g => match setStructures c g with
    | .error e => (c, .error e)
    | .ok c1 => runWith E c1 q.infile q.force q.stress

/-- A sequence of calls; exceptions are caught by the user.  Results in order. -/
def runCalls [CommRing K] (E : Env α) : Calc K α → List (Call K α) →
    Calc K α × List (Except Err (List α))
  | c, [] => (c, [])
  | c, q :: rest =>
    let a := runFeatures E c q
    let b := runCalls E a.1 rest
    (b.1, a.2 :: b.2)

end Verif.CalcFeatures
