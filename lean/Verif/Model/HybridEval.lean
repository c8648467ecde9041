import Verif.Model.Rows

/-!
# Hybrid potentials: division of the coefficients, active atoms, feature matrix, prediction

`/repo/src/pypolymlp/mlp_dev/core/dataclass.py` 36-67, `core/io_polymlp.py` 25-51,
`cxx/src/compute/py_hybrid_model.cpp` 45-150, `calculator/utils/properties_utils.py` 9-42,
`calculator/properties_single.py` 44-157, `calculator/properties_hybrid.py` 39-61.
-/

namespace Verif.HybridEval
open Verif.Rows
variable {A P K : Type}

/-! ## Coefficients -/

/-- `n_features += ...; cumulative_n_features.emplace_back(n_features)` (`py_hybrid_model.cpp`
47-54). -/
def cumulative : List ℕ → ℕ → List ℕ
  | [], _ => []
  | n :: rest, acc => (acc + n) :: cumulative rest (acc + n)

/-- `begin = 0 if i == 0 else cumulative[i - 1]`, `end = cumulative[i]` (`dataclass.py` 64-65,
`io_polymlp.py` 38-39). -/
def bounds (cum : List ℕ) (i : ℕ) : Except Err (ℕ × ℕ) := do
  let b ← if i = 0 then pure 0 else orErr .indexError cum[i - 1]?
  let e ← orErr .indexError cum[i]?
  return (b, e)

/-- `hybrid_division` (`dataclass.py` 59-67) and the loop of `save_mlps` (`io_polymlp.py` 37-50);
`n` is the number of sub-models. -/
def division {α : Type} (cum : List ℕ) (n : ℕ) (target : List α) : Except Err (List (List α)) :=
  (List.range n).mapM fun i => (bounds cum i).map fun be => slice target be.1 be.2

/-- `scaled_coeffs` of a hybrid model (`dataclass.py` 38-41): the quotients `c / s` of the slices. -/
def scaledCoeffs [Div K] (cum : List ℕ) (n : ℕ) (coeffs scales : List K) :
    Except Err (List (List K)) := do
  let c ← division cum n coeffs
  let s ← division cum n scales
  return (c.zip s).map fun q => List.zipWith (· / ·) q.1 q.2

/-- Name of the file of sub-model `i` and the two slices written to it (`io_polymlp.py` 37-50). -/
def saveMlps (cum : List ℕ) (n : ℕ) (coeffs scales : List K) (filename : String) :
    Except Err (List (String × List K × List K)) :=
  (List.range n).mapM fun i => (bounds cum i).map fun be =>
    (filename ++ "." ++ toString (i + 1), slice coeffs be.1 be.2, slice scales be.1 be.2)

/-! ## Active atoms -/

/-- `std::replace(types.begin(), types.end(), t, t_rep)` for `t_rep = 0, 1, ...` over `type_indices`
(`py_hybrid_model.cpp` 138-142). -/
def renumber (typeIndices types : List ℕ) : List ℕ :=
  typeIndices.zipIdx.foldl (fun ts q => ts.map fun t => if t = q.1 then q.2 else t) types

/-- Atoms, types and positions that a sub-model works with. -/
structure Active (P : Type) where
  atoms : List ℕ
  types : List ℕ
  positions : List P
  deriving DecidableEq

/-- `PyHybridModel::find_active_atoms` (`py_hybrid_model.cpp` 109-150). Positions are per atom. -/
def cxxActive (typeFull : Bool) (typeIndices types : List ℕ) (positions : List P) : Active P :=
  if typeFull then ⟨List.range positions.length, types, positions⟩
  else
    let atoms := (List.range types.length).filter fun i =>
      (types[i]?).any fun t => decide (t ∈ typeIndices)
    ⟨atoms, renumber typeIndices (atoms.filterMap fun i => types[i]?),
      atoms.filterMap fun i => positions[i]?⟩

/-- `find_active_atoms` of the Python side for one structure (`properties_utils.py` 9-42). A repeated
element name in the sub-model raises `RuntimeError`. -/
def pyActive (own elements : List String) (positions : List P) : Except Err (Active P) :=
  if own.length ≠ own.dedup.length then .error .runtimeError
  else
    let atoms := (List.range elements.length).filter fun i =>
      (elements[i]?).any fun e => decide (e ∈ own)
    .ok ⟨atoms, (atoms.filterMap fun i => elements[i]?).map own.idxOf,
      atoms.filterMap fun i => positions[i]?⟩

/-! ## Feature matrix -/

/-- A sub-model on the training side: number of features, the two fields set by `_set_unique_types`,
and `Model::run` (its values are arbitrary in this model; `A` is the cell). -/
structure CSub (A P K : Type) where
  nFeat : ℕ
  typeFull : Bool
  typeIndices : List ℕ
  run : A → List P → List ℕ → StFeatures (List K)

/-- A training structure on the C++ side. -/
structure CStr (A P : Type) where
  axis : A
  positions : List P
  types : List ℕ

/-- `first_index` of sub-model `n` (`py_hybrid_model.cpp` 68-70). -/
def firstIndex (subs : List (CSub A P K)) (n : ℕ) : ℕ :=
  if n = 0 then 0 else (cumulative (subs.map (·.nFeat)) 0).getD (n - 1) 0

/-- Cells of `x_all` assigned for structure `i` and one sub-model (`py_hybrid_model.cpp` 87-102), as
`(row, column, value)`. -/
def subWrites (ix : Index) (i first : ℕ) (active : List ℕ) (f : StFeatures (List K)) :
    List (ℕ × ℕ × K) :=
  (f.xe.zipIdx.map fun q => (i, first + q.2, q.1)) ++
    if ix.force[i]? = some true then
      (f.xf.zipIdx.flatMap fun r => r.1.zipIdx.map fun q =>
        ((ix.xfBegin.getD i (-1)).toNat + (3 * active.getD (r.2 / 3) 0 + r.2 % 3),
          first + q.2, q.1)) ++
      (f.xs.zipIdx.flatMap fun r => r.1.zipIdx.map fun q =>
        ((ix.xsBegin.getD i (-1)).toNat + r.2, first + q.2, q.1))
    else []

/-- Cells assigned in iteration `i` of the parallel loop (`py_hybrid_model.cpp` 65-104). -/
def strWrites (ix : Index) (subs : List (CSub A P K)) (st : CStr A P) (i : ℕ) :
    List (ℕ × ℕ × K) :=
  subs.zipIdx.flatMap fun q =>
    let act := cxxActive q.1.typeFull q.1.typeIndices st.types st.positions
    subWrites ix i (firstIndex subs q.2) act.atoms (q.1.run st.axis act.positions act.types)

/-- `x_all` after the parallel loop, starting from `Eigen::MatrixXd::Zero`, the iterations being
executed in the order `order` (`py_hybrid_model.cpp` 61-104). -/
def fillHybrid [Zero K] (ix : Index) (subs : List (CSub A P K)) (sts : ℕ → CStr A P)
    (order : List ℕ) : ℕ → ℕ → K :=
  (order.flatMap fun i => strWrites ix subs (sts i) i).foldl
    (fun x w r c => if r = w.1 ∧ c = w.2.1 then w.2.2 else x r c) fun _ _ => 0

/-! ## Prediction -/

/-- Energy, force vector of each atom, stress. -/
structure Prop3 (K : Type) where
  energy : K
  force : List (Fin 3 → K)
  stress : Fin 6 → K

/-- A sub-model on the prediction side; `eval` is the C++ evaluator with the coefficients of the
sub-model. `typeFull = none` is treated like `true` (`properties_single.py` 53, 78). -/
structure PSub (A P K : Type) where
  typeFull : Option Bool
  elements : List String
  eval : A → List P → List ℕ → Prop3 K

/-- A structure on the prediction side. -/
structure PStr (A P : Type) where
  axis : A
  positions : List P
  elements : List String

/-- `force_full = zeros; force_full[:, atoms] = force` (`properties_single.py` 81-83). -/
def scatter [Zero K] (n : ℕ) (atoms : List ℕ) (force : List (Fin 3 → K)) : List (Fin 3 → K) :=
  (atoms.zip force).foldl (fun full q => full.set q.1 q.2) (List.replicate n 0)

/-- `replace_types` on the elements (`core/dataset_utils.py`, through `update_types`): the number of
an element is its place in the list of the potential, an unknown element raises `RuntimeError`.
Simplification: only potentials without repeated elements. -/
def typesOf (own elements : List String) : Except Err (List ℕ) :=
  if elements.all fun e => decide (e ∈ own) then .ok (elements.map own.idxOf) else .error .runtimeError

/-- `PropertiesSingle.eval` (`properties_single.py` 44-85). -/
def evalSingle [Zero K] (s : PSub A P K) (st : PStr A P) : Except Err (Prop3 K) :=
  if s.typeFull = some false then
    (pyActive s.elements st.elements st.positions).map fun act =>
      if act.atoms = [] then ⟨0, List.replicate st.elements.length 0, 0⟩
      else
        let r := s.eval st.axis act.positions act.types
        ⟨r.energy, scatter st.elements.length act.atoms r.force, r.stress⟩
  else (typesOf s.elements st.elements).map fun ts => s.eval st.axis st.positions ts

/-- `energy += e_single`, `force += f_single`, `stress += s_single` (`properties_hybrid.py` 44-46). -/
def Prop3.add [Add K] (a b : Prop3 K) : Prop3 K :=
  ⟨a.energy + b.energy, List.zipWith (· + ·) a.force b.force, a.stress + b.stress⟩

/-- `PropertiesHybrid.eval` (`properties_hybrid.py` 39-47). -/
def evalHybrid [Zero K] [Add K] (subs : List (PSub A P K)) (st : PStr A P) :
    Except Err (Prop3 K) :=
  match subs with
  | [] => .error .indexError
  | s :: rest => do
    let r ← evalSingle s st
    rest.foldlM (fun acc s => (evalSingle s st).map acc.add) r

/-! ## Many structures at once -/

/-- Merging of the results of the structures with active atoms and zeros for the others
(`properties_single.py` 135-151); `rs` are the results not yet used. -/
def mergeActive [Zero K] : List (PStr A P × Active P) → List (Prop3 K) → Except Err (List (Prop3 K))
  | [], _ => .ok []
  | (st, act) :: rest, rs =>
    if act.atoms = [] then
      (mergeActive rest rs).map (⟨0, List.replicate st.elements.length 0, 0⟩ :: ·)
    else
      match rs with
      | [] => .error .indexError
      | r :: rs => (mergeActive rest rs).map
          (⟨r.energy, scatter st.elements.length act.atoms r.force, r.stress⟩ :: ·)

/-- `PropertiesSingle.eval_multiple` (`properties_single.py` 87-157); `evs` is the evaluator for many
structures. -/
def evalMultiple [Zero K] (s : PSub A P K)
    (evs : List (A × List P × List ℕ) → List (Prop3 K)) (sts : List (PStr A P)) :
    Except Err (List (Prop3 K)) :=
  if s.typeFull = some false then
    if s.elements.length ≠ s.elements.dedup.length then .error .runtimeError else do
    let acts ← sts.mapM fun st => pyActive s.elements st.elements st.positions
    let used := (sts.zip acts).filter fun q => !q.2.atoms.isEmpty
    if used.isEmpty then
      return sts.map fun st => ⟨0, List.replicate st.elements.length 0, 0⟩
    else
      mergeActive (sts.zip acts) (evs (used.map fun q => (q.1.axis, q.2.positions, q.2.types)))
  else do
    let ts ← sts.mapM fun st => typesOf s.elements st.elements
    if sts.isEmpty then return []
    else return evs ((sts.zip ts).map fun q => (q.1.axis, q.1.positions, q.2))

/-- `PropertiesHybrid.eval_multiple` (`properties_hybrid.py` 49-58). -/
def evalHybridMultiple [Zero K] [Add K]
    (subs : List (PSub A P K × (List (A × List P × List ℕ) → List (Prop3 K))))
    (sts : List (PStr A P)) : Except Err (List (Prop3 K)) :=
  match subs with
  | [] => .error .indexError
  | s :: rest => do
    let r ← evalMultiple s.1 s.2 sts
    rest.foldlM (fun acc s => (evalMultiple s.1 s.2 sts).map fun b =>
      List.zipWith Prop3.add acc b) r

end Verif.HybridEval
