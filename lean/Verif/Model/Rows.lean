import Verif.Model.Dataset
import Verif.Model.Sequential

/-!
# Row layout of the design matrix and weighting of rows

`/repo/src/pypolymlp/cxx/src/compute/py_model.cpp` 10-108 (identical loops in
`py_hybrid_model.cpp` 152-201), `mlp_dev/core/features.py` 24-93, `mlp_dev/core/utils_weights.py`
50-98, `mlp_dev/core/data_standard.py` 50-66, `mlp_dev/core/data_utils.py` 46-62,
`mlp_dev/standard/fit.py` 144-150.
-/

namespace Verif.Rows
open Verif.Dataset Verif.Sequential
variable {p : ℕ} {K : Type}

/-! ## Indices computed by the C++ side -/

/-- Inner stress loop over the structures of one dataset (`py_model.cpp` 83-89): the entries written
to `xs_begin` (−1 is the initial value) and the counter afterwards. -/
def stressInner (force : Bool) : ℕ → ℕ → List ℤ × ℕ
  | 0, i => ([], i)
  | n + 1, i =>
    if force then
      let r := stressInner force n (i + 6)
      ((i : ℤ) :: r.1, r.2)
    else
      let r := stressInner force n i
      (-1 :: r.1, r.2)

/-- Outer stress loop (`py_model.cpp` 77-90): `xs_begin_dataset`, `xs_begin`, final counter,
`n_data[2]`. -/
def stressLoop : List (ℕ × Bool) → ℕ → List ℤ × List ℤ × ℕ × ℕ
  | [], i => ([], [], i, 0)
  | (n, force) :: rest, i =>
    let a := stressInner force n i
    let r := stressLoop rest a.2
    ((if force then (i : ℤ) else -1) :: r.1, a.1 ++ r.2.1, r.2.2.1,
      (if force then n * 6 else 0) + r.2.2.2)

/-- Inner force loop (`py_model.cpp` 98-106).  `atoms` are the entries of `n_atoms_st` not yet used
(reading beyond the end, undefined in C++, is reported as `indexError`).  Result: entries written to
`xf_begin`, rest of `atoms`, counter, amount added to `n_data[1]`. -/
def forceInner (force : Bool) : ℕ → List ℕ → ℕ → Except Err (List ℤ × List ℕ × ℕ × ℕ)
  | 0, atoms, i => .ok ([], atoms, i, 0)
  | _ + 1, [], _ => .error .indexError
  | n + 1, a :: atoms, i =>
    if force then do
      let r ← forceInner force n atoms (i + 3 * a)
      return ((i : ℤ) :: r.1, r.2.1, r.2.2.1, 3 * a + r.2.2.2)
    else do
      let r ← forceInner force n atoms i
      return (-1 :: r.1, r.2.1, r.2.2.1, r.2.2.2)

/-- Outer force loop (`py_model.cpp` 92-107): `xf_begin_dataset`, `xf_begin`, `n_data[1]`. -/
def forceLoop : List (ℕ × Bool) → List ℕ → ℕ → Except Err (List ℤ × List ℤ × ℕ)
  | [], _, _ => .ok ([], [], 0)
  | (n, force) :: rest, atoms, i => do
    let a ← forceInner force n atoms i
    let r ← forceLoop rest a.2.1 a.2.2.1
    return ((if force then (i : ℤ) else -1) :: r.1, a.1 ++ r.2.1, a.2.2.2 + r.2.2)

/-- The indices set by `PyModel::set_index` (`py_model.cpp` 58-108). -/
structure Index where
  xsDataset : List ℤ
  xfDataset : List ℤ
  xsBegin : List ℤ
  xfBegin : List ℤ
  force : List Bool
  nE : ℕ
  nF : ℕ
  nS : ℕ
  deriving DecidableEq, Repr

/-- `PyModel::set_index` (`py_model.cpp` 58-108). -/
def setIndex (dss : List (ℕ × Bool)) (atoms : List ℕ) : Except Err Index := do
  let nSt := (dss.map (·.1)).sum
  let s := stressLoop dss nSt
  let f ← forceLoop dss atoms s.2.2.1
  return { xsDataset := s.1, xfDataset := f.1, xsBegin := s.2.1, xfBegin := f.2.1
           force := dss.flatMap fun d => List.replicate d.1 d.2
           nE := nSt, nF := f.2.2, nS := s.2.2.2 }

/-- Features of one structure as computed by `Model::run`: one energy row, six stress rows, `3N` force
rows.  Their values are arbitrary in this model. -/
structure StFeatures (α : Type) where
  xe : α
  xs : List α
  xf : List α

/-- `m.block(b, 0, rows.size(), cols) = rows`, one row after the other. -/
def writeRows {α : Type} (x : List α) (b : ℕ) (rows : List α) : List α :=
  rows.zipIdx.foldl (fun x r => x.set (b + r.2) r.1) x

/-- Body of the parallel loop for structure `i` (`py_model.cpp` 43-53). -/
def storeStructure {α : Type} (ix : Index) (feat : ℕ → StFeatures α) (x : List α) (i : ℕ) :
    List α :=
  let f := feat i
  let x := x.set i f.xe
  if ix.force[i]? = some true then
    let x := writeRows x (ix.xfBegin.getD i (-1)).toNat f.xf
    writeRows x (ix.xsBegin.getD i (-1)).toNat f.xs
  else x

/-- `x_all` after the parallel loop, the iterations being executed in the order `order`
(`py_model.cpp` 39-54); `x0` is the uninitialised content of the matrix. -/
def fillX {α : Type} (ix : Index) (feat : ℕ → StFeatures α) (x0 : List α) (order : List ℕ) :
    List α := order.foldl (storeStructure ix feat) x0

/-- `_set_ebegin` (`features.py` 87-93). -/
def setEbegin : List ℕ → ℕ → List ℕ
  | [], _ => []
  | n :: rest, ei => ei :: setEbegin rest (ei + n)

/-! ## Weighting -/

/-- The attributes of a `Dataset` object that `apply_weights` reads. -/
structure DS (K : Type) where
  includeForce : Bool
  includeStress : Bool
  weight : K
  dft : DFT K

/-- The three weight functions of `utils_weights.py` 10-47, entry by entry; the stress function
includes the constant factor `weight_stress * dataset.weight` as its first argument. -/
structure WeightFns (K : Type) where
  e : K → ℕ → K
  f : K → K
  s : K → K → K

/-- Python slice bound clipped to a sequence of length `n`. -/
def clip (n : ℕ) (i : ℤ) : ℕ := if i < 0 then (i + n).toNat else min n i.toNat

/-- `a[b:e] op= vals`, entry by entry; numpy raises `ValueError` when the lengths differ (the
broadcasting of arrays of length one never occurs in the modelled calls). -/
def updSlice {α β : Type} (op : α → β → α) (a : List α) (b e : ℤ) (vals : List β) :
    Except Err (List α) :=
  let b' := clip a.length b
  let e' := clip a.length e
  if e' - b' = vals.length then
    .ok (a.take b' ++ ((a.drop b').zip vals).map (fun q => op q.1 q.2) ++ a.drop (b' + vals.length))
  else .error .valueError

/-- Arrays updated by `apply_weights`. -/
structure XYW (p : ℕ) (K : Type) where
  x : List (Vec p K)
  y : List K
  w : List K

/-- `w[b:e] = v; y[b:e] = v * t; x[b:e] *= v[:, None]` (`utils_weights.py` 76-78, 83-85, 90-92). -/
def assignBlock [Mul K] (s : XYW p K) (b e : ℤ) (v t : List K) : Except Err (XYW p K) := do
  let w ← updSlice (fun _ n => n) s.w b e v
  let y ← updSlice (fun _ n => n) s.y b e ((v.zip t).map fun q => q.1 * q.2)
  let x ← updSlice (fun (r : Vec p K) (n : K) => fun a => r a * n) s.x b e v
  return ⟨x, y, w⟩

/-- `x[b:e] = 0; y[b:e] = 0; w[b:e] = 0` (`utils_weights.py` 95-97). -/
def zeroBlock [Zero K] (s : XYW p K) (b e : ℤ) (n : ℕ) : Except Err (XYW p K) := do
  let x ← updSlice (fun _ n => n) s.x b e (List.replicate n fun _ => (0 : K))
  let y ← updSlice (fun _ n => n) s.y b e (List.replicate n (0 : K))
  let w ← updSlice (fun _ n => n) s.w b e (List.replicate n (0 : K))
  return ⟨x, y, w⟩

/-- Stress part of `apply_weights` (`utils_weights.py` 87-97).  With `include_force` false the names
`fend`/`send` were never assigned (lines 66-68), so `include_stress` alone raises `NameError`. -/
def stressPart [Semiring K] (W : WeightFns K) (wst : K) (d : DS K) (s : XYW p K) (sb : ℤ) :
    Except Err (XYW p K) :=
  if d.includeStress then
    if d.includeForce then
      assignBlock s sb (sb + d.dft.stresses.length)
        (d.dft.stresses.map fun v => W.s (wst * d.weight) v) d.dft.stresses
    else .error .nameError
  else if d.includeForce then zeroBlock s sb (sb + d.dft.stresses.length) d.dft.stresses.length
  else .ok s

/-- Force part of `apply_weights` (`utils_weights.py` 80-85). -/
def forcePart [Semiring K] (W : WeightFns K) (d : DS K) (s : XYW p K) (fb : ℤ) :
    Except Err (XYW p K) :=
  if d.includeForce then
    assignBlock s fb (fb + d.dft.forces.length) (d.dft.forces.map fun v => W.f v * d.weight)
      d.dft.forces
  else .ok s

/-- `apply_weights` (`utils_weights.py` 50-98). -/
def applyWeights [Semiring K] (W : WeightFns K) (wst : K) (s : XYW p K)
    (di : DS K × ℤ × ℤ × ℤ) : Except Err (XYW p K) := do
  let d := di.1
  let we := (d.dft.energies.zip d.dft.totalNAtoms).map fun q => W.e q.1 q.2 * d.weight
  let s ← assignBlock s di.2.1 (di.2.1 + d.dft.energies.length) we d.dft.energies
  let s ← forcePart W d s di.2.2.1
  stressPart W wst d s di.2.2.2

/-- `calc_xy` (`data_standard.py` 26-66) without the feature scaling, and the same steps in
`_compute_products_single_batch` (`data_sequential.py` 109-141): features, first indices, weights.
`feat` gives the feature rows of the `i`-th structure over all datasets, `x0` the uninitialised
matrix, `order` the execution order of the parallel loop. -/
def designMatrix [Semiring K] (W : WeightFns K) (wst : K) (ds : List (DS K))
    (feat : ℕ → StFeatures (Vec p K)) (x0 : ℕ → List (Vec p K)) (order : List ℕ) :
    Except Err (XYW p K) := do
  let ix ← setIndex (ds.map fun d => (d.dft.structures.length, d.includeForce))
    (ds.flatMap fun d => d.dft.structures.map fun st => st.nAtoms.sum)
  let n := ix.nE + ix.nF + ix.nS
  let x := fillX ix feat (x0 n) order
  let eb := setEbegin (ds.map fun d => d.dft.structures.length) 0
  let first := (eb.map fun (i : ℕ) => (i : ℤ)).zip (ix.xfDataset.zip ix.xsDataset)
  (ds.zip first).foldlM (applyWeights W wst) ⟨x, List.replicate n 0, List.replicate n 1⟩

/-! ## Learning curve -/

/-- Row numbers chosen by `PolymlpDataXY.slice` (`data_utils.py` 46-62): the first `n` rows, the six
rows per structure from the first stress row, `3 Σ` rows from the first force row. -/
def sliceIds (first : ℕ × ℤ × ℤ) (n : ℕ) (atoms : List ℕ) : List ℤ :=
  (List.range n).map (fun (i : ℕ) => (i : ℤ)) ++
    (List.range (n * 6)).map (fun (i : ℕ) => first.2.2 + (i : ℤ)) ++
    (List.range ((atoms.take n).sum * 3)).map (fun (i : ℕ) => first.2.1 + (i : ℤ))

/-- `x[ids]` with an integer index array that may contain negative numbers. -/
def pickRows {α : Type} (xs : List α) (ids : List ℤ) : Except Err (List α) :=
  ids.mapM fun i => (pyIndex xs.length i).bind fun k => orErr .indexError xs[k]?

/-- `PolymlpDataXY.slice` (`data_utils.py` 46-62) on given `x` and `y`. -/
def sliceXY (s : XYW p K) (first : ℕ × ℤ × ℤ) (n : ℕ) (atoms : List ℕ) :
    Except Err (List (Vec p K) × List K) := do
  let x ← pickRows s.x (sliceIds first n atoms)
  let y ← pickRows s.y (sliceIds first n atoms)
  return (x, y)

/-- `first_indices[0]` as set by `compute_features` for a single data set (`features.py` 77-84). -/
def firstIndices (o : DS K) : Except Err (ℕ × ℤ × ℤ) := do
  let ix ← setIndex [(o.dft.structures.length, o.includeForce)]
    (o.dft.structures.map fun st => st.nAtoms.sum)
  let f ← orErr .indexError ix.xfDataset.head?
  let s ← orErr .indexError ix.xsDataset.head?
  return (0, f, s)

/-- Python `range(start, stop, step)` for non-negative arguments; step 0 raises `ValueError`. -/
def pyRange (start stop step : ℕ) : Except Err (List ℕ) :=
  if step = 0 then .error .valueError
  else .ok ((List.range ((stop - start + step - 1) / step)).map fun i => start + i * step)

/-- Sample sizes of `fit_learning_curve` (`standard/fit.py` 147): `range(n//10, n+1, n//10)`. -/
def learningSizes (n : ℕ) : Except Err (List ℕ) := pyRange (n / 10) (n + 1) (n / 10)

end Verif.Rows
