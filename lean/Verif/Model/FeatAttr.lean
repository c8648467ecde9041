import Verif.Model.MlpEval
import Verif.Model.MlpGtEval
import Verif.Model.Dict
import Verif.Model.Py

/-!
# Lists of features

`/repo/src/pypolymlp/mlp_dev/core/features_attr.py`,
`/repo/src/pypolymlp/cxx/src/compute/py_features_attr.cpp` and `py_params.cpp`.
The parameters `model` are those of the C++ code after `py_params.cpp`; texts of the file
`polymlp_params.yaml` are represented by the values that are printed.
-/

namespace Verif.FeatAttr
open Verif Verif.Mlp

/-- `pair_params_conditional` in C++ (`py_params.cpp` 33-43): the entries `(j, i)` with `j <= i` of the
dictionary, a missing one is a `KeyError`; the other entries are empty. -/
def condOf (nType : ℕ) (d : Dict (ℕ × ℕ) (List ℕ)) : Except Err (ℕ → ℕ → List ℕ) :=
  ((List.range nType).flatMap fun i => (List.range (i + 1)).map fun j => (j, i)).foldlM
    (fun v e => (orErr .keyError (d.get? e)).map fun l => put v e.1 (put (v e.1) e.2 l)) fun _ _ => []

/-- `atomtype_pair_dict` (`features_attr.py` 19-23). -/
def pairDict (nType : ℕ) (typePairs : ℕ → ℕ → ℕ) : Dict ℕ (List (ℕ × ℕ)) :=
  (List.range nType).foldl
    (fun d t1 => (List.range nType).foldl
      (fun d t2 => d.set (typePairs t1 t2) ((d.get? (typePairs t1 t2)).getD [] ++ [(t1, t2)])) d) []

/-- The result of `get_features_attr` (`features_attr.py` 12-34): `features_attr`, `polynomial_attr` and
`atomtype_pair_dict`. -/
structure Attrs (A : Type) where
  linear : List A
  poly : List (List ℕ)
  pairs : Dict ℕ (List (ℕ × ℕ))

/-- `polynomial_ids` (`py_features_attr.cpp` 38-43). -/
def polyIds (p : PolyParams) : List (List ℕ) := p.c2.comb ++ p.c3.comb

variable {K : Type} [Field K] [LinearOrder K]

/-- `get_features_attr` for pairs (`features_attr.py` 17-29, `py_features_attr.cpp` 21-27). -/
def attrsPair (p : PairParams K) : Attrs (ℕ × List ℕ) :=
  ⟨(globalAttrs p.maps).map fun a => (a.n, [a.tp]),
    polyIds (polyPair p.nType p.maps.typePairs ((globalAttrs p.maps).map (·.tp)) p.modelType p.maxp),
    pairDict p.nType p.maps.typePairs⟩

/-- `get_features_attr` for invariants (`features_attr.py` 17-32, `py_features_attr.cpp` 28-36). -/
def attrsGt (p : GtParams K) : Attrs (ℕ × ℕ × List ℕ) :=
  ⟨p.linear.map fun lin => (lin.n, lin.lmId, (tpCombs p.nType p.maps.tp lin.order).getD lin.tpId []),
    polyIds p.params, pairDict p.nType p.maps.tp.typePairs⟩

/-- `_get_num_features` (`features_attr.py` 37-41). -/
def numFeatures {A : Type} (a : Attrs A) : ℕ := a.linear.length + a.poly.length

/-- An entry of `features:` (`features_attr.py` 82-86, 93-103). -/
structure FeatureEntry where
  id : ℕ
  featureId : ℕ
  radialId : ℕ
  gtinv : Option (ℕ × List ℕ)
  tps : List ℕ
deriving DecidableEq, Repr

/-- `polymlp_params.yaml`: `radial_params`, `atomtype_pairs`, `features` and `polynomial_features`. -/
structure ParamsFile (P : Type) where
  radial : List (ℕ × P)
  pairs : List (ℕ × List (List String))
  features : List FeatureEntry
  poly : List (ℕ × List ℕ)
deriving DecidableEq, Repr

/-- `list(elements[v1])` (`features_attr.py` 73-74). -/
def pairNames (elements : List String) (v : ℕ × ℕ) : Except Err (List String) :=
  [v.1, v.2].mapM fun t => orErr .indexError elements[t]?

/-- `atomtype_pairs:` (`features_attr.py` 69-76). -/
def pairSection (elements : List String) (d : Dict ℕ (List (ℕ × ℕ))) :
    Except Err (List (ℕ × List (List String))) :=
  d.mapM fun kv => (kv.2.mapM (pairNames elements)).map fun ns => (kv.1, ns)

/-- `polynomial_features:` (`features_attr.py` 107-113) starting at `seq_id`, and the final `seq_id`. -/
def polySection (seqId : ℕ) (poly : List (List ℕ)) : List (ℕ × List ℕ) × ℕ :=
  poly.foldl (fun s c => (s.1 ++ [(s.2, c)], s.2 + 1)) ([], seqId)

/-- `_write_polymlp_params_yaml` for pairs (`features_attr.py` 52-88, 107-116): the file and the returned
`seq_id`. -/
def writePair {P : Type} (pairParams : List P) (elements : List String) (a : Attrs (ℕ × List ℕ)) :
    Except Err (ParamsFile P × ℕ) := do
  let pairs ← pairSection elements a.pairs
  let fs := a.linear.foldl
    (fun (s : List FeatureEntry × ℕ × ℕ) f =>
      (s.1 ++ [⟨s.2.1, s.2.2, f.1, none, f.2⟩], s.2.1 + 1, s.2.2 + 1)) ([], 0, 0)
  let ps := polySection fs.2.1 a.poly
  return (⟨pairParams.zipIdx.map fun e => (e.2, e.1), pairs, fs.1, ps.1⟩, ps.2)

/-- `_write_polymlp_params_yaml` for invariants (`features_attr.py` 52-76, 90-116). -/
def writeGt {P : Type} (pairParams : List P) (elements : List String) (lComb : List (List ℕ))
    (a : Attrs (ℕ × ℕ × List ℕ)) : Except Err (ParamsFile P × ℕ) := do
  let pairs ← pairSection elements a.pairs
  let fs ← a.linear.foldlM
    (fun (s : List FeatureEntry × ℕ × ℕ) f => (orErr .indexError lComb[f.2.1]?).map fun l =>
      (s.1 ++ [⟨s.2.1, s.2.2, f.1, some (f.2.1, l), f.2.2⟩], s.2.1 + 1, s.2.2 + 1)) ([], 0, 0)
  let ps := polySection fs.2.1 a.poly
  return (⟨pairParams.zipIdx.map fun e => (e.2, e.1), pairs, fs.1, ps.1⟩, ps.2)

end Verif.FeatAttr
