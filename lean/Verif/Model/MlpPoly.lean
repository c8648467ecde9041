import Verif.Model.MlpMap

/-!
# Enumeration of polynomial terms

`/repo/src/pypolymlp/cxx/src/polymlp/polymlp_model_params_polynomial.cpp`,
`check_type_in_type_pairs` of `polymlp_model_params_gtinv.cpp` and `set_polynomial` of
`polymlp_features_polynomial.cpp`.
-/

namespace Verif.Mlp

/-- `check_type_in_type_pairs` (`polymlp_model_params_gtinv.cpp` 11-22): every pair occurs in the
row of `type1`. -/
def checkType (nType : ℕ) (typePairs : ℕ → ℕ → ℕ) (tps : List ℕ) (type1 : ℕ) : Bool :=
  tps.all fun tp => (List.range nType).any fun t2 => typePairs type1 t2 == tp

/-- `target_comb`, `target_comb_indices` and `i_comb`. -/
structure CombState where
  comb : List (List ℕ)
  idx : ℕ → List ℕ
  iComb : ℕ

/-- The empty state before the loops. -/
def CombState.empty : CombState := ⟨[], fun _ => [], 0⟩

/-- `append_combs_pair` (`polymlp_model_params_polynomial.cpp` 163-182). -/
def appendPair (nType : ℕ) (typePairs : ℕ → ℕ → ℕ) (tps comb : List ℕ) (s : CombState) :
    CombState :=
  let st := (List.range nType).foldl
    (fun (r : (ℕ → List ℕ) × Bool) t =>
      if checkType nType typePairs tps t then (push r.1 t s.iComb, true) else r) (s.idx, false)
  if st.2 then ⟨s.comb ++ [comb], st.1, s.iComb + 1⟩ else ⟨s.comb, st.1, s.iComb⟩

/-- `std::set_intersection` of two ranges. -/
def setInter : List ℕ → List ℕ → List ℕ
  | [], _ => []
  | _ :: _, [] => []
  | a :: as, b :: bs =>
    if a < b then setInter as (b :: bs)
    else if b < a then setInter (a :: as) bs
    else a :: setInter as bs
termination_by xs ys => xs.length + ys.length

/-- `intersection_types_in_polynomial` (`polymlp_model_params_polynomial.cpp` 254-273); the sorted
copies of lines 258-259 are not used by the code. -/
def interTypes : List (List ℕ) → List ℕ
  | [] => []
  | t :: ts => ts.foldl setInter t

/-- `append_combs_gtinv` (`polymlp_model_params_polynomial.cpp` 236-251). -/
def appendGtinv (types : List (List ℕ)) (comb : List ℕ) (s : CombState) : CombState :=
  let ts := interTypes types
  if ts.length > 0 then
    ⟨s.comb ++ [comb], ts.foldl (fun v t => push v t s.iComb) s.idx, s.iComb + 1⟩
  else s

/-- `combination1_pair` (112-125) for the attributes `tps` of the linear terms. -/
def comb1Pair (nType : ℕ) (typePairs : ℕ → ℕ → ℕ) (tps : List ℕ) : ℕ → List ℕ :=
  tps.zipIdx.foldl
    (fun v e => (List.range nType).foldl
      (fun v t => if checkType nType typePairs [e.1] t then push v t e.2 else v) v)
    (fun _ => [])

/-- `combination1_gtinv` (185-192) for the lists `type1` of the linear terms. -/
def comb1Gtinv (types : List (List ℕ)) : ℕ → List ℕ :=
  types.zipIdx.foldl (fun v e => e.1.foldl (fun v t => push v t e.2) v) (fun _ => [])

/-- The loops of `combination2_pair` and `combination2_gtinv` (128-141, 195-212): `app` appends
the combination `{iarray[i2], iarray[i1]}` given the positions of its terms, in the order of
`tp_array`. -/
def comb2Loop (app : List ℕ → List ℕ → CombState → CombState) (iarray : List ℕ) : CombState :=
  (List.range iarray.length).foldl
    (fun s i1 => (List.range (i1 + 1)).foldl
      (fun s i2 =>
        app [iarray.getD i1 0, iarray.getD i2 0] [iarray.getD i2 0, iarray.getD i1 0] s) s)
    .empty

/-- The loops of `combination3_pair` and `combination3_gtinv` (144-160, 214-233). -/
def comb3Loop (app : List ℕ → List ℕ → CombState → CombState) (iarray : List ℕ) : CombState :=
  (List.range iarray.length).foldl
    (fun s i1 => (List.range (i1 + 1)).foldl
      (fun s i2 => (List.range (i2 + 1)).foldl
        (fun s i3 =>
          app [iarray.getD i1 0, iarray.getD i2 0, iarray.getD i3 0]
            [iarray.getD i3 0, iarray.getD i2 0, iarray.getD i1 0] s) s) s)
    .empty

/-- `comb1_indices`, `comb2`, `comb2_indices`, `comb3`, `comb3_indices` and
`n_linear_features`. -/
structure PolyParams where
  nLinear : ℕ
  comb1 : ℕ → List ℕ
  c2 : CombState
  c3 : CombState

/-- `select_linear_terms_pair` (40-55): the linear terms used in products. -/
def selectPair (modelType nLinear : ℕ) : List ℕ := if modelType = 2 then List.range nLinear else []

/-- `select_linear_terms_gtinv` (58-86) for the orders of the linear terms. -/
def selectGtinv (modelType : ℕ) (orders : List ℕ) : List ℕ :=
  if modelType = 2 then List.range orders.length
  else if modelType > 2 then
    let maxOrder := if modelType = 3 then 1 else 2
    (List.range orders.length).filter fun n => decide (orders.getD n 0 ≤ maxOrder)
  else []

/-- `ModelParamsPoly` for pair features (`set_polynomials_pair`, 89-96). -/
def polyPair (nType : ℕ) (typePairs : ℕ → ℕ → ℕ) (tps : List ℕ) (modelType maxp : ℕ) :
    PolyParams :=
  let iarray := selectPair modelType tps.length
  let app := fun (is comb : List ℕ) =>
    appendPair nType typePairs (is.map fun i => tps.getD i 0) comb
  ⟨tps.length, comb1Pair nType typePairs tps,
    if modelType > 1 ∧ maxp > 1 then comb2Loop app iarray else .empty,
    if modelType > 1 ∧ maxp > 2 then comb3Loop app iarray else .empty⟩

/-- `ModelParamsPoly` for invariant features (`set_polynomials_gtinv`, 99-110). -/
def polyGtinv (types : List (List ℕ)) (orders : List ℕ) (modelType maxp : ℕ) : PolyParams :=
  let iarray := selectGtinv modelType orders
  let app := fun (is comb : List ℕ) => appendGtinv (is.map fun i => types.getD i []) comb
  ⟨types.length, comb1Gtinv types,
    if modelType > 1 ∧ maxp > 1 then comb2Loop app iarray else .empty,
    if modelType > 1 ∧ maxp > 2 then comb3Loop app iarray else .empty⟩

/-- `map1` after the loop over `comb1_indices` (`polymlp_features_polynomial.cpp` 33-40). -/
def map1 (comb1 : List ℕ) : ℕ → ℕ := comb1.zipIdx.foldl (fun f e => put f e.1 e.2) (fun _ => 0)

/-- `set_polynomial` for one type (`polymlp_features_polynomial.cpp` 29-54): a term is its global
identifier (column) and the local identifiers of its factors. -/
def polynomial (p : PolyParams) (type1 : ℕ) : List (ℕ × List ℕ) :=
  ((p.comb1 type1).zipIdx.map fun e => (e.1, [e.2])) ++
    ((p.c2.idx type1).map fun i =>
      (p.nLinear + i, (p.c2.comb.getD i []).map (map1 (p.comb1 type1)))) ++
    ((p.c3.idx type1).map fun i =>
      (p.nLinear + p.c2.comb.length + i, (p.c3.comb.getD i []).map (map1 (p.comb1 type1))))

/-- `n_variables` (`polymlp_features_polynomial.cpp` 27). -/
def nVariables (p : PolyParams) : ℕ := p.nLinear + p.c2.comb.length + p.c3.comb.length

end Verif.Mlp
