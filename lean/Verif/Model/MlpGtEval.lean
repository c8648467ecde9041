import Verif.Model.MlpNlm
import Verif.Model.MlpGtinv
import Verif.Model.MlpPoly

/-!
# Evaluation of models with polynomial invariants

`/repo/src/pypolymlp/cxx/src/polymlp/polymlp_model_params_gtinv.cpp`, `polymlp_features_utils.cpp`,
`/repo/src/pypolymlp/cxx/src/compute/local.cpp`, `model.cpp` and `polymlp_eval.cpp` for
`feature_type = gtinv`.  `double` is a linearly ordered field `K` with exact arithmetic; `sqrt`, the radial
functions and the spherical harmonics (modelled in `MlpYlm`) are parameters.  The parallel loops write only
to entries of the current atom and are modelled by sequential loops.
-/

namespace Verif.Mlp
open Verif
open Verif.Neighbor (Vec Csr r2)

/-! ## Linear features -/

/-- `LinearTerm` (`polymlp_structs.h` 90-96). -/
structure LinearTerm where
  n : ℕ
  lmId : ℕ
  tpId : ℕ
  order : ℕ
  type1 : List ℕ
deriving DecidableEq, Repr

/-- `Permutenr` (`polymlp_model_params_gtinv.h` 15-27): all sequences of length `r` over `input`. -/
def permNr (input : List ℕ) : ℕ → List (List ℕ)
  | 0 => [[]]
  | r + 1 => input.flatMap fun i => (permNr input r).map fun p => i :: p

/-- `tp_combs[order]` (`_enumerate_tp_combs`, `polymlp_model_params_gtinv.cpp` 44-67). -/
def tpCombs (nType : ℕ) (m : TpMaps) (order : ℕ) : List (List ℕ) :=
  (permNr (List.range m.tpTypes.length) order).filter fun p =>
    (List.range nType).any fun t => checkType nType m.typePairs p t

/-- `nonzero_n_list[order]` for one combination (`_enumerate_nonzero_n`,
`polymlp_model_params_gtinv.cpp` 70-89; `vector_intersection`, 25-33). -/
def nonzeroN (m : TpMaps) : List ℕ → List ℕ
  | [] => []
  | tp :: tps => tps.foldl
      (fun v tp => setInter (v.insertionSort (· ≤ ·)) ((m.tpN.getD tp []).insertionSort (· ≤ ·)))
      (m.tpN.getD tp [])

/-- `operator<` of `std::pair<int, int>`, or equal. -/
def pairLe (a b : ℕ × ℕ) : Bool := decide (a.1 < b.1) || (decide (a.1 = b.1) && decide (a.2 ≤ b.2))

/-- `operator<` of `std::multiset<std::pair<int, int>>` (lexicographic), or equal. -/
def pairsLe : List (ℕ × ℕ) → List (ℕ × ℕ) → Bool
  | [], _ => true
  | _ :: _, [] => false
  | a :: as, b :: bs => if a = b then pairsLe as bs else pairLe a b

/-- `uniq_lmt` (`polymlp_model_params_gtinv.cpp` 116-123): the multisets of pairs `(l, tp)`. -/
def uniqLt (lComb : List ℕ) (combs : List (List ℕ)) : List (List (ℕ × ℕ)) :=
  (combs.map fun c => (lComb.zip c).insertionSort (fun a b => pairLe a b)).dedup.insertionSort
    (fun a b => pairsLe a b)

/-- The linear terms of one entry of the table (`polymlp_model_params_gtinv.cpp` 110-144;
`_find_tp_comb_id`, 36-41).  The code takes `gtinv_order` from the last entry of the table (92-151); here every
entry has its own order, which is the size of its `l_comb`. -/
def linearOf (nType : ℕ) (m : TpMaps) (lmId : ℕ) (lComb : List ℕ) : List LinearTerm :=
  let combs := tpCombs nType m lComb.length
  (uniqLt lComb combs).flatMap fun lt =>
    let tps := lt.map (·.2)
    let id := combs.idxOf tps
    let types := (List.range nType).filter fun t => checkType nType m.typePairs tps t
    ((combs.map (nonzeroN m)).getD id []).map fun n => ⟨n, lmId, id, lComb.length, types⟩

/-- `uniq_gtinv_type` (`polymlp_model_params_gtinv.cpp` 92-151): the terms, ordered by `n`. -/
def linearTerms (nType nFn : ℕ) (m : TpMaps) (lComb : List (List ℕ)) : List LinearTerm :=
  let byN := (lComb.zipIdx.flatMap fun e => linearOf nType m e.2 e.1).foldl
    (fun v x => push v x.n x) (fun _ => [])
  (List.range nFn).flatMap byN

/-- `nlmtp_vec_to_global` (`polymlp_structs.h` 191-197) and the sort after it. -/
def globalIds (g : NlmGlobal) (n : ℕ) (lms tps : List ℕ) : List ℕ :=
  ((lms.zip tps).map fun e => g.toGlobal n e.1 e.2).insertionSort (· ≤ ·)

/-- The representative of `find_local_ids` (`polymlp_features_utils.cpp` 109-132): the smaller one of the
identifiers and of their conjugates. -/
def repIds (g : NlmGlobal) (ids : List ℕ) : List ℕ :=
  let ids2 := (ids.map fun id => (conjTable g.attrs id).toNat).insertionSort (· ≤ ·)
  if ids ≤ ids2 then ids else ids2

section
variable {K : Type} [Field K] [LinearOrder K]

/-- The fields of `feature_params` used by models with invariants (`polymlp_mlpcpp.h`), the functions of
`polymlp_functions_interface.cpp` and the literals: `ylm d` are the values of `get_ylm_(dx, dy, dz, …)`,
`ylmV dis d` and `ylmG dis d` the values and the gradient of `get_ylm_(dis, dx, dy, dz, …)`; `tol` is
`1e-20` (`local.cpp` 11, `polymlp_eval.cpp` 248, 388), `threshold` and `skip` as in
`computeFeaturesGtinv`. -/
structure GtParams (K : Type) where
  nType : ℕ
  nFn : ℕ
  maxl : ℕ
  cond : ℕ → ℕ → List ℕ
  rad : ℕ → K → K
  radD : ℕ → K → K
  ylm : Vec K → ℕ → Cx K
  ylmV : K → Vec K → ℕ → Cx K
  ylmG : K → Vec K → ℕ → Fin 3 → Cx K
  cutoff : K
  tol : K
  threshold : ℕ
  skip : K
  lComb : List (List ℕ)
  lmArray : List (List (List ℕ))
  lmCoeffs : List (List K)
  modelType : ℕ
  maxp : ℕ

/-- `maps`. -/
def GtParams.maps (p : GtParams K) : NlmMaps := nlmMaps p.nType p.nFn p.maxl p.cond

/-- `linear_terms`. -/
def GtParams.linear (p : GtParams K) : List LinearTerm :=
  linearTerms p.nType p.nFn p.maps.tp p.lComb

/-- `maps_type[t].nlmtp_attrs`. -/
def GtParams.attrs (p : GtParams K) (t : ℕ) : List NlmAttr := p.maps.loc.attrs t

/-- `maps_type[t].nlmtp_attrs_noconj`. -/
def GtParams.noconj (p : GtParams K) (t : ℕ) : List NlmAttr := p.maps.loc.noconj t

/-- The feature of one linear term for type `t` with the identifiers `ids`
(`polymlp_features_utils.cpp` 57-73, 90-105). -/
def GtParams.feature (p : GtParams K) (ids : List ℕ → List ℕ) (lin : LinearTerm) (t : ℕ) :
    List (SingleTerm K) :=
  let tps := (tpCombs p.nType p.maps.tp lin.order).getD lin.tpId []
  let coeffs := p.lmCoeffs.getD lin.lmId []
  (p.lmArray.getD lin.lmId []).zipIdx.map fun e =>
    (coeffs.getD e.2 0, (ids (globalIds p.maps.glob lin.n e.1 tps)).map fun g => p.maps.loc.iloc g t)

/-- The features of every type for the identifiers `ids`. -/
def GtParams.featuresBy (p : GtParams K) (ids : List ℕ → List ℕ) : ℕ → List (List (SingleTerm K)) :=
  p.linear.foldl
    (fun fs lin => lin.type1.foldl (fun fs t => push fs t (p.feature ids lin t)) fs) (fun _ => [])

/-- `maps_type[t].features` (`set_linear_features_gtinv`, `polymlp_features_utils.cpp` 48-76). -/
def GtParams.features (p : GtParams K) : ℕ → List (List (SingleTerm K)) := p.featuresBy id

/-- `features_for_map[t]` (`get_linear_features_gtinv_with_reps`, `polymlp_features_utils.cpp`
79-106). -/
def GtParams.featuresRep (p : GtParams K) : ℕ → List (List (SingleTerm K)) :=
  p.featuresBy (repIds p.maps.glob)

/-- The polynomial parameters of the model. -/
def GtParams.params (p : GtParams K) : PolyParams :=
  polyGtinv (p.linear.map (·.type1)) (p.linear.map (·.order)) p.modelType p.maxp

/-- `maps_type[t].polynomial`. -/
def GtParams.poly (p : GtParams K) (t : ℕ) : List (ℕ × List ℕ) := polynomial p.params t

/-! ## Design matrix -/

/-- `anlmtp`, `anlmtp_dfx`, … and `anlmtp_ds`. -/
structure NlmDeriv (K : Type) where
  a : ℕ → Cx K
  df : ℕ → ℕ → Fin 3 → Cx K
  ds : ℕ → Fin 6 → Cx K

/-- The six products of a complex vector and a vector, in the order xx, yy, zz, xy, yz, zx
(`local.cpp` 191-196). -/
def sixC (u : Fin 3 → Cx K) (v : Vec K) : Fin 6 → Cx K :=
  ![Cx.smul (v 0) (u 0), Cx.smul (v 1) (u 1), Cx.smul (v 2) (u 2), Cx.smul (v 1) (u 0),
    Cx.smul (v 2) (u 1), Cx.smul (v 0) (u 2)]

/-- Body of the inner loop of `compute_anlmtp_d` (`local.cpp` 163-197) for an attribute of the pair with
`fn >= tol`. -/
def anlmStep (p : GtParams K) (atom1 atom2 : ℕ) (dis : K) (d : Vec K) (fn fnD : ℕ → K) (s : NlmDeriv K)
    (a : NlmAttr) : NlmDeriv K :=
  let key := a.lm.ylmKey.toNat
  let y := p.ylmV dis d key
  let d1 := Cx.smul (1 / dis) (Cx.smul (fnD a.nId) y)
  let val : Fin 3 → Cx K := fun x => Cx.smul (d x) d1 + Cx.smul (fn a.nId) (p.ylmG dis d key x)
  let df1 := put s.df a.iloc (addAt (s.df a.iloc) atom1 val)
  let df2 := put df1 a.iloc (addAt (df1 a.iloc) atom2 (-val))
  ⟨addAt s.a a.iloc (Cx.smul (fn a.nId) y), df2, addAt s.ds a.iloc (-sixC val d)⟩

/-- The sums over the neighbours in `compute_anlmtp_d` (`local.cpp` 149-198). -/
def anlmSums (p : GtParams K) (sqrt : K → K) (types : ℕ → ℕ) (atom1 : ℕ) (row : List (ℕ × Vec K)) :
    NlmDeriv K :=
  row.foldl
    (fun s e =>
      let dis := sqrt (r2 e.2)
      if dis ≥ p.cutoff then s
      else
        let tp := p.maps.tp.typePairs (types atom1) (types e.1)
        let fn := fnAt p.rad (p.maps.tp.tpN.getD tp []) dis
        let fnD := fnAt p.radD (p.maps.tp.tpN.getD tp []) dis
        (p.noconj (types atom1)).foldl
          (fun s a => if tp ≠ a.tp ∨ fn a.nId < p.tol then s
            else anlmStep p atom1 e.1 dis e.2 fn fnD s a) s)
    ⟨fun _ => 0, fun _ _ => 0, fun _ => 0⟩

/-- Body of the last loop of `compute_anlmtp_d` (`local.cpp` 200-216). -/
def conjStep (s : NlmDeriv K) (a : NlmAttr) : NlmDeriv K :=
  if a.lm.conj then
    let f := fun x : Cx K => Cx.smul (a.lm.cc : K) (Cx.conj x)
    ⟨put s.a a.iloc (f (s.a a.ilocConj)),
      put s.df a.iloc (fun k x => f (s.df a.ilocConj k x)),
      put s.ds a.iloc (fun k => f (s.ds a.ilocConj k))⟩
  else s

/-- `compute_anlmtp_d` (`local.cpp` 116-217). -/
def anlmD (p : GtParams K) (sqrt : K → K) (types : ℕ → ℕ) (atom1 : ℕ) (row : List (ℕ × Vec K)) :
    NlmDeriv K :=
  (p.attrs (types atom1)).foldl conjStep (anlmSums p sqrt types atom1 row)

/-- `Local::gtinv_d` (`local.cpp` 34-59). -/
def localGtinvD (p : GtParams K) (sqrt : K → K) (types : ℕ → ℕ) (atom1 : ℕ) (row : List (ℕ × Vec K)) :
    PairDeriv K :=
  let s := anlmD p sqrt types atom1 row
  let fs := p.features (types atom1)
  ⟨computeFeaturesGtinv p.threshold p.skip (p.featuresRep (types atom1)) s.a,
    fun f k x => featuresDeriv fs s.a (fun h j => s.df h j x) f k,
    fun f c => featuresDeriv fs s.a (fun h _ => s.ds h c) f 0⟩

/-- `Model::run` with `force = true` for invariants (`model.cpp` 39-60, 90-117). -/
def gtModelRun (p : GtParams K) (sqrt : K → K) (types : ℕ → ℕ) (n : ℕ) (neigh : Csr (ℕ × Vec K)) :
    XSum K :=
  (List.range n).foldl
    (fun s atom1 =>
      modelPolynomial (p.poly (types atom1)) s (localGtinvD p sqrt types atom1 (neigh.row atom1)))
    ⟨fun _ => 0, fun _ _ => 0, fun _ => 0⟩

/-! ## Evaluator -/

/-- The potential of type `t` (`polymlp_eval.cpp` 12-20 doubles the coefficients; `polymlp_potential.cpp`
25-39 with `elim_conj = true`; `is_conj` and `get_noconj_id`, `polymlp_structs.h` 148-154). -/
def GtParams.pot (p : GtParams K) (coeffs : ℕ → K) (t : ℕ) : Pot K :=
  let isConj := fun h => ((p.attrs t)[h]?.map fun a => a.lm.conj).getD false
  let noconjId := fun h => ((p.attrs t)[h]?.map fun a => a.ilocNoconj).getD 0
  mkPot true isConj (fun h => if isConj h then none else some (noconjId h)) (p.noconj t).length
    (p.features t) (p.poly t) (fun i => 2 * coeffs i)

/-- `anlmtp_r` and `anlmtp_i` in `compute_sum_of_prod_anlmtp` (`polymlp_eval.cpp` 368-397). -/
def anlmFull (p : GtParams K) (sqrt : K → K) (types : ℕ → ℕ) (i : ℕ) (row : List (ℕ × Vec K)) :
    ℕ → Cx K :=
  row.foldl
    (fun v e =>
      let d := -e.2
      let dis := sqrt (r2 d)
      if dis ≥ p.cutoff then v
      else
        let tp := p.maps.tp.typePairs (types i) (types e.1)
        let fn := fnAt p.rad (p.maps.tp.tpN.getD tp []) dis
        (nlmCompact (p.noconj (types i)) tp).foldl
          (fun v a => if fn a.nId < p.tol then v
            else addAt v a.ilocNoconj (Cx.smul (fn a.nId) (p.ylm d a.lm.ylmKey.toNat))) v)
    (fun _ => 0)

/-- `prod_sum_e[i]` and `prod_sum_f[i]` (`polymlp_eval.cpp` 337-404, `polymlp_potential.cpp` 235-294). -/
def gtProdSums (p : GtParams K) (sqrt : K → K) (pot : ℕ → Pot K) (types : ℕ → ℕ) (n : ℕ)
    (half : Csr (ℕ × Vec K)) (i : ℕ) : (ℕ → Cx K) × (ℕ → Cx K) :=
  let t := types i
  let a := anlmConjugate (p.noconj t) (anlmFull p sqrt types i ((Neighbor.getFullList n half).row i))
  let fvals := products (prodFeaturesMap (pot t).poly)
    (computeFeaturesGtinv p.threshold p.skip (p.featuresRep t) a)
  (pot t).sumGtinv fvals a

/-- Body of the loop over the attributes in `eval_gtinv` (`polymlp_eval.cpp` 245-274). -/
def gtEntryStep (p : GtParams K) (i j : ℕ) (pe pf : ℕ → ℕ → Cx K) (dis : K) (d : Vec K) (fn fnD : ℕ → K)
    (s : K × Vec K) (a : NlmAttr) : K × Vec K :=
  if fn a.nId < p.tol then s
  else
    let key := a.lm.ylmKey.toNat
    let y := p.ylmV dis d key
    let val := Cx.smul (fn a.nId) y
    let d1 := Cx.smul (1 / dis) (Cx.smul (fnD a.nId) y)
    let valx : Fin 3 → Cx K := fun x => -(Cx.smul (d x) d1 + Cx.smul (fn a.nId) (p.ylmG dis d key x))
    let sumE := pe i a.ilocNoconj + Cx.smul (a.lm.signJ : K) (pe j a.jlocNoconj)
    let sumF := pf i a.ilocNoconj + Cx.smul (a.lm.signJ : K) (pf j a.jlocNoconj)
    let factor : K := if a.lm.m = 0 then 1 / 2 else 1
    (s.1 + prodReal val (Cx.smul factor sumE),
      fun x => s.2 x + prodReal (valx x) (Cx.smul factor sumF))

/-- `e_ij` and the force on `i` for one entry of the half list (`polymlp_eval.cpp` 227-279). -/
def gtEvalEntry (p : GtParams K) (sqrt : K → K) (pe pf : ℕ → ℕ → Cx K) (types : ℕ → ℕ) (i : ℕ)
    (e : ℕ × Vec K) : K × Vec K :=
  let d := -e.2
  let dis := sqrt (r2 d)
  if dis ≥ p.cutoff then (0, 0)
  else
    let tp := p.maps.tp.typePairs (types i) (types e.1)
    let fn := fnAt p.rad (p.maps.tp.tpN.getD tp []) dis
    let fnD := fnAt p.radD (p.maps.tp.tpN.getD tp []) dis
    (nlmCompact (p.noconj (types i)) tp).foldl (gtEntryStep p i e.1 pe pf dis d fn fnD) (0, 0)

/-- `eval_gtinv` (`polymlp_eval.cpp` 182-290). -/
def evalGtinv (p : GtParams K) (sqrt : K → K) (pot : ℕ → Pot K) (types : ℕ → ℕ) (n : ℕ)
    (half : Csr (ℕ × Vec K)) : Props K :=
  let ps := gtProdSums p sqrt pot types n half
  collect p.cutoff sqrt n half fun i =>
    (half.row i).map (gtEvalEntry p sqrt (fun i => (ps i).1) (fun i => (ps i).2) types i)

end

end Verif.Mlp
