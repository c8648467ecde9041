import Verif.Model.Cx
import Verif.Model.MlpPot
import Verif.Model.MlpEval

/-!
# Invariant features and their derivatives

`/repo/src/pypolymlp/cxx/src/polymlp/polymlp_products.{h,cpp}`, `polymlp_features.cpp`,
`polymlp_features_mapping_utils.cpp` and `polymlp_potential.cpp` for complex arrays.  `double` is a
linearly ordered field `K`, `std::complex<double>` is `Cx K`.
-/

namespace Verif.Mlp
open Verif

variable {K : Type} [Field K]

/-- `prod_real` (`polymlp_products.h` 46-48). -/
def prodReal (a b : Cx K) : K := a.re * b.re - a.im * b.im

/-- `compute_product_real` (`polymlp_products.cpp` 21-38). -/
def productReal (prod : List ℕ) (el : ℕ → Cx K) : K :=
  match prod with
  | [p0, p1, p2, p3] => prodReal (el p1 * el p2 * el p3) (el p0)
  | [p0, p1, p2] => prodReal (el p0 * el p1) (el p2)
  | [p0, p1] => prodReal (el p0) (el p1)
  | [p0] => (el p0).re
  | [] => 1
  | p0 :: p1 :: ps => prodReal (ps.foldl (fun v q => v * el q) (el p1)) (el p0)

/-- `compute_features` for invariants (`polymlp_features.cpp` 173-206).  `threshold` is
`threshold_prod` (line 22) and `skip` the literal `1e-20` (line 187); `features` are the features of
`set_mappings_efficient` (lines 90-122), whose number is `feature_sizes[type1]`. -/
def computeFeaturesGtinv [LinearOrder K] (threshold : ℕ) (skip : K)
    (features : List (List (SingleTerm K))) (a : ℕ → Cx K) : ℕ → K :=
  let prod := prodMap features
  if prod.length > threshold then
    let mapped := mappedAlgo1 features prod
    (List.range prod.length).foldl
      (fun v i =>
        let val := productReal (prod.getD i []) a
        if |val| > skip then (mapped i).foldl (fun v mf => addAt v mf.2 (mf.1 * val)) v else v)
      (fun _ => 0)
  else
    let vals : ℕ → K := fun i => (prod.map fun p => productReal p a).getD i 0
    let mapped := mappedAlgo2 features prod
    fun i => (mapped.getD i []).foldl (fun val s => val + s.1 * vals s.2) 0

/-- `MappedSingleDerivTerm` (`polymlp_structs.h` 105-110): `coeff`, `prod_id`, `head_id`. -/
structure DTerm (K : Type) where
  coeff : K
  pid : ℕ
  head : ℕ

/-- The comparison of `sort` (`polymlp_features_mapping_utils.cpp` 158-168). -/
def dtermLe (a b : DTerm K) : Prop := a.head < b.head ∨ (a.head = b.head ∧ a.pid ≤ b.pid)

instance (a b : DTerm K) : Decidable (dtermLe a b) := by unfold dtermLe; infer_instance

/-- `convert_to_mapped_features_deriv_algo2` (`polymlp_features_mapping_utils.cpp` 129-155). -/
def mappedDeriv (features : List (List (SingleTerm K))) (map : List (List ℕ)) :
    List (List (DTerm K)) :=
  features.map fun f =>
    ((mergeAdd (f.flatMap fun s => (List.range s.2.length).map fun i =>
      ((s.2.getD i 0, keyId map (eraseKey s.2 i)), s.1))).map
      fun e => (⟨e.2, e.1.2, e.1.1⟩ : DTerm K)).insertionSort dtermLe

/-- `compute_features_deriv_single_component` (`polymlp_features.cpp` 229-248) with
`compute_prod_anlmtp_deriv` (259-265): derivative of feature `f` for column `j`; `ad h j` is
`anlmtp_d[h][j]`. -/
def featuresDeriv (features : List (List (SingleTerm K))) (a : ℕ → Cx K) (ad : ℕ → ℕ → Cx K)
    (f j : ℕ) : K :=
  let prods := products (prodDerivMap features) a
  ((mappedDeriv features (prodDerivMap features)).getD f []).foldl
    (fun v s => v + prodReal (Cx.smul s.coeff (prods s.pid)) (ad s.head j)) 0

/-- `compute_sum_of_prod_anlmtp` (`polymlp_potential.cpp` 235-294): reads the flat copy of the
potential; `fvals` are the products of the features of `compute_features` and
`compute_prod_features`. -/
def Pot.sumGtinv (p : Pot K) (fvals : ℕ → K) (a : ℕ → Cx K) : (ℕ → Cx K) × (ℕ → Cx K) :=
  let derivs := products (prodDerivMap p.features) a
  let sums := fun i => (p.flat.row i).foldl
    (fun (s : Cx K × Cx K) t =>
      let se := fvals t.pfid * t.ce
      let sf := fvals t.pfid * t.cf
      let d := derivs t.pid
      (⟨s.1.re + d.re * se, s.1.im + d.im * se⟩, ⟨s.2.re + d.re * sf, s.2.im + d.im * sf⟩)) (0, 0)
  (fun i => (sums i).1, fun i => (sums i).2)

end Verif.Mlp
