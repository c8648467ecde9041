import Verif.Model.MlpMap
import Verif.Model.Dict
import Verif.Model.Neighbor
import Mathlib.Data.List.Dedup
import Mathlib.Data.List.Sort
import Mathlib.Algebra.BigOperators.Group.List.Basic
import Mathlib.Algebra.Algebra.Basic

/-!
# Features, products and the potential

`/repo/src/pypolymlp/cxx/src/polymlp/polymlp_products.h`, `polymlp_structs.h` (218-245),
`polymlp_features_mapping_utils.cpp`, `polymlp_features.cpp` and `polymlp_potential.cpp`.
`double` is a field `K` with exact arithmetic.  The order in which an `unordered_map` is iterated is
taken to be the order of insertion.
-/

namespace Verif.Mlp
open Verif

/-- `compute_product` (`polymlp_products.h` 13-21). -/
def product {A : Type} [Mul A] [One A] (prod : List ℕ) (el : ℕ → A) : A :=
  match prod with
  | [] => 1
  | p :: ps => ps.foldl (fun v q => v * el q) (el p)

/-- `compute_products` (`polymlp_products.h` 24-37). -/
def products {A : Type} [Mul A] [One A] [Zero A] (map : List (List ℕ)) (el : ℕ → A) : ℕ → A :=
  fun i => (map.map fun p => product p el).getD i 0

/-- The vector `map` of `convert_set_to_mappings` (`polymlp_structs.h` 224-225): the keys without
repetition, sorted. -/
def uniqKeys (keys : List (List ℕ)) : List (List ℕ) :=
  keys.dedup.insertionSort (fun a b => a ≤ b)

/-- `map_from_keys[k]` (`polymlp_structs.h` 227-231); a missing key reads as 0. -/
def keyId (map : List (List ℕ)) (k : List ℕ) : ℕ :=
  ((Dict.setAll ([] : Dict (List ℕ) ℕ) map.zipIdx).get? k).getD 0

/-- `erase_a_key` (`polymlp_structs.h` 234-239). -/
def eraseKey (ids : List ℕ) (i : ℕ) : List ℕ := (ids.eraseIdx i).insertionSort (· ≤ ·)

/-- `if (count(k) == 0) m[k] = v; else m[k] += v` for every event (`polymlp_potential.cpp` 84-90,
`polymlp_features_mapping_utils.cpp` 58-62). -/
def mergeAdd {κ V : Type} [DecidableEq κ] [Add V] (events : List (κ × V)) : Dict κ V :=
  events.foldl
    (fun d e => match d.get? e.1 with
      | none => d.set e.1 e.2
      | some w => d.set e.1 (w + e.2)) []

variable {K : Type} [Field K]

/-- `get_nonequiv_ids` and the mapping made of it (`polymlp_features_mapping_utils.cpp` 23-31,
`polymlp_features.cpp` 77-81). -/
def prodMap (features : List (List (SingleTerm K))) : List (List ℕ) :=
  uniqKeys (features.flatMap fun f => f.map (·.2))

/-- `get_nonequiv_deriv_ids` without elimination of conjugates
(`polymlp_features_mapping_utils.cpp` 33-50; `Potential` and the feature objects always use
`eliminate_conj = false`, `polymlp_features.cpp` 34-48) and the mapping made of it. -/
def prodDerivMap (features : List (List (SingleTerm K))) : List (List ℕ) :=
  uniqKeys (features.flatMap fun f => f.flatMap fun s =>
    (List.range s.2.length).map fun i => eraseKey s.2 i)

/-- `FeaturesPoly::set_mappings` (`polymlp_features_polynomial.cpp` 58-74). -/
def prodFeaturesMap (poly : List (ℕ × List ℕ)) : List (List ℕ) :=
  uniqKeys (poly.flatMap fun t => (List.range t.2.length).map fun i => eraseKey t.2 i)

/-- `convert_to_mapped_features_algo2` (`polymlp_features_mapping_utils.cpp` 53-65, 86-101): pairs
`(coeff, prod_id)` per feature. -/
def mappedAlgo2 (features : List (List (SingleTerm K))) (map : List (List ℕ)) :
    List (List (K × ℕ)) :=
  features.map fun f =>
    (mergeAdd (f.map fun s => (keyId map s.2, s.1))).map fun e => (e.2, e.1)

/-- `convert_to_mapped_features_algo1` (`polymlp_features_mapping_utils.cpp` 68-84): pairs
`(coeff, f_id)` per product. -/
def mappedAlgo1 (features : List (List (SingleTerm K))) (map : List (List ℕ)) :
    ℕ → List (K × ℕ) :=
  features.zipIdx.foldl
    (fun v f => (mergeAdd (f.1.map fun s => (keyId map s.2, s.1))).foldl
      (fun v e => push v e.1 (e.2, f.2)) v)
    (fun _ => [])

/-- `compute_features` for pair features (`polymlp_features.cpp` 155-170). -/
def computeFeaturesPair (features : List (List (SingleTerm K))) (antp : ℕ → K) : ℕ → K :=
  let prod := prodMap features
  let mapped := mappedAlgo2 features prod
  fun i => if i < mapped.length then
    antp ((prod.getD ((mapped.getD i []).getD 0 (0, 0)).2 []).getD 0 0) else 0

/-- `PotentialTerm` (`polymlp_structs.h` 126-131). -/
structure PTerm (K : Type) where
  ce : K
  cf : K
  pid : ℕ
  pfid : ℕ

/-- `get_feature_size` (`polymlp_structs.h` 156-158). -/
def featureSize (features : List (List (SingleTerm K))) (id : ℕ) : ℕ :=
  ((features.getD id []).getD 0 (0, [])).2.length

/-- The sequence of updates of `nonequiv_map` for one type (`polymlp_potential.cpp` 60-94). -/
def potEvents (elim : Bool) (isConj : ℕ → Bool) (features : List (List (SingleTerm K)))
    (poly : List (ℕ × List ℕ)) (pot : ℕ → K) : List ((ℕ × ℕ × ℕ) × (K × K)) :=
  poly.flatMap fun term =>
    let nProds := (term.2.map (featureSize features)).sum
    (List.range term.2.length).flatMap fun i =>
      let head := term.2.getD i 0
      let pfid := keyId (prodFeaturesMap poly) (eraseKey term.2 i)
      (features.getD head []).flatMap fun s =>
        let cf := pot term.1 * s.1
        let ce := cf / (nProds : K)
        (List.range s.2.length).filterMap fun j =>
          let h := s.2.getD j 0
          if elim && isConj h then none
          else some ((h, keyId (prodDerivMap features) (eraseKey s.2 j), pfid), (ce, cf))

/-- `potential_model[t1]` before sorting (`polymlp_potential.cpp` 96-118); `target h` is the
position for the head `h`: `h` itself, or `none` for conjugates and `get_noconj_id(h)` otherwise. -/
def potModel (target : ℕ → Option ℕ) (d : Dict (ℕ × ℕ × ℕ) (K × K)) : ℕ → List (PTerm K) :=
  d.foldl
    (fun v e => match target e.1.1 with
      | none => v
      | some h => push v h ⟨e.2.1, e.2.2, e.1.2.1, e.1.2.2⟩)
    (fun _ => [])

/-- The comparison of `sort_potential_model` (`polymlp_potential.cpp` 129-136). -/
def ptermLe (a b : PTerm K) : Prop := a.pid < b.pid ∨ (a.pid = b.pid ∧ a.pfid ≤ b.pfid)

instance (a b : PTerm K) : Decidable (ptermLe a b) := by unfold ptermLe; infer_instance

/-- `sort_potential_model` (`polymlp_potential.cpp` 124-139) on the `n` lists of one type. -/
def sortedModel (n : ℕ) (v : ℕ → List (PTerm K)) : List (List (PTerm K)) :=
  (List.range n).map fun h => (v h).insertionSort ptermLe

/-- The potential of one type: `potential_model`, the flat copy with its offsets
(`flatten_potential_model`, `polymlp_potential.cpp` 141-156) and the products it refers to. -/
structure Pot (K : Type) where
  features : List (List (SingleTerm K))
  poly : List (ℕ × List ℕ)
  model : List (List (PTerm K))
  flat : Neighbor.Csr (PTerm K)

/-- The constructor `Potential` for one type (`polymlp_potential.cpp` 25-39). -/
def mkPot (elim : Bool) (isConj : ℕ → Bool) (target : ℕ → Option ℕ) (nHead : ℕ)
    (features : List (List (SingleTerm K))) (poly : List (ℕ × List ℕ)) (pot : ℕ → K) : Pot K :=
  let model := sortedModel nHead
    (potModel target (mergeAdd (potEvents elim isConj features poly pot)))
  ⟨features, poly, model, Neighbor.mkCsr model⟩

/-- `Potential::convert_unit` (`polymlp_potential.cpp` 323-333): only `potential_model` is
scaled. -/
def Pot.convertUnit (p : Pot K) (c : K) : Pot K :=
  { p with model := p.model.map fun ts => ts.map fun t => { t with ce := t.ce * c, cf := t.cf * c } }

/-- `compute_sum_of_prod_antp` (`polymlp_potential.cpp` 203-232). -/
def Pot.sumPair (p : Pot K) (antp : ℕ → K) : (ℕ → K) × (ℕ → K) :=
  let fvals := products (prodFeaturesMap p.poly) (computeFeaturesPair p.features antp)
  let derivs := products (prodDerivMap p.features) antp
  let s := p.model.map fun ts => ts.foldl
    (fun (s : K × K) t =>
      let prod := fvals t.pfid * derivs t.pid
      (s.1 + t.ce * prod, s.2 + t.cf * prod)) (0, 0)
  (fun i => (1 / 2) * (s.getD i (0, 0)).1, fun i => (1 / 2) * (s.getD i (0, 0)).2)

end Verif.Mlp
