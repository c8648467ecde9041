import Verif.Model.MlpMap
import Verif.Model.MlpPoly
import Verif.Model.MlpPot
import Verif.Model.Neighbor
import Mathlib.Data.Fin.VecNotation

/-!
# Evaluation of pair models

`/repo/src/pypolymlp/cxx/src/compute/local_pair.cpp`, `model.cpp` and `polymlp_eval.cpp` (pair
features).  `double` is a linearly ordered field `K` with exact arithmetic, `sqrt` a parameter.  The
parallel loops write only to entries of the current atom and are modelled by sequential loops.
-/

namespace Verif.Mlp
open Verif.Neighbor (Vec Csr r2)

/-- `v[i] += x`. -/
def addAt {A : Type} [Add A] (v : ℕ → A) (i : ℕ) (x : A) : ℕ → A := put v i (v i + x)

variable {K : Type} [Field K] [LinearOrder K]

/-- The fields of `feature_params` used by pair models (`polymlp_mlpcpp.h`).  `rad n` is the radial
function `gauss(dis, params[n][0], params[n][1]) * fc(dis)` and `radD n` its derivative as computed
by `get_fn_` (`polymlp_functions_interface.cpp` 11-24, 40-62). -/
structure PairParams (K : Type) where
  nType : ℕ
  cond : ℕ → ℕ → List ℕ
  rad : ℕ → K → K
  radD : ℕ → K → K
  cutoff : K
  modelType : ℕ
  maxp : ℕ

/-- `get_fn_(dis, fp, tp_to_params[tp], fn)`: `fn[k]` (`polymlp_functions_interface.cpp` 11-24). -/
def fnAt (rad : ℕ → K → K) (ns : List ℕ) (dis : K) (k : ℕ) : K :=
  (ns.map fun n => rad n dis).getD k 0

/-- Distance of an entry of a neighbour list. -/
def disOf (sqrt : K → K) (d : Vec K) : K := sqrt (r2 d)

/-- `maps` of a pair model. -/
def PairParams.maps (p : PairParams K) : TpMaps := setTypePairs p.nType p.cond

/-- `maps_type[type1].ntp_attrs`. -/
def PairParams.attrs (p : PairParams K) (type1 : ℕ) : List NtpAttr := (localMaps p.maps).attrs type1

/-- `maps_type[type1].polynomial`. -/
def PairParams.poly (p : PairParams K) (type1 : ℕ) : List (ℕ × List ℕ) :=
  polynomial
    (polyPair p.nType p.maps.typePairs ((globalAttrs p.maps).map (·.tp)) p.modelType p.maxp) type1

/-- `LocalPair::pair` (`local_pair.cpp` 17-56) on the entries of the list of `atom1`. -/
def localPair (p : PairParams K) (sqrt : K → K) (types : ℕ → ℕ) (atom1 : ℕ)
    (row : List (ℕ × Vec K)) : ℕ → K :=
  row.foldl
    (fun dn e =>
      let dis := disOf sqrt e.2
      if dis ≥ p.cutoff then dn
      else
        let tp := p.maps.typePairs (types atom1) (types e.1)
        let fn := fnAt p.rad (p.maps.tpN.getD tp []) dis
        (p.attrs (types atom1)).foldl
          (fun dn a => if tp = a.tp then addAt dn a.iloc (fn a.nId) else dn) dn)
    (fun _ => 0)

/-- Derivatives of the local features: `df i atom x` and `ds i c`. -/
structure PairDeriv (K : Type) where
  dn : ℕ → K
  df : ℕ → ℕ → Fin 3 → K
  ds : ℕ → Fin 6 → K

/-- The six products accumulated for the stress, in the order xx, yy, zz, xy, yz, zx
(`local_pair.cpp` 115-120, `polymlp_eval.cpp` 327-332). -/
def six (u v : Fin 3 → K) : Fin 6 → K :=
  ![u 0 * v 0, u 1 * v 1, u 2 * v 2, u 0 * v 1, u 1 * v 2, u 2 * v 0]

/-- `LocalPair::pair_d` (`local_pair.cpp` 58-123). -/
def localPairD (p : PairParams K) (sqrt : K → K) (types : ℕ → ℕ) (atom1 : ℕ)
    (row : List (ℕ × Vec K)) : PairDeriv K :=
  row.foldl
    (fun s e =>
      let d := e.2
      let dis := disOf sqrt d
      if dis ≥ p.cutoff then s
      else
        let tp := p.maps.typePairs (types atom1) (types e.1)
        let fn := fnAt p.rad (p.maps.tpN.getD tp []) dis
        let fnD := fnAt p.radD (p.maps.tpN.getD tp []) dis
        (p.attrs (types atom1)).foldl
          (fun s a =>
            if tp ≠ a.tp then s
            else
              let val : Vec K := fun x => fnD a.nId * d x / dis
              let df1 := put s.df a.iloc (addAt (s.df a.iloc) atom1 val)
              let df2 := put df1 a.iloc (addAt (df1 a.iloc) e.1 (-val))
              ⟨addAt s.dn a.iloc (fn a.nId), df2, addAt s.ds a.iloc (-six val d)⟩) s)
    ⟨fun _ => 0, fun _ _ => 0, fun _ => 0⟩

/-- `xe_sum`, `xf_sum` and `xs_sum`, by column. -/
structure XSum (K : Type) where
  xe : ℕ → K
  xf : ℕ → ℕ → Fin 3 → K
  xs : ℕ → Fin 6 → K

/-- `model_order1` (`model.cpp` 181-205). -/
def modelOrder1 (s : XSum K) (d : PairDeriv K) (t : ℕ × List ℕ) : XSum K :=
  let c1 := t.2.getD 0 0
  ⟨addAt s.xe t.1 (d.dn c1), addAt s.xf t.1 (d.df c1), addAt s.xs t.1 (d.ds c1)⟩

/-- `model_order2` (`model.cpp` 207-234). -/
def modelOrder2 (s : XSum K) (d : PairDeriv K) (t : ℕ × List ℕ) : XSum K :=
  let c1 := t.2.getD 0 0
  let c2 := t.2.getD 1 0
  let val1 := d.dn c2
  let val2 := d.dn c1
  ⟨addAt s.xe t.1 (d.dn c1 * d.dn c2),
    addAt s.xf t.1 (fun k x => val1 * d.df c1 k x + val2 * d.df c2 k x),
    addAt s.xs t.1 (fun k => val1 * d.ds c1 k + val2 * d.ds c2 k)⟩

/-- `model_order3` (`model.cpp` 237-267). -/
def modelOrder3 (s : XSum K) (d : PairDeriv K) (t : ℕ × List ℕ) : XSum K :=
  let c1 := t.2.getD 0 0
  let c2 := t.2.getD 1 0
  let c3 := t.2.getD 2 0
  let val1 := d.dn c2 * d.dn c3
  let val2 := d.dn c1 * d.dn c3
  let val3 := d.dn c1 * d.dn c2
  ⟨addAt s.xe t.1 (d.dn c1 * d.dn c2 * d.dn c3),
    addAt s.xf t.1 (fun k x => val1 * d.df c1 k x + val2 * d.df c2 k x + val3 * d.df c3 k x),
    addAt s.xs t.1 (fun k => val1 * d.ds c1 k + val2 * d.ds c2 k + val3 * d.ds c3 k)⟩

/-- `model_polynomial` with the split of the terms by their number of factors (`model.cpp` 20-33,
159-178).  `reshape` (119-156) only changes the layout and is not modelled. -/
def modelPolynomial (poly : List (ℕ × List ℕ)) (s : XSum K) (d : PairDeriv K) : XSum K :=
  let s1 := (poly.filter fun t => t.2.length = 1).foldl (fun s t => modelOrder1 s d t) s
  let s2 := (poly.filter fun t => t.2.length = 2).foldl (fun s t => modelOrder2 s d t) s1
  (poly.filter fun t => t.2.length = 3).foldl (fun s t => modelOrder3 s d t) s2

/-- `Model::run` with `force = true` for pair features (`model.cpp` 39-87): one row set of the
design matrix.  `neigh` is the full list. -/
def modelRun (p : PairParams K) (sqrt : K → K) (types : ℕ → ℕ) (n : ℕ) (neigh : Csr (ℕ × Vec K)) :
    XSum K :=
  (List.range n).foldl
    (fun s atom1 =>
      modelPolynomial (p.poly (types atom1)) s (localPairD p sqrt types atom1 (neigh.row atom1)))
    ⟨fun _ => 0, fun _ _ => 0, fun _ => 0⟩

/-- The potential of `type1` made from the coefficients (`polymlp_eval.cpp` 12-20 doubles them;
`polymlp_potential.cpp` 25-39). -/
def PairParams.pot (p : PairParams K) (coeffs : ℕ → K) (type1 : ℕ) : Pot K :=
  mkPot false (fun _ => false) some (p.attrs type1).length (pairFeatures p.maps type1)
    (p.poly type1) (fun i => 2 * coeffs i)

/-- `antp` of atom `i` in `compute_sum_of_prod_antp` (`polymlp_eval.cpp` 146-172). -/
def antpFull (p : PairParams K) (sqrt : K → K) (types : ℕ → ℕ) (i : ℕ)
    (row : List (ℕ × Vec K)) : ℕ → K :=
  row.foldl
    (fun antp e =>
      let dis := disOf sqrt (-e.2)
      if dis ≥ p.cutoff then antp
      else
        let tp := p.maps.typePairs (types i) (types e.1)
        let fn := fnAt p.rad (p.maps.tpN.getD tp []) dis
        (compact (p.attrs (types i)) tp).foldl (fun antp a => addAt antp a.iloc (fn a.nId)) antp)
    (fun _ => 0)

/-- `prod_sum_e[i]` and `prod_sum_f[i]` (`polymlp_eval.cpp` 125-177) for the potentials `pot`. -/
def prodSums (p : PairParams K) (sqrt : K → K) (pot : ℕ → Pot K) (types : ℕ → ℕ) (n : ℕ)
    (half : Csr (ℕ × Vec K)) (i : ℕ) : (ℕ → K) × (ℕ → K) :=
  (pot (types i)).sumPair
    (antpFull p sqrt types i ((Neighbor.getFullList n half).row i))

/-- `e_ij` and the force on `i` for one entry of the half list (`polymlp_eval.cpp` 83-117); `none`
for the skipped ones. -/
def evalEntry (p : PairParams K) (sqrt : K → K) (pe pf : ℕ → ℕ → K) (types : ℕ → ℕ) (i : ℕ)
    (e : ℕ × Vec K) : K × Vec K :=
  let j := e.1
  let d := -e.2
  let dis := disOf sqrt d
  if dis ≥ p.cutoff then (0, 0)
  else
    let tp := p.maps.typePairs (types i) (types j)
    let fn := fnAt p.rad (p.maps.tpN.getD tp []) dis
    let fnD := fnAt p.radD (p.maps.tpN.getD tp []) dis
    let s := (compact (p.attrs (types i)) tp).foldl
      (fun (s : K × K) a =>
        (s.1 + fn a.nId * (pe i a.iloc + pe j a.jloc),
          s.2 + fnD a.nId * (pf i a.iloc + pf j a.jloc))) (0, 0)
    let f := s.2 * (-1 / dis)
    (s.1, fun x => f * d x)

/-- Energy, forces and stress. -/
structure Props (K : Type) where
  energy : K
  forces : ℕ → Fin 3 → K
  stress : Fin 6 → K

/-- Body of the loops of `collect_properties` (`polymlp_eval.cpp` 314-332). -/
def collectStep (cutoff : K) (sqrt : K → K) (i : ℕ) (s : Props K) (e : (ℕ × Vec K) × (K × Vec K)) :
    Props K :=
  let d := -e.1.2
  if disOf sqrt d ≥ cutoff then s
  else
    let f := e.2.2
    let f1 := addAt s.forces i f
    ⟨s.energy + e.2.1, addAt f1 e.1.1 (-f), s.stress + six d f⟩

/-- `collect_properties` (`polymlp_eval.cpp` 293-335); `vals i` holds `e_array[i]`, `fx_array[i]`,
…. -/
def collect (cutoff : K) (sqrt : K → K) (n : ℕ) (half : Csr (ℕ × Vec K))
    (vals : ℕ → List (K × Vec K)) : Props K :=
  (List.range n).foldl
    (fun s i => ((half.row i).zip (vals i)).foldl (collectStep cutoff sqrt i) s)
    ⟨0, fun _ => 0, 0⟩

/-- `eval_pair` (`polymlp_eval.cpp` 46-123). -/
def evalPair (p : PairParams K) (sqrt : K → K) (pot : ℕ → Pot K) (types : ℕ → ℕ) (n : ℕ)
    (half : Csr (ℕ × Vec K)) : Props K :=
  let ps := prodSums p sqrt pot types n half
  collect p.cutoff sqrt n half fun i =>
    (half.row i).map (evalEntry p sqrt (fun i => (ps i).1) (fun i => (ps i).2) types i)

end Verif.Mlp
