import Mathlib.Data.Real.Basic
import Mathlib.Data.Complex.Basic

/-!
# Features of charges

`/repo/src/pypolymlp/cxx/src/dev/charge`.  Real and complex arithmetic.  The neighbours within the search radius, the radial
functions, the spherical harmonics, the tables of type pairs and the sums of products of order parameters
(`prod_sum_e`) are given.  Nested loops are the lists of their updates in the order of the loops.
-/

namespace Verif.ChargeFeat

/-- A neighbour: type, `dis_array`, `diff_array` and `atom2_array`. -/
structure Nb where
  type2 : ℕ
  dis : ℝ
  diff : Fin 3 → ℝ
  atom2 : ℕ

/-- `xc[a][f] += v`. -/
noncomputable def upd (x : ℕ → ℕ → ℝ) (a f : ℕ) (v : ℝ) : ℕ → ℕ → ℝ := fun a' f' => if a' = a ∧ f' = f then x a' f' + v else x a' f'

/-- `xc[atom1][f] += v; xc[atom2][f] -= v;` (`compute_features.cpp` 79-80, 132-133, 139-140) for all updates `(f, v)` of a
neighbour. -/
noncomputable def scatter (atom1 atom2 : ℕ) (l : List (ℕ × ℝ)) (x : ℕ → ℕ → ℝ) : ℕ → ℕ → ℝ :=
  l.foldl (fun x u => upd (upd x atom1 u.1 u.2) atom2 u.1 (-u.2)) x

/-- The loops over atoms and neighbours with distances below the cutoff (`compute_features.cpp` 61-87, 104-146); the neighbours
of an atom are in the order of their types. -/
noncomputable def loops (nAtom : ℕ) (cutoff : ℝ) (nb : ℕ → List Nb) (updates : ℕ → Nb → List (ℕ × ℝ)) : ℕ → ℕ → ℝ :=
  (List.range nAtom).foldl (fun x atom1 => (nb atom1).foldl (fun x b =>
    if b.dis < cutoff then scatter atom1 b.atom2 (updates atom1 b) x else x) x) fun _ _ => 0

/-- An element of `ntc_map`. -/
structure Ntc where
  n : ℕ
  tc : ℕ

/-- `type_comb_p[tc][type1].size() > 0 and type2 == type_comb_p[tc][type1][0]`. -/
def active (typeComb : ℕ → ℕ → List ℕ) (tc type1 type2 : ℕ) : Bool := (typeComb tc type1)[0]? == some type2

/-- The updates of a neighbour for pair invariants (`compute_features.cpp` 69-84). -/
noncomputable def pairUpdates (types : ℕ → ℕ) (typeComb : ℕ → ℕ → List ℕ) (ntcMap : List Ntc) (fn : ℝ → ℕ → ℝ)
    (prodSum : ℕ → ℕ → List (ℕ × ℝ)) (atom1 : ℕ) (b : Nb) : List (ℕ × ℝ) :=
  ntcMap.zipIdx.flatMap fun e =>
    if active typeComb e.1.tc (types atom1) b.type2 then
      (prodSum atom1 e.2).map fun p => (p.1, 0.5 * (fn b.dis e.1.n * p.2))
    else []

/-- `compute_features_charge` for pair invariants (`compute_features.cpp` 50-88). -/
noncomputable def chargePair (nAtom : ℕ) (cutoff : ℝ) (nb : ℕ → List Nb) (types : ℕ → ℕ) (typeComb : ℕ → ℕ → List ℕ)
    (ntcMap : List Ntc) (fn : ℝ → ℕ → ℝ) (prodSum : ℕ → ℕ → List (ℕ × ℝ)) : ℕ → ℕ → ℝ :=
  loops nAtom cutoff nb (pairUpdates types typeComb ntcMap fn prodSum)

/-- An element of `nlmtc_map_no_conjugate`. -/
structure Nlmtc where
  n : ℕ
  tc : ℕ
  m : ℤ
  ylmkey : ℕ
  headKey : ℕ

/-- `prod_real`. -/
noncomputable def prodReal (a b : ℂ) : ℝ := a.re * b.re - a.im * b.im

/-- The updates of a neighbour for polynomial invariants (`compute_features.cpp` 112-143). -/
noncomputable def gtUpdates (types : ℕ → ℕ) (typeComb : ℕ → ℕ → List ℕ) (nlmtcMap : List Nlmtc) (fn : ℝ → ℕ → ℝ)
    (ylm : (Fin 3 → ℝ) → ℕ → ℂ) (prodSum : ℕ → ℕ → List (ℕ × ℂ)) (atom1 : ℕ) (b : Nb) : List (ℕ × ℝ) :=
  nlmtcMap.flatMap fun e =>
    if active typeComb e.tc (types atom1) b.type2 then
      let headVal : ℂ := fn b.dis e.n * ylm b.diff e.ylmkey
      if e.m = 0 then (prodSum atom1 e.headKey).map fun p => (p.1, 0.5 * prodReal headVal p.2)
      else (prodSum atom1 e.headKey).map fun p => (p.1, prodReal headVal p.2)
    else []

/-- `compute_features_charge` for polynomial invariants (`compute_features.cpp` 90-147). -/
noncomputable def chargeGt (nAtom : ℕ) (cutoff : ℝ) (nb : ℕ → List Nb) (types : ℕ → ℕ) (typeComb : ℕ → ℕ → List ℕ)
    (nlmtcMap : List Nlmtc) (fn : ℝ → ℕ → ℝ) (ylm : (Fin 3 → ℝ) → ℕ → ℂ) (prodSum : ℕ → ℕ → List (ℕ × ℂ)) : ℕ → ℕ → ℝ :=
  loops nAtom cutoff nb (gtUpdates types typeComb nlmtcMap fn ylm prodSum)

/-- `xc_begin_idx_array` and `n_data` (`model_charge_py.cpp` 45-52). -/
def beginIdx (sizes : List ℕ) : List ℕ × ℕ :=
  sizes.foldl (fun s n => (s.1 ++ [s.2], s.2 + n)) ([], 0)

/-- `xc_begin_idx_dataset` (`model_charge_py.cpp` 55-65): `idx` and `n` after each data set. -/
def beginDataset (sizes : List ℕ) (nSt : List ℕ) : List ℕ :=
  (nSt.foldl (fun (s : List ℕ × ℕ × ℕ) k =>
    let r := (List.range k).foldl (fun (t : ℕ × ℕ) _ => (t.1 + sizes.getD t.2 0, t.2 + 1)) s.2
    (s.1 ++ [s.2.1], r)) ([], 0, 0)).1

/-- The rows of `x_all` (`model_charge_py.cpp` 87-110): `none` where nothing is written. -/
def fillRows {R : Type} (xcs : List (List R)) : ℕ → Option R :=
  let begins := (beginIdx (xcs.map List.length)).1
  xcs.zipIdx.foldl (fun x e => e.1.zipIdx.foldl (fun x r => fun i => if i = begins.getD e.2 0 + r.2 then some r.1 else x i) x)
    fun _ => none

end Verif.ChargeFeat
