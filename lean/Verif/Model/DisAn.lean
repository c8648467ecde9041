import Verif.Model.Py
import Mathlib.Data.Real.Basic
import Mathlib.Data.List.Sort
import Mathlib.Data.List.Dedup

/-!
# The analytical model of disorder

`/repo/src/pypolymlp/misc/dev/disorder_analytical.py`.  Real arithmetic.  The features and polynomials of both potentials
and the occupancies of the types are given.  Running sums are sums of lists; the order of a Python `set` does not matter
to them.
-/

namespace Verif.DisAn
open Verif

/-- The key of a linear feature (`disorder_analytical.py` 26): radial function, angular momenta and pairs of types. -/
structure Feat where
  rad : ℕ
  lc : List ℕ
  tp : List (ℕ × ℕ)
deriving DecidableEq

/-- `find_central_types` (`disorder_analytical.py` 44-57). -/
def findCentralTypes : List (ℕ × ℕ) → Except Err (List (ℕ × List ℕ))
  | [] => .error .indexError
  | p :: ps => .ok
      (([p.1, p.2].dedup.filter fun t => ps.all fun q => decide (t = q.1 ∨ t = q.2)).map fun t1 =>
        (t1, (p :: ps).map fun q => if q.1 = t1 then q.2 else q.1))

/-- `itertools.product`. -/
def product {α : Type} : List (List α) → List (List α)
  | [] => [[]]
  | d :: ds => d.flatMap fun x => (product ds).map (x :: ·)

/-- `tuple(sorted([center_type, t]))` (`disorder_analytical.py` 93). -/
def sortedPair (c t : ℕ) : ℕ × ℕ := if c ≤ t then (c, t) else (t, c)

/-- Order of the tuples `(l, (t1, t2))`. -/
def ltLe (a b : ℕ × ℕ × ℕ) : Prop := a.1 < b.1 ∨ a.1 = b.1 ∧ (a.2.1 < b.2.1 ∨ a.2.1 = b.2.1 ∧ a.2.2 ≤ b.2.2)

instance : DecidableRel ltLe := fun a b => by unfold ltLe; infer_instance

/-- The pairs of types of a key (`disorder_analytical.py` 94-95). -/
def keyTp (lc : List ℕ) (tp : List (ℕ × ℕ)) : List (ℕ × ℕ) := ((lc.zip tp).insertionSort ltLe).map (·.2)

/-- One occupation of the sites (`disorder_analytical.py` 90-98). -/
noncomputable def occTerm (mapF : Feat → Option ℝ) (rad : ℕ) (lc : List ℕ) : List (ℕ × ℝ) → Except Err ℝ
  | [] => .error .indexError
  | c :: ns => do
    let v ← orErr .keyError (mapF ⟨rad, lc, keyTp lc (ns.map fun n => sortedPair c.1 n.1)⟩)
    return ((c :: ns).map (·.2)).prod * v

/-- The sum over all occupations of a central atom and its neighbours (`disorder_analytical.py` 84-98, 112-129) of a term. -/
noncomputable def centralSum (term : List (ℕ × ℝ) → Except Err ℝ) (occT : ℕ → List (ℕ × ℝ)) (c : ℕ × List ℕ) : Except Err ℝ := do
  let vs ← (product ((c.1 :: c.2).map occT)).mapM term
  return vs.sum

/-- The mean over the types of central atoms (`disorder_analytical.py` 80-103, 109-132). -/
noncomputable def centralMean (term : List (ℕ × ℝ) → Except Err ℝ) (occT : ℕ → List (ℕ × ℝ)) (tp : List (ℕ × ℕ)) : Except Err ℝ := do
  let central ← findCentralTypes tp
  let vs ← central.mapM (centralSum term occT)
  if central.length = 0 then .error .zeroDivision else .ok (vs.sum / central.length)

/-- The coefficient of a linear feature in the disordered model (`generate_disorder_mlp_gtinv`, `disorder_analytical.py`
71-103). -/
noncomputable def featureCoeff (mapF : Feat → Option ℝ) (occT : ℕ → List (ℕ × ℝ)) (f : Feat) : Except Err ℝ :=
  centralMean (occTerm mapF f.rad f.lc) occT f.tp

/-- The keys of the features of a polynomial (`disorder_analytical.py` 120-126). -/
def polyKeys : List Feat → List (ℕ × ℕ) → List Feat
  | [], _ => []
  | f :: fs, tp => ⟨f.rad, f.lc, keyTp f.lc (tp.take f.lc.length)⟩ :: polyKeys fs (tp.drop f.lc.length)

/-- Order of tuples of integers. -/
def lexLe : List ℕ → List ℕ → Bool
  | [], _ => true
  | _ :: _, [] => false
  | a :: as, b :: bs => if a = b then lexLe as bs else decide (a < b)

/-- Order of the tuples `(rad, lc, tp)`; tuples of pairs are compared as tuples of all their entries. -/
def featLe (a b : Feat) : Bool :=
  if a.rad = b.rad then
    if a.lc = b.lc then lexLe (a.tp.flatMap fun p => [p.1, p.2]) (b.tp.flatMap fun p => [p.1, p.2]) else lexLe a.lc b.lc
  else decide (a.rad < b.rad)

/-- One occupation of the sites for a polynomial (`disorder_analytical.py` 115-129).  Line 118 takes pairs of all of `occ`,
with the central atom; line 127 sorts the keys. -/
noncomputable def polyTerm (mapP : List Feat → Option ℝ) (fs : List Feat) : List (ℕ × ℝ) → Except Err ℝ
  | [] => .error .indexError
  | c :: ns => do
    let v ← orErr .keyError (mapP ((polyKeys fs ((c :: ns).map fun n => sortedPair c.1 n.1)).insertionSort fun a b => featLe a b))
    return ((c :: ns).map (·.2)).prod * v

/-- The coefficient of a polynomial of features in the disordered model (`disorder_analytical.py` 105-132). -/
noncomputable def polyCoeff (mapP : List Feat → Option ℝ) (occT : ℕ → List (ℕ × ℝ)) (fs : List Feat) : Except Err ℝ :=
  centralMean (polyTerm mapP fs) occT (fs.flatMap (·.tp))

/-- A dictionary with the coefficients from number `seq` on at the given keys (`disorder_analytical.py` 27-29, 34-38). -/
def mapKeys {K : Type} [DecidableEq K] (coeffs : List ℝ) : ℕ → (K → Option ℝ) → List K → Except Err (K → Option ℝ)
  | _, m, [] => .ok m
  | seq, m, k :: ks => do
    let c ← orErr .indexError coeffs[seq]?
    mapKeys coeffs (seq + 1) (fun k' => if k' = k then some c else m k') ks

/-- `set_mapping_original_mlp` (`disorder_analytical.py` 12-41) for the keys of the linear features and the numbers of the
features in every polynomial. -/
def setMapping (feats : List Feat) (polys : List (List ℕ)) (coeffs : List ℝ) :
    Except Err ((Feat → Option ℝ) × (List Feat → Option ℝ)) := do
  let mf ← mapKeys coeffs 0 (fun _ => none) feats
  let keys ← polys.mapM fun attr => attr.mapM fun (i : ℕ) => orErr .indexError feats[i]?
  let mp ← mapKeys coeffs feats.length (fun _ => none) keys
  return (mf, mp)

end Verif.DisAn
