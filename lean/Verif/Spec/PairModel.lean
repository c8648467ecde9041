import Mathlib.Algebra.BigOperators.Group.List.Basic
import Mathlib.Algebra.Ring.Defs

/-! # The linear model with pair features

Written from the definition of the model, without the index tables of the program. -/

namespace Verif.Spec

/-- The pair features: for every unordered pair of types `t1 ≤ t2` the radial functions allowed for
it.  An element is `(n, t1, t2)`. -/
def pairFeatures (nType : ℕ) (cond : ℕ → ℕ → List ℕ) : List (ℕ × ℕ × ℕ) :=
  (List.range nType).flatMap fun t1 => (List.range' t1 (nType - t1)).flatMap fun t2 =>
    (cond t1 t2).map fun n => (n, t1, t2)

/-- Feature `g` exists for atoms of type `t`. -/
def featureExists (feats : List (ℕ × ℕ × ℕ)) (g t : ℕ) : Bool :=
  match feats[g]? with
  | none => false
  | some f => t = f.2.1 ∨ t = f.2.2

/-- Sum of `w n e` over the neighbours `e` of an atom of type `ti` that are within the cutoff and
belong to the pair of types of feature `g` with radial function `n`. -/
def featureSum {V M : Type} [AddCommMonoid M] (feats : List (ℕ × ℕ × ℕ)) (within : V → Bool)
    (types : ℕ → ℕ) (ti : ℕ) (nbrs : List (ℕ × V)) (w : ℕ → ℕ × V → M) (g : ℕ) : M :=
  match feats[g]? with
  | none => 0
  | some f => (nbrs.map fun e =>
      if within e.2 ∧ ((ti = f.2.1 ∧ types e.1 = f.2.2) ∨ (ti = f.2.2 ∧ types e.1 = f.2.1)) then
        w f.1 e
      else 0).sum

/-- Leibniz rule: derivative of the product of the `A g` with derivatives `D g`. -/
def leibniz {K : Type} [CommSemiring K] (A D : ℕ → K) : List ℕ → K
  | [] => 0
  | g :: c => D g * (c.map A).prod + A g * leibniz A D c

/-- Sum over the atoms for which column `c` exists. -/
def columnSum {K : Type} [AddCommMonoid K] (feats : List (ℕ × ℕ × ℕ)) (types : ℕ → ℕ) (n : ℕ)
    (val : ℕ → List ℕ → K) (c : List ℕ) : K :=
  ((List.range n).map fun i =>
    if c.all (fun g => featureExists feats g (types i)) then val i c else 0).sum

end Verif.Spec
