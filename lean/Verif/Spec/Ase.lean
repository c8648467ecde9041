import Verif.Model.Ase

/-! # What is asked of the conversion to and from ASE -/

namespace Verif.Spec
open Verif.StrGen (Vec Mat Str)
open Verif.Ase (Tables Evaluated)

/-- The two tables agree: the name of the number of an element is its name. -/
def SameElements (t : Tables) : Prop := ∀ e n, t.number e = some n → t.symbol n = e

/-- Two fractional positions differ by whole cells. -/
def SiteEq (p q : Vec) : Prop := ∃ k : Fin 3 → ℤ, ∀ i, q i = p i + k i

/-- Atoms of an element are listed together. -/
def Together (l : List String) : Prop :=
  ∀ (i j k : ℕ) (e f : String), i < j → j < k → l[i]? = some e → l[j]? = some f → l[k]? = some e → f = e

/-- A potential that depends only on the axes, the elements and the sites of the atoms. -/
def PeriodicPot (eval : Str → Except Verif.Err Evaluated) : Prop :=
  ∀ st st' : Str, st.axis = st'.axis → st.elements = st'.elements → List.Forall₂ SiteEq st.positions st'.positions →
    eval st = eval st'

/-- The stress asked for by ASE: derivatives of the energy by the strain per volume, in the order xx, yy, zz, yz, xz, xy. -/
def AseStress (dE : Fin 3 → Fin 3 → ℝ) (V : ℝ) (s : Fin 6 → ℝ) : Prop :=
  s 0 = dE 0 0 / V ∧ s 1 = dE 1 1 / V ∧ s 2 = dE 2 2 / V ∧ s 3 = dE 1 2 / V ∧ s 4 = dE 0 2 / V ∧ s 5 = dE 0 1 / V

/-- The stress of a potential of this code: the negative derivatives in the order xx, yy, zz, xy, yz, zx. -/
def VirialStress (dE : Fin 3 → Fin 3 → ℝ) (s : Fin 6 → ℝ) : Prop :=
  s 0 = -dE 0 0 ∧ s 1 = -dE 1 1 ∧ s 2 = -dE 2 2 ∧ s 3 = -dE 0 1 ∧ s 4 = -dE 1 2 ∧ s 5 = -dE 0 2

end Verif.Spec
