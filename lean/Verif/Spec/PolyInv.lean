import Mathlib.Data.Set.Card
import Mathlib.Algebra.BigOperators.Group.List.Basic

/-!
Angular momenta and their couplings, without reference to the program.
-/

namespace Verif.Spec

/-- `ms` are components of the angular momenta `ls`: `|m| ≤ l` for each. -/
def Components (ls : List ℕ) (ms : List ℤ) : Prop :=
  List.Forall₂ (fun (l : ℕ) (m : ℤ) => |m| ≤ l) ls ms

/-- The number of products of spherical harmonics of degrees `ls` with total component `n`. -/
noncomputable def weightCount (ls : List ℕ) (n : ℤ) : ℕ :=
  {ms : List ℤ | Components ls ms ∧ ms.sum = n}.ncard

/-- Three angular momenta that fulfil the triangle condition. -/
def Triangle (a b c : ℕ) : Prop := a ≤ b + c ∧ b ≤ a + c ∧ c ≤ a + b

/-- `qs` couples the angular momenta `ls` one after the other, from `q` to `L`: each step is
allowed by the triangle condition. -/
def CouplesTo : List ℕ → ℕ → ℕ → List ℕ → Prop
  | [], q, L, qs => q = L ∧ qs = []
  | l :: ls, q, L, qs => ∃ q' qs', qs = q' :: qs' ∧ Triangle q l q' ∧ CouplesTo ls q' L qs'

/-- The number of ways to couple `ls` to the total angular momentum `L`. -/
noncomputable def couplingCount (ls : List ℕ) (L : ℕ) : ℕ :=
  {qs : List ℕ | CouplesTo ls 0 L qs}.ncard

end Verif.Spec
