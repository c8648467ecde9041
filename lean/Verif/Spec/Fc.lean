import Verif.Model.Fc
import Verif.Spec.DevApi

/-!
# Specification of force constants from a potential
-/

namespace Verif.Spec

open Fc

variable {St FC : Type}

/-- An array `(n, 3, n_atom)` of a supercell. -/
def HasShape (ext : Ext St FC) (a : Arr) : Prop := a.r = 3 ∧ a.c = ext.nAtoms

/-- `f` are the forces of the displaced supercells, minus those of the supercell itself, in the order of the
displacements `d`. -/
def ForcesFor (ext : Ext St FC) (d f : Arr) : Prop :=
  HasShape ext f ∧ f.n = d.n ∧
    ∃ f0, ext.force ext.base = .ok f0 ∧
      ∀ i < d.n, ∃ g, ext.force (ext.displace (d.at_ i)) = .ok g ∧ ∀ x a, f.at_ i x a = g x a - f0 x a

/-- The array `(n, n_atom, 3)` with the same entries. -/
def AtomFirst (a b : Arr) : Prop := b.n = a.n ∧ b.r = a.c ∧ b.c = a.r ∧ ∀ i x k, b.at_ i k x = a.at_ i x k

/-- `fc` are the force constants that the solver finds for forces `f` and displacements `d`. -/
def SolvedBy (ext : Ext St FC) (d f : Arr) (orders : List ℕ) (fc : ℕ → Option FC) : Prop :=
  ∃ f' d', AtomFirst f f' ∧ AtomFirst d d' ∧ ext.solve f' d' orders = .ok fc

/-- The solver finds all orders that it is asked for. -/
def SolvesAll (ext : Ext St FC) : Prop :=
  ∀ f d orders fc, ext.solve f d orders = .ok fc → ∀ k ∈ orders, ∃ b, fc k = some b

/-- The force constants of an order that an object reports. -/
def reportedFc (o : Obj St FC) (k : ℕ) : Option FC :=
  if k = 2 then o.fc2 else if k = 3 then o.fc3 else if k = 4 then o.fc4 else none

/-- The call `x` finds the force constants `b` of order `k` from the displacements and forces that the object then has. -/
def Finds (ext : Ext St FC) (k : ℕ) (o : Obj St FC) (x : Call St) (b : FC) : Prop :=
  ∃ orders d f fc, (x = .runFc orders ∨ ∃ d0 f0, x = .run d0 f0 orders) ∧ k ∈ orders ∧
    (step ext o x).2 = .ok () ∧ (step ext o x).1.disps = some d ∧ (step ext o x).1.forces = some f ∧
    SolvedBy ext d f orders fc ∧ fc k = some b

end Verif.Spec
