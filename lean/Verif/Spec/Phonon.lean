import Verif.Model.Phonon

/-!
# Phonons

Specification side: what the force constants, the densities of states and the thermal properties of a cell are.
-/

namespace Verif.Spec
open Verif.Phonon

variable {St Cell Mat FC M P : Type}

/-- `f` are the force constants of a unit cell for a distance: those that phonopy obtains from the forces that the potential
gives on its displaced supercells, force `i` on atom `a` in place `(a, i)`. -/
def ForceConstants (eng : Engine St Cell Mat FC M P) (pot : Pot St) (unit : St) (mat : Mat) (d : ℝ) (f : FC) : Prop :=
  ∃ fs : List (ℕ → Fin 3 → ℝ),
    List.Forall₂ (fun c g => ∃ e h, pot (eng.toSt c) = .ok (e, h) ∧ ∀ a i, g a i = h i a)
      (eng.displaced (eng.toCell unit) mat d) fs ∧
    eng.fc (eng.toCell unit) mat d fs = .ok f

/-- The files belong to one set of force constants and one mesh. -/
def FilesOf (eng : Engine St Cell Mat FC M P) (unit : St) (mat : Mat) (f : FC) (a : Args) (x : Files St Mat FC M P) :
    Prop :=
  x.fc2 = some f ∧
  (∃ s, eng.super (eng.toCell unit) mat = .ok s ∧ x.cells = (unit, eng.toSt s, mat)) ∧
  eng.mesh (eng.toCell unit) mat f a.mesh a.eig a.sym = .ok x.mesh ∧
  x.dos = eng.dos x.mesh ∧ x.thermal = eng.thermal x.mesh a.temps ∧
  (a.pdos = true → ∃ m p, eng.mesh (eng.toCell unit) mat f a.mesh true false = .ok m ∧ eng.pdos m = .ok p ∧
    x.pdos = some p)

/-- phonopy gives all properties at the same temperatures, which depend on what was asked for only. -/
def SameTemps (eng : Engine St Cell Mat FC M P) (temps : ℝ × ℝ × ℝ → List ℝ) : Prop :=
  ∀ m t, (eng.thermal m t).temps = temps t ∧ (eng.thermal m t).free.length = (temps t).length ∧
    (eng.thermal m t).entropy.length = (temps t).length ∧ (eng.thermal m t).cv.length = (temps t).length

/-- Entry `(i, k)` of a table is entry `i` of what belongs to cell `k`. -/
def Entry (table : List (List ℝ)) (i k : ℕ) (v : Option ℝ) : Prop := (table[i]?.bind fun r => r[k]?) = v

end Verif.Spec
