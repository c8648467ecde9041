import Mathlib.Algebra.Order.Field.Basic
import Verif.Model.AutoDist

/-!
# Specification of the automatic comparison with first principles
-/

namespace Verif.Spec

open Formation AutoDist

variable {St F K : Type} [Field K] [LinearOrder K]

/-- A structure as it is read: it has atoms, all of them of the elements of the potential, and one number of atoms if and
only if it has one element. -/
def Tidy (elements : List String) (c : Cand) : Prop :=
  c.elements ≠ [] ∧ (∀ e ∈ c.elements, e ∈ elements) ∧ c.nAtoms.sum = c.elements.length ∧
    (c.nAtoms.length ≤ 1 ↔ ∃ ele, ∀ e ∈ c.elements, e = ele)

/-- All atoms are of one element. -/
def PureOf (ele : String) (c : Cand) : Prop := ∀ e ∈ c.elements, e = ele

/-- `e` is the lowest energy per atom among the pure structures of an element. -/
def LowestPure (l : List (Cand × K)) (ele : String) (e : K) : Prop :=
  (∃ p ∈ l, PureOf ele p.1 ∧ e = p.2 / (p.1.elements.length : K)) ∧
    ∀ p ∈ l, PureOf ele p.1 → e ≤ p.2 / (p.1.elements.length : K)

/-- Composition, and formation energy per atom: the energy minus that of the same atoms in the pure elements. -/
def formationRow (elements : List String) (ends : Fin elements.length → K) (c : Cand) (energy : K) :
    (Fin elements.length → K) × K :=
  (fun i => (c.elements.count elements[i] : K) / (c.elements.length : K),
    (energy - ∑ i, (c.elements.count elements[i] : K) * ends i) / (c.elements.length : K))

/-- The files can be read and give `rows`, structures with energies; the table has the atomic energies `a` of their
elements, and the potential gives the energies `v`. -/
structure Readable (s : Setup St F K) (table : Dict String K) (a : String → K) (v : St → K) (vaspruns : List F)
    (rows : List (St × K)) : Prop where
  files : vaspruns ≠ []
  parse : s.parse vaspruns = .ok rows
  tidy : ∀ r ∈ rows, Tidy s.elements (s.cand r.1)
  atomic : ∀ r ∈ rows, ∀ e ∈ (s.cand r.1).elements, table.get? e = some (a e)
  pot : ∀ r ∈ rows, s.pot r.1 = .ok (v r.1)

/-- There is more than one element, and for each of them a pure structure with a cohesive energy and an energy of the
potential below the limit `1e10` eV per atom; the convex hull can be computed. -/
structure HasEnds (s : Setup St F K) (a : String → K) (v : St → K) (rows : List (St × K)) : Prop where
  several : s.elements.length ≠ 1
  nodup : s.elements.Nodup
  dft : ∀ ele ∈ s.elements, ∃ r ∈ rows, PureOf ele (s.cand r.1) ∧
    (r.2 - ((s.cand r.1).elements.map a).sum) / ((s.cand r.1).elements.length : K) < s.big
  mlp : ∀ ele ∈ s.elements, ∃ r ∈ rows, PureOf ele (s.cand r.1) ∧ v r.1 / ((s.cand r.1).elements.length : K) < s.big
  hull : ∀ l, ∃ h, s.hull l = .ok h

end Verif.Spec
