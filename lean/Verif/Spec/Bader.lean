import Verif.Model.Py
import Mathlib.Algebra.BigOperators.Group.List.Basic

/-!
# What a file with Bader charges says

`Reads` ties a text line to the numbers it shows; nothing here refers to the parser.
-/

namespace Verif.Spec

/-- Charge assigned to atom number `a` (from 1): the sum over all volumes that belong to it. -/
def atomCharge {K : Type} [AddMonoid K] (volumes : List (K × ℤ)) (a : ℤ) : K :=
  ((volumes.filter fun v => v.2 = a).map Prod.fst).sum

/-- A line of six or more words shows charge `v.1` in its fifth column and atom number `v.2` in its sixth. -/
def ShowsVolume {K : Type} (float : String → Except Err K) (int : String → Except Err ℤ) (line : List String)
    (v : K × ℤ) : Prop :=
  ∃ a b c d q k rest, line = a :: b :: c :: d :: q :: k :: rest ∧ float q = .ok v.1 ∧ int k = .ok v.2

/-- A line of the table of atoms: it starts with the number of the atom and its fifth word is the charge. -/
def ShowsAtom {K : Type} (float : String → Except Err K) (line : List String) (q : K) : Prop :=
  ∃ i a b c w rest, line = i :: a :: b :: c :: w :: rest ∧ i.toList ≠ [] ∧ (∀ ch ∈ i.toList, ch.isDigit) ∧ float w = .ok q

/-- A line of text around the table: its first word is not a number. -/
def IsText (line : List String) : Prop :=
  ∃ w rest, line = w :: rest ∧ ¬ (w.toList ≠ [] ∧ ∀ ch ∈ w.toList, ch.isDigit)

/-- A file whose lines are text or rows of atoms, in any order and number. -/
inductive AcfFile {K : Type} (float : String → Except Err K) : List (List String) → List K → Prop
  | nil : AcfFile float [] []
  | text {l ls qs} : IsText l → AcfFile float ls qs → AcfFile float (l :: ls) qs
  | atom {l q ls qs} : ShowsAtom float l q → AcfFile float ls qs → AcfFile float (l :: ls) (q :: qs)

end Verif.Spec
