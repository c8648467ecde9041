import Verif.Model.AtomicEnergies

/-!
Chemical formulas and the tables of atomic energies, without reference to the functions that read
them.
-/

namespace Verif.Spec
open Verif.Infile (PStr)

/-- A name of an element: a capital letter, then letters (or anything else) that are neither
capital nor digits. -/
def ElementWord (w : PStr) : Prop :=
  ∃ c rest, w = c :: rest ∧ ('A' ≤ c ∧ c ≤ 'Z') ∧
    ∀ d ∈ rest, ¬ ('A' ≤ d ∧ d ≤ 'Z') ∧ ¬ ('0' ≤ d ∧ d ≤ '9')

/-- A text made of digits only, possibly empty. -/
def CountWord (w : PStr) : Prop := ∀ d ∈ w, '0' ≤ d ∧ d ≤ '9'

/-- A formula written from elements and their numbers. -/
def formulaText (parts : List (PStr × PStr)) : PStr := parts.flatMap fun p => p.1 ++ p.2

/-- `ws` are the words of `s`: without its digits, `s` is something without a capital letter,
followed by the words. -/
def CutAtCapitals (s : PStr) (ws : List PStr) : Prop :=
  ∃ pre : PStr, (∀ c ∈ pre, ¬ ('A' ≤ c ∧ c ≤ 'Z')) ∧ (∀ w ∈ ws, ElementWord w) ∧
    (s.filter fun c => !decide ('0' ≤ c ∧ c ≤ '9')) = pre ++ ws.flatten

/-- The rows of the table of a functional. -/
def TableRow (functional : PStr) (name number : PStr) : Prop :=
  (functional = "PBE".toList ∧
    ∃ r ∈ AtomicEnergies.pbeText, r.1.toList = name ∧ r.2.toList = number) ∨
  (functional = "PBEsol".toList ∧
    ∃ r ∈ AtomicEnergies.pbesolText, r.1.toList = name ∧ r.2.toList = number)

/-- A functional with a table. -/
def KnownFunctional (f : PStr) : Prop := f = "PBE".toList ∨ f = "PBEsol".toList

end Verif.Spec
