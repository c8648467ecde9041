import Verif.Model.Infile

/-!
What an input file says, without reference to the parser.
-/

namespace Verif.Spec.Infile
open Verif.Infile (PStr)

/-- `s` is the word `w` up to the case of its letters. -/
def SameUpToCase (s w : PStr) : Prop := List.Forall₂ (fun c d => c = d ∨ c = d.toUpper) s w

/-- `a` occurs in `s`. -/
def Occurs (a s : PStr) : Prop := ∃ u v, s = u ++ a ++ v

/-- A first word that marks a data-set line. -/
def IsDataTag (t : PStr) : Prop :=
  Occurs "data".toList t ∧ ¬ Occurs "dataset_type".toList t ∧ t ≠ "distance".toList

/-- A first word that marks an ordinary setting. -/
def IsSettingTag (t : PStr) : Prop := t ≠ "distance".toList ∧ ¬ IsDataTag t

/-- `vals` are the words after `tag` on the last line that starts with `tag` and has at least one
more word. -/
def LastLine (lines : List (List PStr)) (tag : PStr) (vals : List PStr) : Prop :=
  ∃ before after, lines = before ++ (tag :: vals) :: after ∧ vals ≠ [] ∧
    ∀ l ∈ after, ∀ v vs, l ≠ tag :: v :: vs

/-- No line sets `tag`. -/
def NoLine (lines : List (List PStr)) (tag : PStr) : Prop :=
  ∀ l ∈ lines, ∀ v vs, l ≠ tag :: v :: vs

end Verif.Spec.Infile
