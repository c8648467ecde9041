import Mathlib.Data.List.Basic
import Mathlib.Data.Nat.Notation

/-!
# Specification of interrupted saving

Written without reference to the model.
-/

namespace Verif.Spec

/-- The name of the file of model `i` of `n`: the given name for a single model, the given name and a
counter otherwise. -/
def fileOfModel (filename : String) (n i : ℕ) : String :=
  if n = 1 then filename else filename ++ "." ++ toString (i + 1)

/-- The part of the coefficients that belongs to model `i` of `n`; `cum` holds the positions at which
the parts end. -/
def partOfModel {α : Type} (cum : List ℕ) (n i : ℕ) (l : List α) : List α :=
  if n = 1 then l
  else (l.take (cum.getD i 0)).drop (if i = 0 then 0 else cum.getD (i - 1) 0)

/-- The possible contents of the files `name 0`, `name 1`, … when a program that writes the texts
`new 0`, `new 1`, … into them one after the other stops somewhere: complete new texts before file `k`,
the old content or a beginning of the new text in file `k`, the old contents from there on. -/
def Torn {α : Type} (name : ℕ → String) (new : ℕ → List α) (n : ℕ)
    (old now : String → Option (List α)) : Prop :=
  ∃ k, (∀ i, i < n → i < k → now (name i) = some (new i)) ∧
    (k < n → now (name k) = old (name k) ∨ ∃ p, p <+: new k ∧ now (name k) = some p) ∧
    (∀ i, i < n → k < i → now (name i) = old (name i)) ∧
    ∀ x, (∀ i, i < n → x ≠ name i) → now x = old x

/-- What is known of the yaml library on a text that is a beginning of a potential file: a bracket that
is not closed is an error; an entry `coeffs` needs a line that begins with it; if the text ends with
this key the entry is null. -/
structure YamlRules {V : Type} (full : List Char) (null : V)
    (parse : List Char → Option (String → Option V)) : Prop where
  unclosed : ∀ t, t <+: full → t.count ']' < t.count '[' → parse t = none
  entry : ∀ t m, t <+: full → parse t = some m → (m "coeffs").isSome →
    ∃ a b, t = a ++ "coeffs:".toList ++ b ∧ (a = [] ∨ a.getLast? = some '\n')
  last : ∀ t m a, t <+: full → parse t = some m →
    (t = a ++ "\ncoeffs:".toList ∨ t = a ++ "\ncoeffs: ".toList) → m "coeffs" = some null

end Verif.Spec
