import Verif.Model.Dict
import Mathlib.Data.Rat.Defs

/-!
# The old text format of potential files

One entry per line: values separated by single blanks, then `#` and a comment.
-/

namespace Verif.Spec.Legacy

/-- The content of a file; the last three sections may be absent. -/
structure File where
  elements : List String
  cutoff : ℚ
  pairType : String
  featureType : String
  modelType : ℕ
  maxP : ℕ
  maxL : ℕ
  order : ℕ
  orderMaxL : List ℕ
  orderSym : List Bool
  coeffs : List ℚ
  scales : List ℚ
  pairParams : List (List ℚ)
  mass : List ℚ
  version : Option ℕ
  pairs : Option (List ((ℕ × ℕ) × List ℕ))
  types : Option (Bool × List ℕ)

/-- Values separated by blanks. -/
def blanks : List (List Char) → List Char
  | [] => []
  | [a] => a
  | a :: b :: l => a ++ ' ' :: blanks (b :: l)

/-- A line: values, `#`, comment. -/
def line (values : List (List Char)) (comment : List Char) : List Char :=
  blanks values ++ ' ' :: '#' :: ' ' :: comment

/-- A number. -/
def num (n : ℕ) : List Char := Nat.toDigits 10 n

/-- A flag. -/
def flag (b : Bool) : List Char := if b then ['1'] else ['0']

/-- The required lines. `showF` prints a floating-point number, `com` gives the comment of each kind of
line. -/
def head (showF : ℚ → List Char) (com : String → List Char) (f : File) : List (List Char) :=
  [line (f.elements.map String.toList) (com "elements"),
   line [showF f.cutoff] (com "cutoff"),
   line [f.pairType.toList] (com "pair_type"),
   line [f.featureType.toList] (com "feature_type"),
   line [num f.modelType] (com "model_type"),
   line [num f.maxP] (com "max_p"),
   line [num f.maxL] (com "max_l")] ++
  (if f.featureType = "gtinv" then
    [line [num f.order] (com "gtinv_order"),
     line (f.orderMaxL.map num) (com "gtinv_max_l"),
     line (f.orderSym.map flag) (com "gtinv_sym")] else []) ++
  [line [num f.coeffs.length] (com "n_coeffs"),
   line (f.coeffs.map showF) (com "coeffs"),
   line (f.scales.map showF) (com "scales"),
   line [num f.pairParams.length] (com "n_params")] ++
  (f.pairParams.map fun p => line (p.map showF) (com "pair_params")) ++
  [line (f.mass.map showF) (com "mass"),
   line [['F', 'a', 'l', 's', 'e']] (com "electrostatic")]

/-- The line with the version of the invariants, if any. -/
def versionLines (com : String → List Char) (f : File) : List (List Char) :=
  match f.version with
  | some v => [line [num v] (com "gtinv_version")]
  | none => []

/-- Two lines for a pair of types: the types with the number of parameters, and the parameters. -/
def pairLines (com : String → List Char) (p : (ℕ × ℕ) × List ℕ) : List (List Char) :=
  [line [num p.1.1, num p.1.2, num p.2.length] (com "pair"), line (p.2.map num) (com "indices")]

/-- The section of pairs, if any. -/
def pairSection (com : String → List Char) (f : File) : List (List Char) :=
  match f.pairs with
  | some ps => line [num ps.length] (com "n_type_pairs") :: ps.flatMap (pairLines com)
  | none => []

/-- The section of types, if any. -/
def typeSection (com : String → List Char) (f : File) : List (List Char) :=
  match f.types with
  | some t => [line [flag t.1] (com "type_full"), line (t.2.map num) (com "type_indices")]
  | none => []

/-- The lines of the file. -/
def lines (showF : ℚ → List Char) (com : String → List Char) (f : File) : List (List Char) :=
  head showF com f ++ (versionLines com f ++ (pairSection com f ++ typeSection com f))

/-- A value: not empty, no blank, no tab, no `#`. -/
def Token (t : List Char) : Prop := t ≠ [] ∧ ∀ c ∈ t, c ≠ ' ' ∧ c ≠ '\t' ∧ c ≠ '#'

instance (t : List Char) : Decidable (Token t) := inferInstanceAs (Decidable (_ ∧ _))

end Verif.Spec.Legacy
