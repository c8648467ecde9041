import Verif.Model.Structure
import Verif.Spec.Round

/-!
# What a POSCAR file keeps of a structure

Specification side: no reference to the text of the file.
-/

namespace Verif.Spec

/-- `y` is `x` rounded to fifteen decimals. -/
def Rounded15 (x y : ℚ) : Prop := ∃ k : ℤ, IsRoundHalfEven (x * 10 ^ 15) k ∧ y = k / 10 ^ 15

/-- Componentwise. -/
def RoundedV (v w : V3 ℚ) : Prop := Rounded15 v.x w.x ∧ Rounded15 v.y w.y ∧ Rounded15 v.z w.z

/-- Componentwise. -/
def RoundedM (a b : M3 ℚ) : Prop := RoundedV a.r0 b.r0 ∧ RoundedV a.r1 b.r1 ∧ RoundedV a.r2 b.r2

/-- The atoms come in groups of the sizes `sizes`, with the names `names`. -/
def grouped {α : Type} (sizes : List ℕ) (names : List α) : List α :=
  (List.zipWith List.replicate sizes names).flatten

end Verif.Spec
