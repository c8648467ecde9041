import Verif.Model.Structure
import Mathlib.Algebra.Order.Field.Rat

/-! # Positions that describe the same structure -/

namespace Verif.Spec

/-- The same atoms in another order within the blocks of atoms of one kind. -/
inductive BlockPerm {α : Type} : List ℕ → List α → List α → Prop
  | done (l : List α) : BlockPerm [] l l
  | block (n : ℕ) (ns : List ℕ) (l l' : List α) (h : (l.take n).Perm (l'.take n))
      (t : BlockPerm ns (l.drop n) (l'.drop n)) : BlockPerm (n :: ns) l l'

/-- A number with the given number of decimal digits. -/
def HasDecimals (decimals : ℕ) (x : ℚ) : Prop := ∃ k : ℤ, x = k / 10 ^ decimals

/-- Two coordinates agree up to an integer and an error of at most `e`. -/
def NearMod1 (e x y : ℚ) : Prop := ∃ k : ℤ, |y - x - k| ≤ e

end Verif.Spec
