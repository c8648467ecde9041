import Mathlib.Data.Matrix.Mul
import Mathlib.Algebra.Field.Basic

/-!
# Pseudo-inverse and end members
-/

namespace Verif.Spec
open Matrix
variable {K : Type} [Field K] {t e : ℕ}

/-- The defining equations of the Moore-Penrose inverse. -/
def IsPinv (a : Matrix (Fin t) (Fin e) K) (p : Matrix (Fin e) (Fin t) K) : Prop :=
  a * p * a = a ∧ p * a * p = p ∧ (a * p)ᵀ = a * p ∧ (p * a)ᵀ = p * a

/-- The composition of `x i` units of end member `i`. -/
def mix (comps : Fin e → Fin t → K) (x : Fin e → K) : Fin t → K := fun j => ∑ i, x i * comps i j

/-- End members are independent: a composition is a mixture in one way only. -/
def Independent (comps : Fin e → Fin t → K) : Prop := ∀ x y : Fin e → K, mix comps x = mix comps y → x = y

end Verif.Spec
