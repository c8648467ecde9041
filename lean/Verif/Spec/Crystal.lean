import Verif.Model.Structure
import Verif.Spec.Atoms
import Mathlib.Data.Set.Defs

/-!
# The infinite crystal described by a structure
-/

namespace Verif.Spec
variable {K : Type}

/-- `axis @ v`. -/
def cart [Mul K] [Add K] (a : M3 K) (v : V3 K) : V3 K :=
  ⟨a.r0.x * v.x + a.r0.y * v.y + a.r0.z * v.z, a.r1.x * v.x + a.r1.y * v.y + a.r1.z * v.z,
    a.r2.x * v.x + a.r2.y * v.y + a.r2.z * v.z⟩

/-- Shift of fractional coordinates by a lattice vector. -/
def shift [Ring K] (v : V3 K) (m : ℤ × ℤ × ℤ) : V3 K := ⟨v.x + (m.1 : K), v.y + (m.2.1 : K), v.z + (m.2.2 : K)⟩

/-- All atoms of the periodic crystal: type, element and cartesian position. -/
def crystal [Ring K] (st : Structure K) : Set (ℕ × String × V3 K) :=
  { x | ∃ a ∈ typedAtoms st, ∃ m : ℤ × ℤ × ℤ, x = (a.1, a.2.1, cart st.axis (shift a.2.2 m)) }

/-- Two fractional positions describe the same site. -/
def SameSite [Ring K] (v w : V3 K) : Prop := ∃ m : ℤ × ℤ × ℤ, w = shift v m

/-- No two atoms of the cell occupy the same site. -/
def DistinctSites [Ring K] (st : Structure K) : Prop :=
  (typedAtoms st).Pairwise fun a b => ¬ SameSite a.2.2 b.2.2

end Verif.Spec
