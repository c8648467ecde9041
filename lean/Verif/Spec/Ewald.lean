import Mathlib.Analysis.SpecialFunctions.Trigonometric.Basic
import Mathlib.Analysis.SpecialFunctions.Exp
import Mathlib.Analysis.SpecialFunctions.Sqrt
import Mathlib.Algebra.BigOperators.Fin
import Mathlib.LinearAlgebra.Matrix.DotProduct

/-!
# The Ewald energy of textbooks

`imgs` lists the images within the cutoff: `(i, j, T)` is the image of atom `j` shifted by `T`, seen from atom `i`.
Every pair occurs from both sides, so the sum carries a factor one half.
-/

namespace Verif.Spec.Ewald
open Real

/-- Distance between atom `i` and the image of atom `j`. -/
noncomputable def length (v : Fin 3 → ℝ) : ℝ := √(v ⬝ᵥ v)

/-- `1/2 sum q_i q_j erfc(sqrt(eta) d) / d`. -/
noncomputable def real (erfc : ℝ → ℝ) (eta : ℝ) (q : ℕ → ℝ) (x : ℕ → Fin 3 → ℝ) (imgs : List (ℕ × ℕ × (Fin 3 → ℝ))) :
    ℝ :=
  1 / 2 * (imgs.map fun p => q p.1 * q p.2.1 * erfc (√eta * length (x p.2.1 + p.2.2 - x p.1)) /
    length (x p.2.1 + p.2.2 - x p.1)).sum

/-- `2 pi / V sum exp(-g^2 / (4 eta)) / g^2 |S(g)|^2` with the structure factor `S(g) = sum q_i exp(i g x_i)`. -/
noncomputable def recip (eta : ℝ) (n : ℕ) (q : ℕ → ℝ) (x : ℕ → Fin 3 → ℝ) (gs : List (Fin 3 → ℝ)) (vol : ℝ) : ℝ :=
  2 * π / vol * (gs.map fun g => exp (-(g ⬝ᵥ g) / (4 * eta)) / (g ⬝ᵥ g) *
    ((∑ i ∈ Finset.range n, q i * cos (g ⬝ᵥ x i)) ^ 2 + (∑ i ∈ Finset.range n, q i * sin (g ⬝ᵥ x i)) ^ 2)).sum

/-- The whole energy with Coulomb constant `c`. -/
noncomputable def energy (c : ℝ) (erfc : ℝ → ℝ) (eta : ℝ) (n : ℕ) (q : ℕ → ℝ) (x : ℕ → Fin 3 → ℝ)
    (imgs : List (ℕ × ℕ × (Fin 3 → ℝ))) (gs : List (Fin 3 → ℝ)) (vol : ℝ) : ℝ :=
  c * (real erfc eta q x imgs + recip eta n q x gs vol - √(eta / π) * ∑ i ∈ Finset.range n, q i ^ 2)

/-- The product of stresses in the order xx, yy, zz, xy, yz, zx with a symmetric strain. -/
def virial (s : Fin 6 → ℝ) (e : Fin 3 → Fin 3 → ℝ) : ℝ :=
  s 0 * e 0 0 + s 1 * e 1 1 + s 2 * e 2 2 + 2 * (s 3 * e 0 1 + s 4 * e 1 2 + s 5 * e 0 2)

/-- A strain applied to a vector. -/
def strained (e : Fin 3 → Fin 3 → ℝ) (v : Fin 3 → ℝ) : Fin 3 → ℝ := fun i => ∑ j, e i j * v j

end Verif.Spec.Ewald
