import Verif.Model.Harmonic
import Mathlib.Analysis.Real.Pi.Bounds

/-! # What is asked of samples of the harmonic density matrix -/

namespace Verif.Spec
open Verif.Harmonic

variable {n : ℕ}

/-- The matrix of force constants: component `r % 3` of atom `r // 3` in row `r`. -/
def flatFC (Φ : Fin n → Fin n → Fin 3 → Fin 3 → ℝ) (r c : Fin (n * 3)) : ℝ :=
  Φ ⟨r / 3, by omega⟩ ⟨c / 3, by omega⟩ ⟨r % 3, by omega⟩ ⟨c % 3, by omega⟩

/-- The mass of the atom of a component. -/
def massOf (m : Fin n → ℝ) (r : Fin (n * 3)) : ℝ := m ⟨r / 3, by omega⟩

/-- The solver gives an orthonormal system of eigenvectors of symmetric matrices. -/
def EighSpec (ext : Ext n) : Prop :=
  ∀ A : Fin (n * 3) → Fin (n * 3) → ℝ, (∀ r c, A r c = A c r) →
    (∀ k r, ∑ c, A r c * (ext.eigh A).2 c k = (ext.eigh A).1 k * (ext.eigh A).2 r k) ∧
    ∀ i j, ∑ r, (ext.eigh A).2 r i * (ext.eigh A).2 r j = if i = j then 1 else 0

/-- `v k` are the normal modes with the eigenvalues `w k` and the signed frequencies `f k` in THz: solutions of the
equation of motion, orthonormal with the masses. -/
def NormalModes (Φ : Fin n → Fin n → Fin 3 → Fin 3 → ℝ) (m : Fin n → ℝ) (v : Fin (n * 3) → Fin (n * 3) → ℝ)
    (w f : Fin (n * 3) → ℝ) : Prop :=
  (∀ k r, ∑ c, flatFC Φ r c * v k c = w k * massOf m r * v k r) ∧
  (∀ i j, ∑ r, massOf m r * v i r * v j r = if i = j then 1 else 0) ∧
  ∀ k, f k * |f k| = 244.40020137144617 * w k

/-- The variance of a normal coordinate of frequency `f` (THz) at the temperature `T`: that of a quantum oscillator, and 0.01
for frequencies below 0.1. -/
def ThermalVariance (T f σ : ℝ) : Prop :=
  (f < 0.1 → σ = 0.01) ∧
  (0.1 ≤ f → (|T| ≤ 1e-8 → σ * f = 1.010758017933576 * (1 / 2)) ∧
    (1e-8 < |T| → σ * f = 1.010758017933576 *
      (1 / 2 * (Real.cosh (6.62607015e-22 * f / (2 * (1.380649e-23 * T))) /
        Real.sinh (6.62607015e-22 * f / (2 * (1.380649e-23 * T)))))))

/-- The displacements of normal coordinates. -/
noncomputable def displaced (v : Fin (n * 3) → Fin (n * 3) → ℝ) (x : Fin (n * 3) → ℝ) : Vec n :=
  fun r => ∑ k, v k r * x k

/-- The harmonic energy. -/
noncomputable def quadEnergy (Φ : Fin n → Fin n → Fin 3 → Fin 3 → ℝ) (u : Vec n) : ℝ :=
  1 / 2 * ∑ r, ∑ c, flatFC Φ r c * u r * u c

/-- The harmonic force. -/
noncomputable def quadForce (Φ : Fin n → Fin n → Fin 3 → Fin 3 → ℝ) (u : Vec n) (r : Fin (n * 3)) : ℝ :=
  -∑ c, flatFC Φ r c * u c

/-- The pairs of components xx, yy, zz, xy, yz, zx. -/
def voigtPair : Fin 6 → Fin 3 × Fin 3 := ![(0, 0), (1, 1), (2, 2), (0, 1), (1, 2), (2, 0)]

/-- The component `a` of atom `i`. -/
def compOf (u : Vec n) (i : Fin n) (a : Fin 3) : ℝ := u ⟨3 * i + a, by omega⟩

/-- The virial of the harmonic forces. -/
noncomputable def quadStress (Φ : Fin n → Fin n → Fin 3 → Fin 3 → ℝ) (u : Vec n) (k : Fin 6) : ℝ :=
  1 / 2 * ∑ i, (compOf (quadForce Φ u) i (voigtPair k).1 * compOf u i (voigtPair k).2 +
    compOf (quadForce Φ u) i (voigtPair k).2 * compOf u i (voigtPair k).1)

/-- Sample `i` is no outlier: its energy is above -10, and its distance from the mean of those above -10 is less than twice
the absolute mean. -/
def NoOutlier (es : List ℝ) (i : ℕ) : Prop :=
  ∃ e, es[i]? = some e ∧ -10 < e ∧
    ∃ s c : ℝ, s = (es.filter fun e => decide (-10 < e)).sum ∧ c = (es.filter fun e => decide (-10 < e)).length ∧
      |e - s / c| < 2 * |s / c|

/-- The average of a quantity over samples. -/
def IsMean (l : List ℝ) (x : ℝ) : Prop := l ≠ [] ∧ x * l.length = l.sum

/-- An expectation for which normal coordinates are uncorrelated with these second moments. -/
def HasVariance (E : ((Fin (n * 3) → ℝ) → ℝ) →ₗ[ℝ] ℝ) (σ : Fin (n * 3) → ℝ) : Prop :=
  ∀ i j, E (fun x => x i * x j) = if i = j then σ i else 0

end Verif.Spec
