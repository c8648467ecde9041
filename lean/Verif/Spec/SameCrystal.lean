import Verif.Spec.Crystal
import Mathlib.Algebra.Field.Basic
import Mathlib.Order.Defs.LinearOrder
import Mathlib.Data.Set.Basic
import Mathlib.Data.Fin.VecNotation
import Mathlib.Data.List.Basic

/-!
# Two descriptions of one crystal

A description is a number of atoms, their types and Cartesian positions and the set of lattice
translations.
-/

namespace Verif.Spec

variable {K : Type} [Field K] [LinearOrder K]

/-- The second description (primed) is one of the same crystal, shifted as a whole by `s`, with `m` atoms for
every atom of the first one: its lattice translations are translations of the first one; its atom `i` is an
image of atom `f i` of the first one and has the same type; every image of an atom of the first description
is an image of exactly one atom of the second one; every atom of the first description is named `m` times. -/
structure CrystalCopies (n n' : ℕ) (types types' : ℕ → ℕ) (pos pos' : ℕ → Fin 3 → K)
    (L L' : Set (Fin 3 → K)) (s : Fin 3 → K) (f : ℕ → ℕ) (m : ℕ) : Prop where
  sub : L' ⊆ L
  atom : ∀ i < n', f i < n ∧ types' i = types (f i) ∧ pos' i - pos (f i) - s ∈ L
  once : ∀ j < n, ∀ x : Fin 3 → K, x - pos j - s ∈ L → ∃! i, i < n' ∧ f i = j ∧ x - pos' i ∈ L'
  count : ∀ j < n, ((List.range n').filter fun i => decide (f i = j)).length = m

/-- The square of the length of a vector. -/
def len2 (d : Fin 3 → K) : K := d 0 * d 0 + d 1 * d 1 + d 2 * d 2

/-- Row `i` of a list names every image of every atom between the tolerance and the cutoff once and nothing
else. -/
def AllNeighbors (n : ℕ) (pos : ℕ → Fin 3 → K) (L : Set (Fin 3 → K)) (cutoff tol : K)
    (row : ℕ → List (ℕ × (Fin 3 → K))) : Prop :=
  ∀ i < n, (row i).Nodup ∧ ∀ j d, (j, d) ∈ row i ↔
    j < n ∧ (∃ t ∈ L, d = pos j - pos i + t) ∧ tol * tol < len2 d ∧ len2 d < cutoff * cutoff

/-- The translations other than zero are longer than the tolerance of the neighbour search, with the factor
that a test of single coordinates needs. -/
def LongTranslations (L : Set (Fin 3 → K)) (tol : K) : Prop := ∀ t ∈ L, t = 0 ∨ 3 * (tol * tol) < len2 t

/-- The properties of the second description are those of the first one: `m` times the energy and the
stress, the force of an atom is that of the atom it stands for. -/
structure SameProps (n' : ℕ) (f : ℕ → ℕ) (m : ℕ) (e e' : K) (frc frc' : ℕ → Fin 3 → K) (s s' : Fin 6 → K) :
    Prop where
  energy : e' = m * e
  forces : ∀ q < n', frc' q = frc (f q)
  stress : ∀ c, s' c = m * s c

/-- A column as a vector. -/
def vecOf (v : V3 K) : Fin 3 → K := ![v.x, v.y, v.z]

/-- The array of axes as a function of row and column. -/
def axesOf (a : M3 K) : Fin 3 → Fin 3 → K := ![vecOf a.r0, vecOf a.r1, vecOf a.r2]

/-- The Cartesian position of atom `i` of a structure. -/
def atomPos (st : Structure K) (i : ℕ) : Fin 3 → K := vecOf (cart st.axis (st.positions.getD i ⟨0, 0, 0⟩))

end Verif.Spec
