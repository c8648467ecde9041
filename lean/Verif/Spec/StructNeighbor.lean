import Verif.Model.StructNeighbor
import Verif.Spec.Lattice
import Mathlib.LinearAlgebra.Matrix.NonsingularInverse

/-! # What is asked of neighbours and distances of structures -/

namespace Verif.Spec
open Verif.StructNeighbor Matrix

/-- The length of a vector. -/
noncomputable def lengthOf (v : Fin 3 → ℝ) : ℝ := √(v 0 ^ 2 + v 1 ^ 2 + v 2 ^ 2)

/-- A vector from an atom to another one or to a periodic image. -/
def Joins (axis : Matrix (Fin 3) (Fin 3) ℝ) (pos : ℕ → Fin 3 → ℝ) (i j : ℕ) (d : Fin 3 → ℝ) : Prop :=
  ∃ t ∈ lattice axis, d = pos j - pos i + t

/-- The neighbours of an atom by types: `tb[i][t]` has, once each, all atoms of type `t` and images of them that are further
away than 1e-10 and nearer than the cutoff, with the vectors to them and the lengths of these. -/
def ListsNeighbors (axis : Matrix (Fin 3) (Fin 3) ℝ) (pos : ℕ → Fin 3 → ℝ) (types : List ℕ) (nType : ℕ) (cutoff : ℝ)
    (tb : List (List (List Entry))) : Prop :=
  tb.length = types.length ∧ ∀ i < types.length, ∃ row, tb[i]? = some row ∧ row.length = nType ∧
    ∀ t < nType, ∃ l, row[t]? = some l ∧ (l.map fun e => (e.atom, e.diff)).Nodup ∧ (∀ e ∈ l, e.dis = lengthOf e.diff) ∧
      ∀ j d, (j, d) ∈ l.map (fun e => (e.atom, e.diff)) ↔
        types[j]? = some t ∧ Joins axis pos i j d ∧ 1e-10 < lengthOf d ∧ lengthOf d < cutoff

/-- No axis is shortened by adding or subtracting another one. -/
def PairReduced (a : Matrix (Fin 3) (Fin 3) ℝ) : Prop :=
  ∀ p q, p ≠ q → |∑ r, a r p * a r q| ≤ 1 / 2 * ∑ r, a r p * a r p

/-- All atoms are in the cell. -/
def InCell (a : Matrix (Fin 3) (Fin 3) ℝ) (pos : ℕ → Fin 3 → ℝ) (n : ℕ) : Prop :=
  ∀ j < n, ∃ f : Fin 3 → ℝ, (∀ k, 0 ≤ f k ∧ f k < 1) ∧ pos j = a *ᵥ f

/-- The cutoff in units of the distance between lattice planes is at most one more than it is in units of the length of the
axis, rounded up. -/
def NotFlat (a : Matrix (Fin 3) (Fin 3) ℝ) (cutoff : ℝ) : Prop :=
  ∀ k, cutoff * lengthOf (a⁻¹ k) ≤ ⌈cutoff / lengthOf (fun r => a r k)⌉ + 1

/-- Types are numbered from zero without gaps. -/
def TypesUsed (s : St) : Prop := ∀ t ∈ s.types, t < s.types.toFinset.card

/-- The Cartesian positions of a structure. -/
def cartesian (s : St) (i : ℕ) : Fin 3 → ℝ := s.axis *ᵥ (s.positions.getD i 0)

/-- A structure with positions for all atoms and no other Cartesian positions. -/
structure Plain (s : St) : Prop where
  positions : s.positions.length = s.types.length
  cart : s.cart = none

/-- The least distance between different atoms or images. -/
def LeastDistance (s : St) (m : ℝ) : Prop :=
  (∃ i j d, i < s.types.length ∧ j < s.types.length ∧ Joins s.axis (cartesian s) i j d ∧ 1e-10 < lengthOf d ∧ m = lengthOf d) ∧
    ∀ i j d, i < s.types.length → j < s.types.length → Joins s.axis (cartesian s) i j d → 1e-10 < lengthOf d → m ≤ lengthOf d

/-- The least distance from an atom to the atoms of a type and their images. -/
def LeastTo (s : St) (i t : ℕ) (m : ℝ) : Prop :=
  (∃ j d, s.types[j]? = some t ∧ Joins s.axis (cartesian s) i j d ∧ 1e-10 < lengthOf d ∧ m = lengthOf d) ∧
    ∀ j d, s.types[j]? = some t → Joins s.axis (cartesian s) i j d → 1e-10 < lengthOf d → m ≤ lengthOf d

/-- The length of the shortest axis. -/
def ShortestAxis (a : Matrix (Fin 3) (Fin 3) ℝ) (c : ℝ) : Prop :=
  (∃ k, c = lengthOf fun r => a r k) ∧ ∀ k, c ≤ lengthOf fun r => a r k

/-- Rounded to so many digits, halves to even last digits. -/
def RoundedTo (decimals : ℕ) (x y : ℝ) : Prop :=
  ∃ k : ℤ, y = k / 10 ^ decimals ∧ |x * 10 ^ decimals - k| ≤ 1 / 2 ∧ (|x * 10 ^ decimals - k| = 1 / 2 → Even k)

/-- Every type stands for one element and the other way round. -/
def OneElementEach (s : St) : Prop :=
  s.elements.length = s.types.length ∧
    ∀ i j : ℕ, i < s.types.length → j < s.types.length → (s.types[i]? = s.types[j]? ↔ s.elements[i]? = s.elements[j]?)

/-- The distances within the cutoff by pairs of elements, the one with the smaller type first: rounded, without repetition, in
increasing order. -/
def DistancesByElements (s : St) (cutoff : ℝ) (decimals : ℕ) (r : List ((String × String) × List ℝ)) : Prop :=
  (r.map (·.1)).Nodup ∧
  (∀ k ∈ r.map (·.1), ∃ (i j : ℕ) (t u : ℕ), s.types[i]? = some t ∧ s.types[j]? = some u ∧ t ≤ u ∧
    s.elements[i]? = some k.1 ∧ s.elements[j]? = some k.2) ∧
  ∀ (i j : ℕ) (t u : ℕ) (a b : String), s.types[i]? = some t → s.types[j]? = some u → t ≤ u → s.elements[i]? = some a →
    s.elements[j]? = some b → ∃ v, ((a, b), v) ∈ r ∧ v.Pairwise (· < ·) ∧
      ∀ x, x ∈ v ↔ ∃ (i' j' : ℕ) (d : Fin 3 → ℝ), s.types[i']? = some t ∧ s.types[j']? = some u ∧
        Joins s.axis (cartesian s) i' j' d ∧ 1e-10 < lengthOf d ∧ lengthOf d < cutoff ∧ RoundedTo decimals (lengthOf d) x

end Verif.Spec
