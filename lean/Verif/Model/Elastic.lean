import Verif.Model.Py
import Mathlib.Analysis.SpecialFunctions.Pow.Real
import Mathlib.Data.Real.Sqrt
import Mathlib.LinearAlgebra.Matrix.NonsingularInverse
import Mathlib.Data.Fin.VecNotation

/-!
# Elastic constants

`/repo/src/pypolymlp/calculator/compute_elastic.py` 59-184 and `/repo/src/pypolymlp/utils/tensor_utils_O4.py`.

Real arithmetic.  The potential is an arbitrary function from the lattice vectors (the columns of `axis`) to the six
stress components in eV, in the order xx, yy, zz, xy, yz, zx.  The rotations of the space group, in fractional
coordinates, are given.
-/

namespace Verif.Elastic

abbrev Mat := Matrix (Fin 3) (Fin 3) ℝ

/-- A tensor of order four. -/
abbrev T4 := Fin 3 → Fin 3 → Fin 3 → Fin 3 → ℝ

/-- `_voidt` (`compute_elastic.py` 81). -/
def voigt : Fin 6 → Fin 3 × Fin 3 := ![(0, 0), (1, 1), (2, 2), (1, 2), (0, 2), (0, 1)]

/-- `_to_voidt_order` (`compute_elastic.py` 82). -/
def toVoigt : Fin 6 → Fin 6 := ![0, 1, 2, 4, 5, 3]

/-- `np.linspace(-eps, eps, n)`.  With one sample the quotient is zero and the sample is `-eps`, as in numpy. -/
noncomputable def linspace (eps : ℝ) (n : ℕ) : List ℝ :=
  (List.range n).map fun (k : ℕ) => -eps + 2 * eps / ((n : ℝ) - 1) * k

/-- The magnitudes (`compute_elastic.py` 158-159). -/
noncomputable def magnitudes (eps : ℝ) (n : ℕ) : List ℝ := (linspace eps n).filter fun m => ¬ |m| ≤ 1 / 10 ^ 8

/-- `cauchy_deformation` (`compute_elastic.py` 168-170). -/
def deformation (p : Fin 3 × Fin 3) (mag : ℝ) : Mat := fun a b =>
  (if a = b then 1 else 0) + (if a = p.1 ∧ b = p.2 then mag else 0) + (if a = p.2 ∧ b = p.1 then mag else 0)

/-- `eval` (`compute_elastic.py` 111-124) for one structure with `convert_stresses_in_gpa`
(`calculator/utils/properties_utils.py` 44-66).  The volume of a strained structure is the one of the unit cell,
because `run` changes only `axis` of the copy. -/
noncomputable def evalStress (stressOf : Mat → Fin 6 → ℝ) (axis0 : Mat) (evToGPa vol0 : ℝ) (axis : Mat) (v : Fin 6) :
    ℝ :=
  (stressOf axis (toVoigt v) - stressOf axis0 (toVoigt v)) * evToGPa / vol0

/-- `np.linalg.lstsq` with one column. -/
noncomputable def slope (xy : List (ℝ × ℝ)) : ℝ := (xy.map fun p => p.1 * p.2).sum / (xy.map fun p => p.1 ^ 2).sum

/-- The slope of component `v2` for the strain `v1` (`compute_elastic.py` 164-181). -/
noncomputable def slopeOf (stressOf : Mat → Fin 6 → ℝ) (axis0 : Mat) (evToGPa vol0 : ℝ) (mags : List ℝ) (v1 v2 : Fin 6) :
    ℝ :=
  slope (mags.map fun mag => (mag * 2, -evalStress stressOf axis0 evToGPa vol0 (deformation (voigt v1) mag * axis0) v2))

/-- An assignment to an element of a matrix. -/
def write {n : ℕ} (c : Fin n → Fin n → ℝ) (a b : Fin n) (s : ℝ) : Fin n → Fin n → ℝ :=
  fun a' b' => if a' = a ∧ b' = b then s else c a' b'

/-- The loops of `run` (`compute_elastic.py` 161-182). -/
def raw (slopes : Fin 6 → Fin 6 → ℝ) : Fin 6 → Fin 6 → ℝ :=
  (List.finRange 6).foldl
    (fun c v1 => (List.finRange 6).foldl (fun c v2 => write (write c v1 v2 (slopes v1 v2)) v2 v1 (slopes v1 v2)) c)
    (fun _ _ => 0)

/-- An assignment to an element of a tensor. -/
def write4 (t : T4) (i j k l : Fin 3) (s : ℝ) : T4 :=
  fun i' j' k' l' => if i' = i ∧ j' = j ∧ k' = k ∧ l' = l then s else t i' j' k' l'

/-- `el_full` (`compute_elastic.py` 143-149). -/
def fullOf (c : Fin 6 → Fin 6 → ℝ) : T4 :=
  (List.finRange 6).foldl
    (fun t v1 => (List.finRange 6).foldl
      (fun t v2 =>
        let (i, j) := voigt v1
        let (k, l) := voigt v2
        write4 (write4 (write4 (write4 t i j k l (c v1 v2)) i j l k (c v1 v2)) j i k l (c v1 v2)) j i l k (c v1 v2)) t)
    (fun _ _ _ _ => 0)

/-- `reshape(-1)` of an array with four indices. -/
def flat (t : T4) : ℕ → ℝ := fun p =>
  t (Fin.ofNat 3 (p / 27)) (Fin.ofNat 3 (p / 9 % 3)) (Fin.ofNat 3 (p / 3 % 3)) (Fin.ofNat 3 (p % 3))

/-- `reshape((3, 3, 3, 3))` of a vector. -/
def unflat (f : ℕ → ℝ) : T4 := fun i j k l => f (27 * i.val + 9 * j.val + 3 * k.val + l.val)

/-- `np.kron(a, b)` where `b` has `m` rows and columns. -/
def kron (m : ℕ) (a b : ℕ → ℕ → ℝ) : ℕ → ℕ → ℝ := fun p q => a (p / m) (q / m) * b (p % m) (q % m)

/-- A matrix as an array. -/
def arr (r : Mat) : ℕ → ℕ → ℝ := fun a b => r (Fin.ofNat 3 a) (Fin.ofNat 3 b)

/-- `r_c` (`tensor_utils_O4.py` 23): `lattice` has the lattice vectors as rows. -/
noncomputable def cartesian (lattice : Mat) (r : Matrix (Fin 3) (Fin 3) ℤ) : Mat :=
  lattice.transpose * r.map (fun z => (z : ℝ)) * lattice.transpose⁻¹

/-- `compute_spg_projector_O4` (`tensor_utils_O4.py` 18-27). -/
noncomputable def spgProj (lattice : Mat) (rots : List (Matrix (Fin 3) (Fin 3) ℤ)) (p q : ℕ) : ℝ :=
  (rots.map fun r =>
    let c := arr (cartesian lattice r)
    kron 3 (kron 3 (kron 3 c c) c) c p q).sum / rots.length

/-- `comb` (`tensor_utils_O4.py` 32). -/
def comb : List (ℕ × ℕ) := [(0, 0), (0, 1), (0, 2), (1, 1), (1, 2), (2, 2)]

/-- `itertools.combinations_with_replacement(l, 2)`. -/
def combos {α : Type} : List α → List (α × α)
  | [] => []
  | a :: l => (a :: l).map (fun b => (a, b)) ++ combos l

/-- `cand` (`tensor_utils_O4.py` 36-45), as flat indices. -/
def cand (p : (ℕ × ℕ) × ℕ × ℕ) : List ℕ :=
  let i1 := p.1
  let i2 := p.2
  [(i1.1, i1.2, i2.1, i2.2), (i1.1, i1.2, i2.2, i2.1), (i1.2, i1.1, i2.1, i2.2), (i1.2, i1.1, i2.2, i2.1),
   (i2.1, i2.2, i1.1, i1.2), (i2.1, i2.2, i1.2, i1.1), (i2.2, i2.1, i1.1, i1.2), (i2.2, i2.1, i1.2, i1.1)].map
    fun t => t.1 * 27 + t.2.1 * 9 + t.2.2.1 * 3 + t.2.2.2

/-- A vector of `perm_basis` (`tensor_utils_O4.py` 46-51). -/
noncomputable def permVec (p : (ℕ × ℕ) × ℕ × ℕ) (q : ℕ) : ℝ :=
  if q ∈ (cand p).dedup then 1 / Real.sqrt ((cand p).dedup.length : ℝ) else 0

/-- `compute_perm_projector_O4` (`tensor_utils_O4.py` 30-54). -/
noncomputable def permProj (p q : ℕ) : ℝ := ((combos comb).map fun c => permVec c p * permVec c q).sum

/-- Product of two arrays of 81 rows and columns. -/
def mul81 (a b : ℕ → ℕ → ℝ) (p q : ℕ) : ℝ := ((List.range 81).map fun s => a p s * b s q).sum

/-- Product of an array with a vector. -/
def apply81 (a : ℕ → ℕ → ℝ) (f : ℕ → ℝ) (p : ℕ) : ℝ := ((List.range 81).map fun q => a p q * f q).sum

/-- `compute_projector_O4` (`tensor_utils_O4.py` 11-15). -/
noncomputable def proj (lattice : Mat) (rots : List (Matrix (Fin 3) (Fin 3) ℤ)) : ℕ → ℕ → ℝ :=
  mul81 permProj (spgProj lattice rots)

/-- `_symmetrize` (`compute_elastic.py` 141-154). -/
noncomputable def symmetrize (lattice : Mat) (rots : List (Matrix (Fin 3) (Fin 3) ℤ)) (c : Fin 6 → Fin 6 → ℝ) :
    Fin 6 → Fin 6 → ℝ :=
  let t := unflat (apply81 (proj lattice rots) (flat (fullOf c)))
  fun v1 v2 => t (voigt v1).1 (voigt v1).2 (voigt v2).1 (voigt v2).2

/-- `run` (`compute_elastic.py` 156-185).  The lattice of the space group is the one of the unit cell, whose vectors
are the columns of `axis`. -/
noncomputable def run (stressOf : Mat → Fin 6 → ℝ) (axis0 : Mat) (evToGPa vol0 : ℝ)
    (rots : List (Matrix (Fin 3) (Fin 3) ℤ)) (n : ℕ) (eps : ℝ) : Fin 6 → Fin 6 → ℝ :=
  symmetrize axis0.transpose rots (raw (slopeOf stressOf axis0 evToGPa vol0 (magnitudes eps n)))

end Verif.Elastic
