import Mathlib.Analysis.SpecialFunctions.Trigonometric.Basic
import Mathlib.Analysis.SpecialFunctions.Exp
import Mathlib.Analysis.SpecialFunctions.Sqrt
import Mathlib.LinearAlgebra.Matrix.DotProduct

/-!
# The Ewald sum

`/repo/src/pypolymlp/cxx/src/dev/longrange/ewald.{h,cpp}`.  Real arithmetic; the decimal constant `pi` (12) stands for
`π`.  The complementary error function of the C library is a parameter.  The neighbour arrays of the class `Neighbor`
are one list in the order of the loops over atoms, types and neighbours.  Arrays of forces are functions of the atom;
an array of six stresses is a function on `Fin 6`.  The class is not part of the build of the Python extension.
-/

namespace Verif.Ewald
open Real

/-- A vector of three coordinates. -/
abbrev V := Fin 3 → ℝ

/-- One entry of `dis_array`, `diff_array` and `atom2_array` (`ewald.cpp` 27-30). -/
structure Nb where
  atom1 : ℕ
  atom2 : ℕ
  dis : ℝ
  diff : V

/-- `correction` (`ewald.cpp` 32-34). -/
noncomputable def correction : ℝ := 1.602176634e-19 * 1e10 * 8.9875517923e9

/-- `charge_prod` (`ewald.cpp` 38-44): the lower triangle, mirrored by `symmatl`. -/
noncomputable def chargeProd (charge : ℕ → ℝ) (a b : ℕ) : ℝ :=
  if b ≤ a then charge a * charge b else charge b * charge a

/-- `arma::trace(charge_prod)` (`ewald.cpp` 106, 168, 206). -/
noncomputable def trace (n : ℕ) (q : ℕ → ℕ → ℝ) : ℝ := (List.range n).foldl (fun s a => s + q a a) 0

/-- `get_diff_array` (`ewald.cpp` 209-222). -/
def diffArray (pos : ℕ → V) (atom1 atom2 : ℕ) : V := fun i => pos atom2 i - pos atom1 i

/-- One entry of `get_gcoeff` (`ewald.cpp` 226-230). -/
noncomputable def gcoeff (eta : ℝ) (g : V) : ℝ := exp (-(g ⬝ᵥ g) / (4 * eta)) / (g ⬝ᵥ g)

/-- `dforce_to_dstress` (`ewald.cpp` 234-247). -/
def dforceToDstress (dforce diff : V) : Fin 6 → ℝ
  | 0 => dforce 0 * diff 0
  | 1 => dforce 1 * diff 1
  | 2 => dforce 2 * diff 2
  | 3 => dforce 0 * diff 1
  | 4 => dforce 1 * diff 2
  | 5 => dforce 2 * diff 0

/-- `f.rows(3 * atom, 3 * atom + 2) += v` (`ewald.cpp` 146-147, 180-181). -/
def addRows (f : ℕ → V) (atom : ℕ) (v : V) : ℕ → V := fun k => if k = atom then f k + v else f k

/-- `realspace` (`ewald.cpp` 80-97). -/
noncomputable def realspace (erfc : ℝ → ℝ) (eta : ℝ) (q : ℕ → ℕ → ℝ) (nbs : List Nb) : ℝ :=
  0.5 * correction * nbs.foldl (fun er1 p => er1 + q p.atom1 p.atom2 * erfc (√eta * p.dis) / p.dis) 0

/-- The pair sum of `reciprocal` for one vector (`ewald.cpp` 109-115). -/
noncomputable def eg2 (n : ℕ) (q : ℕ → ℕ → ℝ) (pos : ℕ → V) (g : V) : ℝ :=
  (List.range n).foldl (fun s atom1 => (List.range atom1).foldl
    (fun s atom2 => s + q atom1 atom2 * cos (g ⬝ᵥ diffArray pos atom1 atom2)) s) 0

/-- `reciprocal` (`ewald.cpp` 99-119). -/
noncomputable def reciprocal (eta : ℝ) (n : ℕ) (q : ℕ → ℕ → ℝ) (gvectors : List V) (pos : ℕ → V) (volume : ℝ) : ℝ :=
  gvectors.foldl (fun eg1 g => eg1 + (eg2 n q pos g + eg2 n q pos g + trace n q) * gcoeff eta g) 0 *
    (2 * π / volume) * correction

/-- Energy, forces and stresses while they are accumulated. -/
structure Acc where
  e : ℝ
  f : ℕ → V
  s : Fin 6 → ℝ

/-- Nothing accumulated. -/
def Acc.zero : Acc := ⟨0, fun _ => 0, fun _ => 0⟩

/-- The loop body of `realspace_f` (`ewald.cpp` 137-149). -/
noncomputable def realStep (erfc : ℝ → ℝ) (eta : ℝ) (q : ℕ → ℕ → ℝ) (a : Acc) (p : Nb) : Acc :=
  let drdx : V := fun i => p.diff i / p.dis
  let c1 := erfc (√eta * p.dis) / p.dis
  let coeff0 := c1 + 2 * √eta * exp (-eta * p.dis * p.dis) / √π
  let coeff1 := coeff0 * (-q p.atom1 p.atom2 / p.dis)
  let tmp : V := coeff1 • drdx
  ⟨a.e + q p.atom1 p.atom2 * c1, addRows (addRows a.f p.atom1 tmp) p.atom2 (-tmp), a.s - dforceToDstress tmp p.diff⟩

/-- The end of both functions with forces (`ewald.cpp` 153-156, 198-201): the sums are scaled and added to zeros. -/
def Acc.scale (a : Acc) (c : ℝ) : Acc := ⟨c * a.e, fun k => c • a.f k, c • a.s⟩

/-- `realspace_f` (`ewald.cpp` 121-157). -/
noncomputable def realspaceF (erfc : ℝ → ℝ) (eta : ℝ) (q : ℕ → ℕ → ℝ) (nbs : List Nb) : Acc :=
  (nbs.foldl (realStep erfc eta q) Acc.zero).scale (0.5 * correction)

/-- The loop over pairs of `reciprocal_f` for one vector (`ewald.cpp` 173-183): `eg2` and `fg2`. -/
noncomputable def pairF (n : ℕ) (q : ℕ → ℕ → ℝ) (pos : ℕ → V) (g : V) : ℝ × (ℕ → V) :=
  (List.range n).foldl (fun s atom1 => (List.range atom1).foldl
    (fun (s : ℝ × (ℕ → V)) atom2 =>
      let gr := g ⬝ᵥ diffArray pos atom1 atom2
      let tmp : V := (-2.0 * q atom1 atom2 * sin gr) • g
      (s.1 + q atom1 atom2 * cos gr, addRows (addRows s.2 atom1 tmp) atom2 (-tmp))) s) (0, fun _ => 0)

/-- `tensor_vec` (`ewald.cpp` 184, 186-192). -/
noncomputable def tensorVec (eta : ℝ) (g : V) : Fin 6 → ℝ :=
  let lambda2 := 2.0 * (1 / (4 * eta) + 1 / (g ⬝ᵥ g))
  fun
  | 0 => 1 - g 0 * g 0 * lambda2
  | 1 => 1 - g 1 * g 1 * lambda2
  | 2 => 1 - g 2 * g 2 * lambda2
  | 3 => -g 0 * g 1 * lambda2
  | 4 => -g 1 * g 2 * lambda2
  | 5 => -g 0 * g 2 * lambda2

/-- The loop body of `reciprocal_f` (`ewald.cpp` 171-196). -/
noncomputable def recStep (eta : ℝ) (n : ℕ) (q : ℕ → ℕ → ℝ) (pos : ℕ → V) (a : Acc) (g : V) : Acc :=
  let r := pairF n q pos g
  let prod := (r.1 + r.1 + trace n q) * gcoeff eta g
  ⟨a.e + prod, fun k => a.f k + gcoeff eta g • r.2 k, a.s + prod • tensorVec eta g⟩

/-- `reciprocal_f` (`ewald.cpp` 159-202). -/
noncomputable def reciprocalF (eta : ℝ) (n : ℕ) (q : ℕ → ℕ → ℝ) (gvectors : List V) (pos : ℕ → V) (volume : ℝ) : Acc :=
  (gvectors.foldl (recStep eta n q pos) Acc.zero).scale (2 * π * correction / volume)

/-- `self` (`ewald.cpp` 205-207). -/
noncomputable def selfEnergy (eta : ℝ) (n : ℕ) (q : ℕ → ℕ → ℝ) : ℝ := -trace n q * √(eta / π) * correction

/-- The object after construction: energies, and forces and stresses when asked for. -/
structure Result where
  eall : ℝ
  force : Option (ℕ → V)
  stress : Option (Fin 6 → ℝ)

/-- The constructor (`ewald.cpp` 16-76). -/
noncomputable def ewald (erfc : ℝ → ℝ) (n : ℕ) (nbs : List Nb) (gvectors : List V) (pos : ℕ → V) (charge : ℕ → ℝ)
    (volume eta : ℝ) (force : Bool) : Result :=
  let q := chargeProd charge
  if force = false then
    ⟨realspace erfc eta q nbs + reciprocal eta n q gvectors pos volume + selfEnergy eta n q, none, none⟩
  else
    let r := realspaceF erfc eta q nbs
    let g := reciprocalF eta n q gvectors pos volume
    ⟨r.e + g.e + selfEnergy eta n q, some (fun k => r.f k + g.f k), some (r.s + g.s)⟩

end Verif.Ewald
