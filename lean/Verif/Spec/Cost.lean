import Verif.Model.Cost

/-!
# Specification of computational costs
-/

namespace Verif.Spec
open Cost

variable {S : Type}

/-- The costs of a potential for a structure: milliseconds per atom and evaluation, with one core from `n` evaluations,
and with all cores from `10 n`. -/
def CostOf (ext : Ext S) (pot : List String) (s : S) (n : ℕ) (f : File) : Prop :=
  ∃ t1 t10, ext.time pot s n false = .ok t1 ∧ ext.time pot s (n * 10) true = .ok t10 ∧
    f.single * (ext.nAtoms s * n) = 1000 * t1 ∧ f.openmp * (ext.nAtoms s * (n * 10)) = 1000 * t10

/-- A structure for timing: the numbers of atoms belong to the types, and every element has an atom. -/
def GoodDefault (els : List String) (d : Default) : Prop :=
  d.types.length = 4 ∧ d.elements = d.types.map (fun t => els.getD t "") ∧
    (∀ k, k < els.length → 0 < d.types.count k ∧ d.nAtoms[k]? = some (d.types.count k)) ∧
    d.nAtoms.length = els.length ∧ d.types.Pairwise (· ≤ ·) ∧ ∀ t ∈ d.types, t < els.length

end Verif.Spec
