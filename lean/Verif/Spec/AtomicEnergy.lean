import Verif.Spec.Dataset

namespace Verif.Spec
variable {K : Type}

/-- Sum over the types of (number of atoms of the type) * (atomic energy of the type). -/
def atomicSum [Semiring K] (nAtoms : List ℕ) (ae : List K) : K :=
  (List.zipWith (fun (n : ℕ) a => (n : K) * a) nAtoms ae).sum

/-- A record whose atomic energies have been subtracted `k` times. -/
def Rec.subtracted [Ring K] (k : ℕ) (ae : List K) (r : Rec K) : Rec K :=
  { r with energy := r.energy - (k : K) * atomicSum r.st.nAtoms ae }

end Verif.Spec
