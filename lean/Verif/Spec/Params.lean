import Verif.Model.Params

/-!
Specifications for the parameters of a potential.
-/

namespace Verif.Spec.Params

/-- The element (by number) that each type comes from when the elements with a spin flag are
given two types and the others one: `[true, false, true]` gives `[0, 0, 1, 2, 2]`. -/
def origin (spins : List Bool) : List ℕ :=
  spins.zipIdx.flatMap fun p => if p.1 then [p.2, p.2] else [p.2]

/-- The distances given for the pair of elements `a`, `b`: the last entry about them, in either
order. -/
def given {K : Type} (distance : Dict (List String) (List K)) (a b : String) : Option (List K) :=
  (distance.reverse.find? fun kv => kv.1 = [a, b] ∨ kv.1 = [b, a]).map (·.2)

/-- A distance is within the window of the Gaussian `exp (- p.1 * (r - p.2)^2)`: closer than
`1 / p.1` to its centre; a Gaussian of infinite width sees every distance. -/
def Sees {K : Type} [Field K] [LinearOrder K] (p : K × K) (d : K) : Prop :=
  p.1 = 0 ∨ (d - p.2 < 1 / p.1 ∧ p.2 - d < 1 / p.1)

end Verif.Spec.Params
