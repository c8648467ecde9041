import Verif.Model.Accuracy

/-!
# Means of deviations

Specification side.
-/

namespace Verif.Spec

open Verif.Accuracy

variable {S : Type}

/-- A data set whose arrays belong to its structures: `fs` and `ss` are the true forces and stresses of the structures. -/
structure Aligned (eval : S → Pred) (d : DataSet S) (fs : List (List (Fin 3 → ℝ))) (ss : List (Fin 6 → ℝ)) : Prop where
  energies : d.energies.length = d.structures.length
  forces : d.existForce = true → d.forces = fs.flatMap (fun f => f.flatMap fun v => [v 0, v 1, v 2]) ∧
    List.Forall₂ (fun f (st : Str S) => f.length = (eval st.input).forces.length) fs d.structures
  stresses : d.existStress = true → d.stresses = ss.flatMap (fun s => [s 0, s 1, s 2, s 3, s 4, s 5]) ∧
    ss.length = d.structures.length

/-- Mean of the function `k` of the differences of energies per atom. -/
noncomputable def energyMean (eval : S → Pred) (d : DataSet S) (k : ℝ → ℝ) : ℝ :=
  ((d.energies.zip d.structures).map fun q => k ((q.1 - (eval q.2.input).energy) / q.2.nAtoms.sum)).sum / d.structures.length

/-- Mean of the function `k` of the differences of all components of forces. -/
noncomputable def forceMean (eval : S → Pred) (d : DataSet S) (fs : List (List (Fin 3 → ℝ))) (k : ℝ → ℝ) : ℝ :=
  ((fs.zip d.structures).map fun q => ((q.1.zip (eval q.2.input).forces).map fun r =>
    k (r.1 0 - r.2 0) + k (r.1 1 - r.2 1) + k (r.1 2 - r.2 2)).sum).sum / (3 * (fs.map List.length).sum : ℕ)

/-- Mean of the function `k` of the differences of all components of stresses, each divided by `w`. -/
noncomputable def stressMean (eval : S → Pred) (d : DataSet S) (ss : List (Fin 6 → ℝ)) (w : Str S → ℝ) (k : ℝ → ℝ) : ℝ :=
  ((ss.zip d.structures).map fun q => k ((q.1 0 - (eval q.2.input).stress 0) / w q.2) +
    k ((q.1 1 - (eval q.2.input).stress 1) / w q.2) + k ((q.1 2 - (eval q.2.input).stress 2) / w q.2) +
    k ((q.1 3 - (eval q.2.input).stress 3) / w q.2) + k ((q.1 4 - (eval q.2.input).stress 4) / w q.2) +
    k ((q.1 5 - (eval q.2.input).stress 5) / w q.2)).sum / (6 * d.structures.length : ℕ)

/-- The length of a vector. -/
noncomputable def vecNorm (v : Fin 3 → ℝ) : ℝ := Real.sqrt (v 0 ^ 2 + v 1 ^ 2 + v 2 ^ 2)

/-- Mean over all atoms of the function `k` of the true and the predicted force. -/
noncomputable def atomMean (eval : S → Pred) (d : DataSet S) (fs : List (List (Fin 3 → ℝ)))
    (k : (Fin 3 → ℝ) → (Fin 3 → ℝ) → ℝ) : ℝ :=
  ((fs.flatten.zip (d.structures.flatMap fun st => (eval st.input).forces)).map fun q => k q.1 q.2).sum /
    (fs.flatten.zip (d.structures.flatMap fun st => (eval st.input).forces)).length

end Verif.Spec
