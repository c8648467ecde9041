import Verif.Model.Structure

/-!
# Consistency of atom counts and types
-/

namespace Verif.Spec

/-- The atoms are stored in blocks, one per type: atom `i` has type `t` exactly when it lies in the
`t`-th block of the sizes `nAtoms`. -/
def Blocks (nAtoms types : List ℕ) : Prop :=
  types.length = nAtoms.sum ∧ ∀ i t : ℕ, types[i]? = some t →
    t < nAtoms.length ∧ (nAtoms.take t).sum ≤ i ∧ i < (nAtoms.take (t + 1)).sum

/-- A structure whose arrays have equal lengths and whose types follow the atom counts. -/
def Consistent {K : Type} (st : Structure K) : Prop := st.WF ∧ Blocks st.nAtoms st.types

/-- The positions of the atoms of type `t`, in order. -/
def positionsOf {K : Type} (st : Structure K) (t : ℕ) : List (V3 K) :=
  (st.types.zip st.positions).filterMap fun p => if p.1 = t then some p.2 else none

/-- Equal entries are adjacent. -/
def Contiguous {α : Type} (xs : List α) : Prop :=
  ∀ i j k : ℕ, i ≤ j → j ≤ k → k < xs.length → xs[i]? = xs[k]? → xs[j]? = xs[i]?

end Verif.Spec
