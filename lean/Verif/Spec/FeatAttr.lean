import Mathlib.Algebra.BigOperators.Group.List.Basic
import Mathlib.Data.Nat.Notation
import Mathlib.Logic.ExistsUnique
import Verif.Spec.GtRotation

/-!
# Lists of features

A feature is described by the number of its radial function, for invariants the number of its entry in the
table of invariants, and by the numbers of pairs of atom types.  A table gives the ordered pairs of atom types
of every number.
-/

namespace Verif.Spec

/-- `D` numbers the unordered pairs of `n` atom types as `0, 1, …`; the entry of a number lists the ordered
pairs of its types. -/
structure PairTable (n : ℕ) (D : List (ℕ × List (ℕ × ℕ))) : Prop where
  numbers : D.map (·.1) = List.range (n * (n + 1) / 2)
  form : ∀ e ∈ D, (∃ i < n, e.2 = [(i, i)]) ∨ ∃ i j, i < j ∧ j < n ∧ e.2 = [(i, j), (j, i)]
  every : ∀ i < n, ∀ j < n, ∃! k : ℕ, ∃ e, D[k]? = some e ∧ (i, j) ∈ e.2

/-- Neighbours of type `u` of an atom of type `t` belong to the pair number `tp`. -/
def Belongs (D : List (ℕ × List (ℕ × ℕ))) (t u tp : ℕ) : Prop := ∃ e ∈ D, e.1 = tp ∧ (t, u) ∈ e.2

instance (D : List (ℕ × List (ℕ × ℕ))) (t u tp : ℕ) : Decidable (Belongs D t u tp) :=
  inferInstanceAs (Decidable (∃ e ∈ D, _))

/-- Sum of `w e` over the neighbours `e` of atom `i` that are within the cutoff and belong to the pair
number `tp`. -/
def pairSum {V M : Type} [AddCommMonoid M] (D : List (ℕ × List (ℕ × ℕ))) (within : V → Bool)
    (types : ℕ → ℕ) (nbrs : ℕ → List (ℕ × V)) (i tp : ℕ) (w : ℕ × V → M) : M :=
  ((nbrs i).map fun e => if within e.2 ∧ Belongs D (types i) (types e.1) tp then w e else 0).sum

/-- The value that the description `L[g]` gives to atom `i`: `w n e` is the contribution of the neighbour `e`
for radial function `n`. -/
def describedValue {V M : Type} [AddCommMonoid M] (D : List (ℕ × List (ℕ × ℕ))) (within : V → Bool)
    (types : ℕ → ℕ) (nbrs : ℕ → List (ℕ × V)) (L : List (ℕ × List ℕ)) (w : ℕ → ℕ × V → M) (i g : ℕ) : M :=
  match L[g]? with
  | none => 0
  | some f => (f.2.map fun tp => pairSum D within types nbrs i tp (w f.1)).sum

/-- The value of an invariant for one atom: the sum over the products of the table, where `l` are the `l` of
the factors, `tps` their pairs, a row of the table the `m` of the factors and the coefficient, and `A l m tp`
the expansion coefficient of the density of the neighbours. -/
def invariantValue {K : Type} [Field K] (A : ℕ → ℤ → ℕ → Cx K) (l tps : List ℕ)
    (rows : List (List ℤ × K)) : K :=
  (rows.map fun r => r.2 * ((((l.zip r.1).zip tps).map fun x => A x.1.1 x.1.2 x.2).prod).re).sum

/-- All pairs `tps` contain the atom type `t`. -/
def CarriedBy (n : ℕ) (D : List (ℕ × List (ℕ × ℕ))) (tps : List ℕ) (t : ℕ) : Prop :=
  ∀ tp ∈ tps, ∃ u < n, Belongs D t u tp

instance (n : ℕ) (D : List (ℕ × List (ℕ × ℕ))) (tps : List ℕ) (t : ℕ) : Decidable (CarriedBy n D tps t) :=
  inferInstanceAs (Decidable (∀ tp ∈ tps, ∃ u < n, Belongs D t u tp))

/-- Radial function `f` is used for the pair `tp`; `active i j` are the radial functions of the types
`i ≤ j`. -/
def Active (D : List (ℕ × List (ℕ × ℕ))) (active : ℕ → ℕ → List ℕ) (f tp : ℕ) : Prop :=
  ∃ i j, i ≤ j ∧ Belongs D i j tp ∧ f ∈ active i j

/-- `(f, id, tps)` describes a feature: entry `id` of the table of invariants is a product of as many factors
as there are pairs, some atom type is contained in all pairs, and radial function `f` is used for all of
them. -/
structure IsInvariant (n nFn : ℕ) (lComb : List (List ℕ)) (D : List (ℕ × List (ℕ × ℕ)))
    (active : ℕ → ℕ → List ℕ) (f id : ℕ) (tps : List ℕ) : Prop where
  radial : f < nFn
  entry : ∃ l, lComb[id]? = some l ∧ tps.length = l.length
  centre : ∃ t < n, CarriedBy n D tps t
  used : ∀ tp ∈ tps, Active D active f tp

/-- `L` lists every invariant exactly once.  The order of the factors of an invariant has no meaning, so two
assignments of pairs to the factors are the same if the multisets of `(l, pair)` are the same.  The list is
ordered by the radial function, then by the entry of the table. -/
structure ListsInvariants (n nFn : ℕ) (lComb : List (List ℕ)) (D : List (ℕ × List (ℕ × ℕ)))
    (active : ℕ → ℕ → List ℕ) (L : List (ℕ × ℕ × List ℕ)) : Prop where
  sound : ∀ x ∈ L, IsInvariant n nFn lComb D active x.1 x.2.1 x.2.2
  once : ∀ (f id : ℕ) (tps l : List ℕ), IsInvariant n nFn lComb D active f id tps →
    lComb[id]? = some l → ∃! k : ℕ, ∃ tps', L[k]? = some (f, id, tps') ∧ (l.zip tps').Perm (l.zip tps)
  ordered : L.Pairwise fun a b => a.1 < b.1 ∨ (a.1 = b.1 ∧ a.2.1 ≤ b.2.1)

end Verif.Spec
