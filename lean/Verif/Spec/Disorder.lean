import Verif.Model.Disorder
import Verif.Spec.GridSearch
import Verif.Spec.HarmonicReal
import Mathlib.Data.List.Perm.Subperm

/-! # Disordered models: what users rely on (C92) -/

namespace Verif.Spec
open Verif.Disorder Verif.Spec.GridSearch

variable {K : Type}

/-- The types of a potential: one for each element, and two, one after the other, for elements with spins. -/
def TypesFor (es : List (String × Bool)) (p : Pars) : Prop :=
  (es.map (·.1)).Nodup ∧ p.elements = es.flatMap (fun x => if x.2 then [x.1, x.1] else [x.1]) ∧
  ((p.enableSpins = none ∧ ∀ x ∈ es, x.2 = false) ∨
    p.enableSpins = some (es.flatMap fun x => if x.2 then [true, true] else [false]))

/-- What can be named in an occupancy: elements without spins, and both spins of the others. -/
def KnownKey (es : List (String × Bool)) : Key → Prop
  | .element e => (e, false) ∈ es
  | .spin e s => (e, true) ∈ es ∧ s < 2
  | .broken _ => False

/-- What names an element of the potential: an element, or a spin of an element with spins. -/
def NamesElement (es : List (String × Bool)) : Key → Prop
  | .element e => ∃ b, (e, b) ∈ es
  | .spin e _ => (e, true) ∈ es
  | .broken _ => False

/-- The type of what is named. -/
def TypeOfKey (p : Pars) : Key → ℕ → Prop
  | .element e, t => t = p.elements.idxOf e
  | .spin e s, t => t = p.elements.idxOf e + s
  | .broken _, _ => False

/-- Random samples are samples without repetition, and sets are listed in some order. -/
structure FairRand (r : Rand) : Prop where
  pick : ∀ c l k, k ≤ l.length → (r.pick c l k).Subperm l ∧ (r.pick c l k).length = k
  order : ∀ l, (r.order l).Perm l

/-- The numbers of sites that the elements of a sublattice with `n` sites get. -/
def SiteCounts (n : ℕ) (occ : List (String × ℕ × ℚ)) (ks : List ℤ) : Prop :=
  List.Forall₂ (fun o k => NearestEven k (n * o.2.2)) occ ks

/-- The numbers of sites add up to that of the sublattice. -/
def Fills (n : ℕ) (occ : List (String × ℕ × ℚ)) : Prop := ∃ ks, SiteCounts n occ ks ∧ ks.sum = n

/-- The numbers of sites add up to more than that of the sublattice. -/
def Overfull (n : ℕ) (occ : List (String × ℕ × ℚ)) : Prop := ∃ ks, SiteCounts n occ ks ∧ (n : ℤ) < ks.sum

/-- Elements and types at the sites: each sublattice holds every element as often as its occupancy says. -/
def Occupation : List ℕ → List (List (String × ℕ × ℚ)) → List (String × ℕ) → Prop
  | [], [], sites => sites = []
  | n :: ns, occ :: occs, sites =>
    (∃ ks, SiteCounts n occ ks ∧
      (sites.take n).Perm ((occ.zip ks).flatMap fun x => List.replicate x.2.toNat (x.1.1, x.1.2.1))) ∧
    Occupation ns occs (sites.drop n)
  | _, _, _ => False

/-- A structure whose atom `j` is at site `ids[j]` of the lattice, with an element of an occupation. -/
def RandomStructure (lattice : Structure K) (occ : List (List (String × ℕ × ℚ))) (st : Structure K) (ids : List ℕ) : Prop :=
  ids.Perm (List.range lattice.positions.length) ∧ st.axis = lattice.axis ∧ st.WF ∧ st.types.Pairwise (· ≤ ·) ∧
  st.positions = ids.filterMap (lattice.positions[·]?) ∧
  ∃ sites, sites.length = lattice.positions.length ∧ Occupation lattice.nAtoms occ sites ∧
    st.elements = ids.filterMap (fun i => sites[i]?.map (·.1)) ∧ st.types = ids.filterMap (fun i => sites[i]?.map (·.2))

/-- A lattice and an occupancy that go together: probabilities, a sublattice for each occupancy, types with one element each
and element names that are no longer than the longest of the lattice. -/
structure Suitable (lattice : Structure K) (occ : List (List (String × ℕ × ℚ))) : Prop where
  wf : lattice.WF
  nonneg : ∀ o ∈ occ.flatten, 0 ≤ o.2.2
  sublattices : lattice.nAtoms.length = occ.length
  types : ∀ o ∈ occ.flatten, ∀ o' ∈ occ.flatten, o.2.1 = o'.2.1 → o.1 = o'.1
  names : ∀ o ∈ occ.flatten, ∃ e ∈ lattice.elements, o.1.toList.length ≤ e.toList.length

/-- The values of a random structure, with the forces at the sites of the lattice. -/
def SampleOf (eval : Structure K → Except Err Values) (lattice : Structure K) (occ : List (List (String × ℕ × ℚ)))
    (v : Values) : Prop :=
  ∃ st ids w, RandomStructure lattice occ st ids ∧ eval st = .ok w ∧ v.energy = w.energy ∧ v.stress = w.stress ∧
    v.forces.length = lattice.positions.length ∧ ∀ (j i : ℕ), ids[j]? = some i → v.forces[i]? = w.forces[j]?

/-- Averages over all samples of the batches; a batch is added until the average energy per atom of `nat` atoms changes by no more
than `etol`, or `maxIter` batches are reached. -/
structure AverageOf (batches : List (List Values)) (nat sites maxIter : ℕ) (etol : ℝ) (v : Values) : Prop where
  bound : batches.length ≤ maxIter
  energy : IsMean (batches.flatten.map (·.energy)) v.energy
  stress : ∀ i, IsMean (batches.flatten.map fun x => x.stress i) (v.stress i)
  sites : v.forces.length = sites
  forces : ∀ (i : ℕ) f, v.forces[i]? = some f → ∃ fs : List (V3 ℝ),
    List.Forall₂ (fun x g => x.forces[i]? = some g) batches.flatten fs ∧
    IsMean (fs.map (·.x)) f.x ∧ IsMean (fs.map (·.y)) f.y ∧ IsMean (fs.map (·.z)) f.z
  going : ∀ k a b, 1 ≤ k → k + 1 < batches.length → IsMean ((batches.take k).flatten.map (·.energy)) a →
    IsMean ((batches.take (k + 1)).flatten.map (·.energy)) b → etol < |b - a| / nat
  stop : batches.length = maxIter ∨ 2 ≤ batches.length ∧ ∀ a b,
    IsMean (batches.dropLast.flatten.map (·.energy)) a → IsMean (batches.flatten.map (·.energy)) b → |b - a| / nat ≤ etol

/-- Averages of a lattice over random structures in batches of `n`. -/
def Averaged (eval : Structure K → Except Err Values) (occ : List (List (String × ℕ × ℚ))) (n maxIter : ℕ) (etol : ℝ)
    (lattice : Structure K) (v : Values) : Prop :=
  ∃ batches : List (List Values), (∀ b ∈ batches, b.length = n ∧ ∀ x ∈ b, SampleOf eval lattice occ x) ∧
    AverageOf batches lattice.nAtoms.sum lattice.positions.length maxIter etol v

end Verif.Spec
