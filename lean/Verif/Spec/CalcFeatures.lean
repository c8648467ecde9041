import Verif.Model.CalcFeatures

/-!
# Features of given structures: what the user expects
-/

namespace Verif.Spec
open Verif.CalcFeatures Verif.Rows
variable {K α : Type}

/-- The structure as the potential sees it: the type of an atom is the place of its element among the
elements of the potential. -/
def seenBy (elems : List String) (st : Structure K) : Structure K :=
  { st with types := st.elements.map fun e => elems.idxOf e }

/-- The types that the structure uses for the atoms of an element, smallest first and without
repetition. -/
def IsChannels (st : Structure K) (e : String) (ts : List ℕ) : Prop :=
  ts.Pairwise (· < ·) ∧ ∀ t, t ∈ ts ↔ ∃ i : ℕ, st.elements[i]? = some e ∧ st.types[i]? = some t

/-- The structure as a potential sees it that has several types for an element: the types of the
structure for an element, in order, are those of the potential for it. -/
def seenByChannels (elems : List String) (chan : String → List ℕ) (st : Structure K) : Structure K :=
  { st with types := (st.elements.zip st.types).map fun q => elems.idxOf q.1 + (chan q.1).idxOf q.2 }

/-- Features of a structure with the types it has. -/
def featuresOf [CommRing K] (P : Pot K α) (st : Structure K) : StFeatures α :=
  P.feat st.axis
    (st.positions.map fun v =>
      ⟨st.axis.r0.x * v.x + st.axis.r0.y * v.y + st.axis.r0.z * v.z,
        st.axis.r1.x * v.x + st.axis.r1.y * v.y + st.axis.r1.z * v.z,
        st.axis.r2.x * v.x + st.axis.r2.y * v.y + st.axis.r2.z * v.z⟩) st.types

/-- The table: one row per structure; with forces, six more rows per structure and then three rows per
atom. -/
def featureTable [CommRing K] (P : Pot K α) (force : Bool) (sts : List (Structure K)) : List α :=
  sts.map (fun st => (featuresOf P st).xe) ++
    if force then sts.flatMap (fun st => (featuresOf P st).xs) ++
      sts.flatMap (fun st => (featuresOf P st).xf) else []

/-- The C++ library gives six stress rows and three force rows per atom. -/
def Shapes (P : Pot K α) : Prop :=
  ∀ a v t, (P.feat a v t).xs.length = 6 ∧ (P.feat a v t).xf.length = 3 * t.length

/-- New memory has the size asked for, the parallel loop visits every structure once. -/
def FairEnv (E : Env α) : Prop :=
  (∀ n, (E.mem n).length = n) ∧ ∀ n, (E.order n).Perm (List.range n)

/-- The kind of data the potential was made from allows the flags. -/
def FlagsAllowed (p : Par) (force stress : Bool) : Prop :=
  (force = true → p.dtype ≠ "electron") ∧
    (stress = true → p.dtype ∉ ["phono3py", "sscha", "openmx", "electron"])

/-- The structures given in a call. -/
def givenList : Given K → Option (List (Structure K))
  | .single st => some [st]
  | .list l => some l
  | .other => none

/-- Same cell, positions and elements. -/
def SameCellAtoms (a b : Structure K) : Prop :=
  a.axis = b.axis ∧ a.positions = b.positions ∧ a.elements = b.elements

end Verif.Spec
