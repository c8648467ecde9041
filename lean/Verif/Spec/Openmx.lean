import Verif.Model.Openmx

/-! # What is asked of reading results of OpenMX -/

namespace Verif.Spec
open Verif.Openmx
open Verif.Infile (PStr splitWs contains)

/-- These words are these numbers. -/
def Numbers (num : Num) (ws : List PStr) (qs : List ℚ) : Prop := List.Forall₂ (fun w q => num.float w = .ok q) ws qs

/-- The line of an atom: element, position and force (further words are not used). -/
def AtomLine (num : Num) (l : PStr) (e : PStr) (p f : V3 ℚ) : Prop :=
  ∃ rest, splitWs num.ws [] l = e :: rest ∧ Numbers num (rest.take 3) [p.x, p.y, p.z] ∧
    Numbers num ((rest.drop 3).take 3) [f.x, f.y, f.z]

/-- The product of a matrix with a vector. -/
def mulM3 (a : M3 ℚ) (v : V3 ℚ) : V3 ℚ :=
  ⟨a.r0.x * v.x + a.r0.y * v.y + a.r0.z * v.z, a.r1.x * v.x + a.r1.y * v.y + a.r1.z * v.z,
    a.r2.x * v.x + a.r2.y * v.y + a.r2.z * v.z⟩

/-- Types and numbers of atoms that belong to elements: the different elements in alphabetical order are counted, and the
type of an atom is the position of its element. -/
def TypesOf (els : List PStr) (types nAtoms : List ℕ) : Prop :=
  ∃ order : List PStr, order.Pairwise (· < ·) ∧ (∀ e, e ∈ order ↔ e ∈ els) ∧
    List.Forall₂ (fun e (t : ℕ) => order[t]? = some e) els types ∧
    List.Forall₂ (fun e (n : ℕ) => n = els.count e) order nAtoms

/-- The lines of one step and what they say.  The first line is the number of atoms; the fifth word of the second is the
energy in Hartree and its last nine words, from the eighth or, if it has a temperature, from the thirteenth on, are the
axes; each further line is an atom with its position in Cartesian coordinates and its force in Hartree per Bohr. -/
def OpenmxStep (num : Num) (block : List PStr) (r : Rec) : Prop :=
  ∃ (l0 l1 : PStr) (ls : List PStr) (w : PStr) (e : ℚ) (as : List (PStr × V3 ℚ × V3 ℚ)),
    block = l0 :: l1 :: ls ∧ num.int l0 = .ok (ls.length : ℤ) ∧ 0 < ls.length ∧
    (splitWs num.ws [] l1)[4]? = some w ∧ num.float w = .ok e ∧ r.energy = e * (27211386245981 / 1000000000000) ∧
    Numbers num ((splitWs num.ws [] l1).drop (if contains "Temperature".toList l1 then 12 else 7))
      [r.structure_.axis.r0.x, r.structure_.axis.r1.x, r.structure_.axis.r2.x, r.structure_.axis.r0.y,
        r.structure_.axis.r1.y, r.structure_.axis.r2.y, r.structure_.axis.r0.z, r.structure_.axis.r1.z,
        r.structure_.axis.r2.z] ∧
    r.structure_.axis.det ≠ 0 ∧ r.structure_.volume = r.structure_.axis.det ∧ r.structure_.name = none ∧
    List.Forall₂ (fun l a => AtomLine num l a.1 a.2.1 a.2.2) ls as ∧
    r.structure_.elements = as.map (fun a => String.ofList a.1) ∧
    List.Forall₂ (fun a p => mulM3 r.structure_.axis p = a.2.1) as r.structure_.positions ∧
    r.forces = as.map (fun a => ⟨a.2.2.x * (27211386245981 / 529177210544), a.2.2.y * (27211386245981 / 529177210544),
      a.2.2.z * (27211386245981 / 529177210544)⟩) ∧
    TypesOf (as.map fun a => a.1) r.structure_.types r.structure_.nAtoms

/-- The lines of a file and its steps. -/
def OpenmxFile (num : Num) (lines : List PStr) (rs : List Rec) : Prop :=
  ∃ blocks, lines = blocks.flatten ∧ List.Forall₂ (OpenmxStep num) blocks rs

end Verif.Spec
