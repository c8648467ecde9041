import Verif.Model.YamlData

/-! # What is asked of structures and properties in yaml files -/

namespace Verif.Spec
open Verif.YamlData

/-- A structure that `PolymlpStructure` accepts. -/
def ValidCell (c : Cell) : Prop :=
  c.st.positions.length = c.st.elements.length ∧ c.st.elements.length = c.st.types.length ∧
    c.st.elements.length = c.st.nAtoms.sum

/-- The same crystal: everything but the name. -/
def SameCrystal (a b : Structure ℚ) : Prop :=
  a.axis = b.axis ∧ a.positions = b.positions ∧ a.nAtoms = b.nAtoms ∧ a.elements = b.elements ∧ a.types = b.types ∧
    a.volume = b.volume

/-- The matrix that three numbers or a matrix stand for. -/
def MatrixOf (m : SMatrix) (a : M3 ℤ) : Prop :=
  match m with
  | .diag v => a = ⟨⟨v.x, 0, 0⟩, ⟨0, v.y, 0⟩, ⟨0, 0, v.z⟩⟩
  | .full b => a = b

/-- The document has the entry `e`, and no later entry has the same key. -/
def HasEntry (doc : List (String × Yaml)) (k : String) (y : Yaml) : Prop :=
  ∃ l r, doc = l ++ (k, y) :: r ∧ ∀ e ∈ r, e.1 ≠ k

/-- Data of one calculation. -/
structure Datum where
  cell : Cell
  energy : ℚ
  forces : List (V3 ℚ)
  stress : Fin 6 → ℚ

/-- The six components of the stress as a list. -/
def Datum.six (d : Datum) : List ℚ := List.ofFn d.stress

/-- A value that is the number `q`. -/
def IsNum (y : Yaml) (q : ℚ) : Prop := y = .num q

/-- Three values that are these numbers. -/
def IsVec (y : V3 Yaml) (v : V3 ℚ) : Prop := IsNum y.x v.x ∧ IsNum y.y v.y ∧ IsNum y.z v.z

/-- A tensor of values that is the symmetric tensor with the components xx, yy, zz, xy, yz, zx. -/
def IsTensor (y : M3 Yaml) (s : Fin 6 → ℚ) : Prop :=
  IsVec y.r0 ⟨s 0, s 3, s 5⟩ ∧ IsVec y.r1 ⟨s 3, s 1, s 4⟩ ∧ IsVec y.r2 ⟨s 5, s 4, s 2⟩

/-- All numbers that are printed for the properties are read as numbers. -/
def AllPlain (plain : ℚ → Bool) (d : Datum) : Prop :=
  plain d.energy = true ∧ (∀ v ∈ d.forces, plain v.x = true ∧ plain v.y = true ∧ plain v.z = true) ∧
    ∀ i, plain (d.stress i) = true

/-- What a file with electronic properties says: for each temperature a dictionary with the target. -/
def ElectronEntry (target : String) (y : Yaml) (t v : ℚ) : Prop :=
  ∃ d yt yv, y = .dict d ∧ HasEntry d "temperature" yt ∧ (yt = .num t ∨ yt = .sci t) ∧ HasEntry d target yv ∧
    (yv = .num v ∨ yv = .sci v)

/-- A file with electronic properties of a structure at these temperatures. -/
def ElectronDoc (target : String) (doc : List (String × Yaml)) (c : Cell) (tv : List (ℚ × ℚ)) : Prop :=
  loadCell doc "structure" = .ok c ∧ ∃ l, HasEntry doc "properties" (.list l) ∧
    List.Forall₂ (fun y p => ElectronEntry target y p.1 p.2) l tv

/-- Two temperatures that count as equal. -/
def CloseTo (T t : ℚ) : Prop := |t - T| ≤ 1 / 100000000 + 1 / 100000 * |T|

/-- `v` is the value at the first temperature that counts as `T`. -/
def ValueAt (T : ℚ) (tv : List (ℚ × ℚ)) (v : ℚ) : Prop :=
  ∃ l t r, tv = l ++ (t, v) :: r ∧ CloseTo T t ∧ ∀ p ∈ l, ¬ CloseTo T p.1

end Verif.Spec
