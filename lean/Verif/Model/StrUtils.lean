import Verif.Model.Structure
import Verif.Model.AtomOrder
import Verif.Model.Spins

/-!
# Utilities that modify structures

`/repo/src/pypolymlp/utils/structure_utils.py` 32-35, 121-184, 233-254 and
`/repo/src/pypolymlp/utils/phonopy_utils.py` 19-45.
-/

namespace Verif.StrUtils
open Verif.AtomOrder
variable {K : Type}

/-- `[i for i, n1 in enumerate(n_atoms) for n2 in range(n1)]` (`structure_utils.py` 34,
`phonopy_utils.py` 35). -/
def expand (nAtoms : List ℕ) : List ℕ :=
  nAtoms.zipIdx.flatMap fun p => List.replicate p.1 p.2

/-- `reset_types(st)` (`structure_utils.py` 32-35). -/
def resetTypes (st : Structure K) : Structure K := { st with types := expand st.nAtoms }

/-- `np.delete(xs, range(b, e))` for `b ≤ e ≤ len(xs)` (`structure_utils.py` 125-128). -/
def deleteRange {α : Type} (xs : List α) (b e : ℕ) : List α := xs.take b ++ xs.drop e

/-- `remove(st, idx)` (`structure_utils.py` 121-133).  `n_atoms[:idx]` and `n_atoms[idx]` accept
negative indices, which mean the same position here.  The optional cartesian positions
(lines 129-132) are not modelled. -/
def remove (st : Structure K) (idx : ℤ) : Except Err (Structure K) := do
  let i ← pyIndex st.nAtoms.length idx
  let n ← orErr .indexError st.nAtoms[i]?
  let b := (st.nAtoms.take i).sum
  let e := b + n
  return { st with
    positions := deleteRange st.positions b e
    nAtoms := st.nAtoms.eraseIdx i
    elements := deleteRange st.elements b e
    types := deleteRange st.types b e }

/-- `np.cumsum(n_atoms)`. -/
def cumsum (xs : List ℕ) : List ℕ := (List.range xs.length).map fun i => (xs.take (i + 1)).sum

/-- `remove_atom(st, idx)` (`structure_utils.py` 136-147).  The optional cartesian positions
(lines 145-146) are not modelled.  `np.where(idx < sum1)[0][0]` compares the index as given, also
when it is negative. `st.n_atoms[match] -= 1` is on signed integers; a count of zero cannot be
matched for `idx ≥ 0`, for `idx < 0` it would give `-1`, modelled as a `ValueError` (the structure is
unusable, see `C42_remove_atom_negative`). -/
def removeAtom (st : Structure K) (idx : ℤ) : Except Err (Structure K) := do
  let i ← pyIndex st.positions.length idx
  let m ← orErr .indexError ((cumsum st.nAtoms).findIdx? fun (s : ℕ) => decide (idx < (s : ℤ)))
  let n ← orErr .indexError st.nAtoms[m]?
  if n = 0 then .error .valueError
  else .ok { st with
    positions := st.positions.eraseIdx i
    elements := st.elements.eraseIdx i
    types := st.types.eraseIdx i
    nAtoms := st.nAtoms.set m (n - 1) }

/-- The first element of each block: lines 165-168 of `swap_elements`. -/
def uniqEle (st : Structure K) : Except Err (List String) :=
  (List.range st.nAtoms.length).mapM fun i =>
    orErr .indexError st.elements[(st.nAtoms.take i).sum]?

/-- One iteration of the loop of `swap_elements` (`structure_utils.py` 171-178) for `(i, t)`. -/
def swapStep (st : Structure K) (ue : List String) (i t : ℕ) :
    Except Err (ℕ × List (V3 K) × List String × List ℕ) := do
  let n ← orErr .indexError st.nAtoms[i]?
  let b := (st.nAtoms.take i).sum
  let e ← orErr .indexError ue[t]?
  return (n, slice st.positions b (b + n), List.replicate n e, List.replicate n t)

/-- `swap_elements(st, order)` (`structure_utils.py` 150-184).  `uniq_ele[t]` is evaluated only when
the block is not empty; the model evaluates it always, which differs only for an `order` that is
longer than `n_atoms` and names an empty block at the end. -/
def swapElements (st : Structure K) (order : List ℕ) : Except Err (Structure K) := do
  let ue ← uniqEle st
  let parts ← order.zipIdx.mapM fun p => swapStep st ue p.1 p.2
  return { st with
    nAtoms := parts.map (·.1)
    positions := parts.flatMap (·.2.1)
    elements := parts.flatMap (·.2.2.1)
    types := parts.flatMap (·.2.2.2) }

/-- `order = list(range(n)); order[i1], order[i2] = order[i2], order[i1]`
(`structure_utils.py` 161-163), non-negative indices. -/
def swapOrder (n i1 i2 : ℕ) : Except Err (List ℕ) :=
  if i1 < n ∧ i2 < n then .ok (((List.range n).set i1 i2).set i2 i1) else .error .indexError

/-- `sort_wrt_types(st, return_ids=True)` (`structure_utils.py` 233-254). -/
def sortWrtTypes (st : Structure K) : Except Err (Structure K × List ℕ) := do
  let st' ← reorder st
  let ids := (uniqSorted st.types).flatMap fun i => whereTrue (st.types.map fun t => decide (t = i))
  return (st', ids)

/-- The attributes of `PhonopyAtoms` that are used; `cell` has the lattice vectors as rows. -/
structure PhCell (K : Type) where
  symbols : List String
  cell : M3 K
  scaledPositions : List (V3 K)
  volume : K
  deriving DecidableEq, Repr

/-- `a.T` for a 3×3 array. -/
def transpose (a : M3 K) : M3 K :=
  ⟨⟨a.r0.x, a.r1.x, a.r2.x⟩, ⟨a.r0.y, a.r1.y, a.r2.y⟩, ⟨a.r0.z, a.r1.z, a.r2.z⟩⟩

/-- `structure_to_phonopy_cell(structure)` (`phonopy_utils.py` 19-26); `PhonopyAtoms` computes the
volume as the determinant of the cell. -/
def toPhonopy [CommRing K] (st : Structure K) : PhCell K :=
  ⟨st.elements, transpose st.axis, st.positions, (transpose st.axis).det⟩

/-- `phonopy_cell_to_structure(ph_cell)` (`phonopy_utils.py` 29-45).  `sorted(set(elements),
key=elements.index)` is the list of distinct elements in order of first occurrence. -/
def fromPhonopy (c : PhCell K) : Except Err (Structure K) :=
  let uniq := fromkeys c.symbols
  let nAtoms := uniq.map fun e => c.symbols.count e
  Structure.check ⟨transpose c.cell, c.scaledPositions, nAtoms, c.symbols, expand nAtoms, c.volume, none⟩

end Verif.StrUtils
