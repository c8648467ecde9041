import Mathlib.Algebra.Order.Field.Basic
import Mathlib.Data.Matrix.Mul
import Mathlib.Data.List.Infix

/-!
# Neighbour lists

`/repo/src/pypolymlp/cxx/src/compute/neighbor_half.cpp`, `neighbor_half.h` and
`neighbor_full.cpp`.  `double` is a linearly ordered field `K` with exact arithmetic; the three
arrays `dx`, `dy`, `dz` (always resized, filled and read together) are one array of vectors.
The parallel loop over `i` writes only to the `i`-th inner vectors, so it is modelled by the
sequential loop.
-/

namespace Verif.Neighbor

/-- A Cartesian vector. -/
abbrev Vec (K : Type) := Fin 3 → K

variable {K : Type} [Field K] [LinearOrder K]

/-- `dx*dx + dy*dy + dz*dz` (`neighbor_half.cpp` 46, 59; `neighbor_full.cpp` 42). -/
def r2 (d : Vec K) : K := d 0 * d 0 + d 1 * d 1 + d 2 * d 2

/-- `r2 < cutoff_sq and r2 > tol_sq` (`neighbor_half.cpp` 47, 60; `neighbor_full.cpp` 43). -/
def inRange (cutoff tol : K) (d : Vec K) : Bool :=
  decide (r2 d < cutoff * cutoff) && decide (r2 d > tol * tol)

/-- The flag `keep` for periodic images of the same atom (`neighbor_half.cpp` 61-66). -/
def keepSelf (tol : K) (d : Vec K) : Bool :=
  if d 2 ≥ tol then true
  else if |d 2| < tol ∧ d 1 ≥ tol then true
  else if |d 2| < tol ∧ |d 1| < tol ∧ d 0 ≥ tol then true
  else false

/-- Inner loop over the translations for a fixed pair (`neighbor_half.cpp` 39-53,
`neighbor_full.cpp` 35-49). -/
def pairEntries (cutoff tol : K) (trans : List (Vec K)) (pos : ℕ → Vec K) (i j : ℕ) :
    List (ℕ × Vec K) :=
  trans.filterMap fun tr =>
    let d := pos j - pos i + tr
    if inRange cutoff tol d then some (j, d) else none

/-- The vectors `jlocal`, `dxlocal`, … of atom `i` (`neighbor_half.cpp` 33-75). -/
def halfRow (cutoff tol : K) (trans : List (Vec K)) (pos : ℕ → Vec K) (i : ℕ) :
    List (ℕ × Vec K) :=
  ((List.range i).flatMap fun j => pairEntries cutoff tol trans pos i j) ++
    trans.filterMap fun tr =>
      if inRange cutoff tol tr then (if keepSelf tol tr then some (i, tr) else none) else none

/-- The vectors `jlocal`, `dxlocal`, … of atom `i` (`neighbor_full.cpp` 29-51). -/
def fullRow (cutoff tol : K) (trans : List (Vec K)) (pos : ℕ → Vec K) (n i : ℕ) :
    List (ℕ × Vec K) :=
  (List.range n).flatMap fun j => pairEntries cutoff tol trans pos i j

/-- Compressed rows: `offset` and the flat arrays (`neighbor_half.h` 16-17). -/
structure Csr (E : Type) where
  offset : List ℕ
  entries : List E

/-- `offset[i+1] = offset[i] + count` and the flat copy (`neighbor_half.cpp` 77-99,
`neighbor_full.cpp` 53-75). -/
def mkCsr {E : Type} (rows : List (List E)) : Csr E :=
  ⟨(rows.map List.length).scanl (· + ·) 0, rows.flatten⟩

/-- `offset[i]`; reading past the end is not modelled (value 0). -/
def Csr.off {E : Type} (c : Csr E) (i : ℕ) : ℕ := c.offset.getD i 0

/-- `size(i)` (`neighbor_half.h` 29-31). -/
def Csr.size {E : Type} (c : Csr E) (i : ℕ) : ℕ := c.off (i + 1) - c.off i

/-- The indices `begin, …, end - 1` of `range(i)` (`neighbor_half.h` 33-35). -/
def Csr.range {E : Type} (c : Csr E) (i : ℕ) : List ℕ := List.range' (c.off i) (c.size i)

/-- Entries delimited by `range(i)`. -/
def Csr.row {E : Type} (c : Csr E) (i : ℕ) : List E := (c.entries.drop (c.off i)).take (c.size i)

/-- `neighbor_atom(k)` (`neighbor_half.h` 37-39). -/
def neighborAtom (c : Csr (ℕ × Vec K)) (k : ℕ) : ℕ := (c.entries.getD k (0, 0)).1

/-- `diff(k, dx, dy, dz)` (`neighbor_half.h` 41-46). -/
def diff (c : Csr (ℕ × Vec K)) (k : ℕ) : Vec K := (c.entries.getD k (0, 0)).2

/-- `degree` after the first loop of `get_full_list` (`neighbor_half.cpp` 133-141). -/
def degree (n : ℕ) (c : Csr (ℕ × Vec K)) : List ℕ :=
  (List.range n).foldl
    (fun deg i =>
      (c.range i).foldl (fun deg k => deg.modify (neighborAtom c k) (· + 1))
        (deg.modify i (· + c.size i)))
    (List.replicate n 0)

/-- One write: `idx = pos[a]`, store the entry at `idx`, `++pos[a]` (`neighbor_half.cpp` 161-168
and 169-176). -/
def put {E : Type} (st : List ℕ × List E) (a : ℕ) (e : E) : List ℕ × List E :=
  (st.1.modify a (· + 1), st.2.set (st.1.getD a 0) e)

/-- `get_full_list` (`neighbor_half.cpp` 126-179). -/
def getFullList (n : ℕ) (c : Csr (ℕ × Vec K)) : Csr (ℕ × Vec K) :=
  let offsetFull := (degree n c).scanl (· + ·) 0
  let nnz := offsetFull.getD n 0
  let st := (List.range n).foldl
    (fun st i =>
      (c.range i).foldl
        (fun st k =>
          let j := neighborAtom c k
          let d := diff c k
          put (put st i (j, d)) j (i, -d))
        st)
    (offsetFull, List.replicate nnz (0, 0))
  ⟨offsetFull, st.2⟩

/-- The object built by the constructor `NeighborHalf` from the translations and positions of
`NeighborCell` (`neighbor_half.cpp` 10-100). -/
def neighborHalf (cutoff tol : K) (trans : List (Vec K)) (pos : ℕ → Vec K) (n : ℕ) :
    Csr (ℕ × Vec K) :=
  mkCsr ((List.range n).map (halfRow cutoff tol trans pos))

/-- The object built by the constructor `NeighborFull` (`neighbor_full.cpp` 10-76). -/
def neighborFull (cutoff tol : K) (trans : List (Vec K)) (pos : ℕ → Vec K) (n : ℕ) :
    Csr (ℕ × Vec K) :=
  mkCsr ((List.range n).map (fullRow cutoff tol trans pos n))

end Verif.Neighbor
