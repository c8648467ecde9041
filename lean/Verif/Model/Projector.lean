import Verif.Model.PolyInv

/-!
# The projector of polynomial invariants

`/repo/src/pypolymlp/polyinv/cxx/src/projector/precondition.cpp`, `projector.cpp` and
`polyinv/projector.py`.  Reals stand for doubles, integers for `int` (no overflow), and the
Clebsch-Gordan coefficient of `clebsch_gordan` (`projector.cpp` 803-810, from GSL) is the parameter
`C l1 l2 l m1 m2` with `m = m1 + m2`, as in all its calls.

The program has one function for each order from 3 to 8, which differ only in the number of nested
loops.  Here the loops are recursive in the list of angular momenta: `l1`, the middle ones `ls`,
and the last one `ln`.
-/

namespace Verif.PolyInv

/-- `for (int m=-l; m<=l; ++m)`. -/
def mLoop (l : ℕ) : List ℤ := (List.range (2 * l + 1)).map fun (i : ℕ) => (i : ℤ) - l

/-- Nested loops over components, the first outermost. -/
def mLoops : List ℕ → List (List ℤ)
  | [] => [[]]
  | l :: ls => (mLoop l).flatMap fun m => (mLoops ls).map (m :: ·)

/-- `for (int lq = abs(q-l); lq <= q+l; ++lq)`. -/
def lqLoop (q l : ℕ) : List ℕ := List.range' (max (q - l) (l - q)) (2 * min q l + 1)

/-- `check_sum` (`precondition.cpp` 15-20): the last component, and if it is allowed. -/
def checkSum (ms : List ℤ) (ln : ℕ) : Bool := decide (|-(ms.sum)| ≤ (ln : ℤ))

/-- The components that `Precondition` keeps, in the order of their sequential numbers
(`precondition.cpp` 42-231). -/
def rowTuples (l1 : ℕ) (ls : List ℕ) (ln : ℕ) : List (List ℤ) :=
  (mLoops (l1 :: ls)).filter fun ms => checkSum ms ln

/-- `Precondition::lm_to_matrix_index` (`precondition.cpp` 254-262), the loop from the last
position: the index and the multiplier. -/
def cppIndexLoop : List ℕ → List ℤ → ℤ × ℤ
  | l :: ls, m :: ms =>
    let r := cppIndexLoop ls ms
    (r.1 + (m + l) * r.2, r.2 * (2 * l + 1))
  | _, _ => (0, 1)

/-- `get_row` (`precondition.cpp` 50-57). -/
def rowIndices (l1 : ℕ) (ls : List ℕ) (ln : ℕ) : List ℤ :=
  (rowTuples l1 ls ln).map fun ms => (cppIndexLoop (l1 :: (ls ++ [ln])) (ms ++ [-(ms.sum)])).1

/-- `map_m[{m1, m2, ...}]`: the sequential number. -/
def seqOf (l1 : ℕ) (ls : List ℕ) (ln : ℕ) (ms : List ℤ) : ℕ := (rowTuples l1 ls ln).idxOf ms

/-- The coefficient of one coupling: the first is `clebsch_gordan(l1,l2,lq1,m1,m2,..)`, the later
ones `clebsch_gordan(l3,lq1,lq2,m3,sum2,..)` (`projector.cpp` 244, 250). -/
def cgOf (C : ℕ → ℕ → ℕ → ℤ → ℤ → ℝ) (first : Bool) (q l q' : ℕ) (s m : ℤ) : ℝ :=
  if first then C q l q' s m else C l q q' m s

/-- A key `{lq1, lq2, m, sum}` of a table of coefficients. -/
abbrev CgKey := ℕ × ℕ × ℤ × ℤ

/-- The tables `cleb1`, `cleb2`, ... (`projector.cpp` 88-94, 155-167, 236-258, 343-371): for each
angular momentum and sum reached so far, the coefficients of the next coupling.  The keys here
name the angular momentum before and after also where the program leaves out one that is fixed. -/
def cgTables (C : ℕ → ℕ → ℕ → ℤ → ℤ → ℝ) (ln : ℕ) :
    Bool → List (ℕ × ℤ) → List ℕ → List (List (CgKey × ℝ))
  | _, _, [] => []
  | first, frontier, [l] =>
    [frontier.flatMap fun f => (mLoop l).flatMap fun m =>
      if |f.2 + m| > (ln : ℤ) then [] else [((f.1, ln, f.2, m), cgOf C first f.1 l ln f.2 m)]]
  | first, frontier, l :: l' :: ls =>
    let t := frontier.flatMap fun f => (lqLoop f.1 l).flatMap fun (q' : ℕ) => (mLoop l).flatMap fun m =>
      if |f.2 + m| > (q' : ℤ) then [] else [((f.1, q', f.2, m), cgOf C first f.1 l q' f.2 m)]
    t :: cgTables C ln false (t.map fun e => (e.1.2.1, e.1.2.2.1 + e.1.2.2.2)) (l' :: ls)

/-- `cleb[{...}]`: zero if there is no such key. -/
def cgGet (t : List (CgKey × ℝ)) (k : CgKey) : ℝ :=
  match t.find? fun e => decide (e.1 = k) with
  | some e => e.2
  | none => 0

/-- `set_inter_prod_first` and `set_inter_prod` (`projector.cpp` 699-752): the intermediate angular
momenta with the products so far.  Simplification: the first one starts from a product 1. -/
def interProd (t : List (CgKey × ℝ)) (state : List (ℕ × ℝ)) (l : ℕ) (s s' m m' : ℤ) :
    List (ℕ × ℝ) :=
  state.flatMap fun x => (lqLoop x.1 l).flatMap fun (q' : ℕ) =>
    if |s + m| > (q' : ℤ) ∨ |s' + m'| > (q' : ℤ) then []
    else [(q', x.2 * cgGet t (x.1, q', s, m) * cgGet t (x.1, q', s', m'))]

/-- `set_final_prod` (`projector.cpp` 755-777). -/
def finalProd (t : List (CgKey × ℝ)) (state : List (ℕ × ℝ)) (ln : ℕ) (s s' m m' : ℤ) : ℝ :=
  (state.map fun x => x.2 * cgGet t (x.1, ln, s, m) * cgGet t (x.1, ln, s', m')).sum

/-- The loops of `order3` to `order8` over intermediate angular momenta. -/
def cgProd (ln : ℕ) : List (List (CgKey × ℝ)) → List (ℕ × ℝ) → ℤ → ℤ → List ℕ → List ℤ → List ℤ → ℝ
  | t :: ts, state, s, s', l :: l' :: ls, m :: ms, m' :: ms' =>
    cgProd ln ts (interProd t state l s s' m m') (s + m) (s' + m') (l' :: ls) ms ms'
  | t :: _, state, s, s', [l], m :: _, m' :: _ => finalProd t state ln s s' m m'
  | _, _, _, _, _, _, _ => 0

/-- The keys that `set_inter_prod_first`, `set_inter_prod` and `set_final_prod` read, each with its
table (`projector.cpp` 711-716, 734-742, 769-773).  `cleb[{...}]` inserts a key that is missing. -/
def cgReads (ln : ℕ) : List (List (CgKey × ℝ)) → List (ℕ × ℝ) → ℤ → ℤ → List ℕ → List ℤ → List ℤ →
    List (List (CgKey × ℝ) × CgKey)
  | t :: ts, state, s, s', l :: l' :: ls, m :: ms, m' :: ms' =>
    (state.flatMap fun x => (lqLoop x.1 l).flatMap fun (q' : ℕ) =>
      if |s + m| > (q' : ℤ) ∨ |s' + m'| > (q' : ℤ) then []
      else [(t, (x.1, q', s, m)), (t, (x.1, q', s', m'))]) ++
    cgReads ln ts (interProd t state l s s' m m') (s + m) (s' + m') (l' :: ls) ms ms'
  | t :: _, state, s, s', [_], m :: _, m' :: _ =>
    state.flatMap fun x => [(t, (x.1, ln, s, m)), (t, (x.1, ln, s', m'))]
  | _, _, _, _, _, _, _ => []

/-- The tables before the parallel loops, for an order from 3 on. -/
def allTables (C : ℕ → ℕ → ℕ → ℤ → ℤ → ℝ) (l1 : ℕ) (ls : List ℕ) (ln : ℕ) :
    List (List (CgKey × ℝ)) :=
  cgTables C ln true ((List.range (l1 + 1)).map fun (m : ℕ) => (l1, (m : ℤ))) ls

/-- `num` (`projector.cpp` 68-72 for order 2; 121-126, 197-202 for the others). -/
noncomputable def coreNum (C : ℕ → ℕ → ℕ → ℤ → ℤ → ℝ) (l1 : ℕ) (ls : List ℕ) (ln : ℕ) :
    List ℤ → List ℤ → ℝ
  | m1 :: ms, m1' :: ms' =>
    let mn := -(m1 :: ms).sum
    let mn' := -(m1' :: ms').sum
    let sign : ℝ := if (mn - mn').natAbs % 2 = 0 then 1 else -1
    match ls with
    | [] =>
      if l1 = ln ∧ -m1 = mn ∧ -m1' = mn' then (-1) ^ (mn - mn').natAbs / (2 * ln + 1) else 0
    | l :: ls =>
      cgProd ln (allTables C l1 (l :: ls) ln) [(l1, 1)] m1 m1' (l :: ls) ms ms' *
        (sign / (2 * ln + 1))
  | _, _ => 0

/-- `assign_core` (`projector.cpp` 780-801): the cells that get the number. -/
def assignCells (i j i2 j2 : ℕ) : List (ℕ × ℕ) :=
  [(i, j), (i, j2), (i2, j), (i2, j2)] ++
    if i ≠ j then [(j, i), (j, i2), (j2, i), (j2, i2)] else []

/-- The writes of the loops for one pair of tuples (`projector.cpp` 55-78 for order 2, 106-127 and
184-203 for the others): nothing if the first number is above the second. -/
noncomputable def writesOf (C : ℕ → ℕ → ℕ → ℤ → ℤ → ℝ) (l1 : ℕ) (ls : List ℕ) (ln : ℕ)
    (p : List ℤ × List ℤ) : List ((ℕ × ℕ) × ℝ) :=
  let i := seqOf l1 ls ln p.1
  let j := seqOf l1 ls ln p.2
  if i > j then []
  else
    let cells := match ls with
      | [] => [(i, j)] ++ if i ≠ j then [(j, i)] else []
      | _ :: _ => assignCells i j (seqOf l1 ls ln (p.1.map (-·))) (seqOf l1 ls ln (p.2.map (-·)))
    cells.map fun c => (c, coreNum C l1 ls ln p.1 p.2)

/-- `for (int m1=0; m1<=l1; ++m1)` from order 3 on (`projector.cpp` 102), all `m1` for order 2
(`projector.cpp` 53). -/
def firstHalf : List ℕ → List ℤ → Bool
  | _ :: _, m1 :: _ => decide (0 ≤ m1)
  | _, _ => true

/-- The pairs of tuples that the loops visit (`projector.cpp` 53-66, 102-119). -/
def visits (l1 : ℕ) (ls : List ℕ) (ln : ℕ) : List (List ℤ × List ℤ) :=
  let rows := (rowTuples l1 ls ln).filter (firstHalf ls)
  rows.flatMap fun a => rows.map fun b => (a, b)

/-- `core(i, j) = num`. -/
def setCell (core : ℕ → ℕ → ℝ) (w : (ℕ × ℕ) × ℝ) : ℕ → ℕ → ℝ :=
  fun i j => if (i, j) = w.1 then w.2 else core i j

/-- The matrix after the writes for a list of visited pairs, from `MatrixXd::Zero`.  The loops are
parallel: the writes can come in any order. -/
def coreAfter (ws : List ((ℕ × ℕ) × ℝ)) : ℕ → ℕ → ℝ := ws.foldl setCell fun _ _ => 0

/-- `build_projector` of `projector.py` 8-17 for an order from 2 on with an even sum: the rows of
components. -/
def lmRows (l1 : ℕ) (ls : List ℕ) (ln : ℕ) : List (List (ℕ × ℤ)) :=
  (rowIndices l1 ls ln).map fun i => indexToLm i (l1 :: (ls ++ [ln]))

end Verif.PolyInv
