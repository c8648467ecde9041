import Verif.Spec.Parallel
import Verif.Model.MlpEval
import Verif.Model.MlpGtEval
import Verif.Model.Rows
import Verif.Model.HybridEval

/-!
# The OpenMP loops

The bodies of the parallel loops of `/repo/src/pypolymlp/cxx/src/compute` as sequences of accesses to
the memory the threads share.  Variables declared in a body are private; so are the values computed
from them, for which the definitions of the sequential models are used.  Objects that are only read
(`types`, the neighbour lists, the potential, the feature model) appear as values.  The inner vectors
`prod_sum_e[i]`, `prod_sum_f[i]` are one cell each, `e_array[i][jj]`, `fx_array[i][jj]`, … together one
cell, `jlocal`, `dxlocal`, … together one cell.
-/

namespace Verif.Parallel
open Verif.Neighbor (Vec Csr)
open Verif.Spec (Prog LoopResult)

variable {K : Type} [Field K] [LinearOrder K]

/-! ## Neighbour list -/

/-- `emplace_back` of the values, one after another: the vector is read and written back. -/
def pushAll {L E : Type} (l : L) : List E → Prog L (List E)
  | [] => .done
  | e :: es => .read l fun v => .write l (v ++ [e]) (pushAll l es)

/-- Iteration `i` of the constructor of `NeighborHalf` (`neighbor_half.cpp` 33-75). -/
def halfBody (cutoff tol : K) (trans : List (Vec K)) (pos : ℕ → Vec K) (i : ℕ) :
    Prog ℕ (List (ℕ × Vec K)) :=
  pushAll i (Neighbor.halfRow cutoff tol trans pos i)

/-- The constructor of `NeighborHalf` may build the list `half` (`neighbor_half.cpp` 10-100). -/
def NeighborHalfResult (cutoff tol : K) (trans : List (Vec K)) (pos : ℕ → Vec K) (n : ℕ)
    (half : Csr (ℕ × Vec K)) : Prop :=
  ∃ m, LoopResult n (halfBody cutoff tol trans pos) (fun _ => []) m ∧
    half = Neighbor.mkCsr ((List.range n).map m)

/-! ## Evaluation of a potential -/

/-- The cells shared by the loops of `PolymlpEval`. -/
inductive Cell where
  | prodE (i : ℕ)
  | prodF (i : ℕ)
  | pair (i jj : ℕ)
  deriving DecidableEq

/-- Their contents: a vector of `prod_sum_e` or `prod_sum_f`, or the entry of a pair. -/
inductive Val (A K : Type) where
  | sums (v : ℕ → A)
  | entry (v : K × Vec K)

/-- The vector in a cell of `prod_sum_e` or `prod_sum_f`. -/
def Val.vec {A : Type} [Zero A] : Val A K → ℕ → A
  | .sums v => v
  | .entry _ => 0

/-- The value in a cell of `e_array`, `fx_array`, …. -/
def Val.ent {A : Type} : Val A K → K × Vec K
  | .sums _ => 0
  | .entry v => v

/-- The memory at the start: empty vectors (`polymlp_eval.cpp` 131-132, 343-344) and zeros
(`resize`, `polymlp_eval.cpp` 61-68, 202-209). -/
def freshMem {A : Type} [Zero A] : Cell → Val A K
  | .prodE _ => .sums 0
  | .prodF _ => .sums 0
  | .pair _ _ => .entry 0

/-- Iteration `i` of the first loop (`polymlp_eval.cpp` 146-176 and 358-403); `ps i` are the two vectors
it computes from read-only data. -/
def prodBody {A : Type} (ps : ℕ → (ℕ → A) × (ℕ → A)) (i : ℕ) : Prog Cell (Val A K) :=
  .write (.prodE i) (.sums (ps i).1) (.write (.prodF i) (.sums (ps i).2) .done)

/-- The loop over the neighbours in iteration `i` of the second loop (`polymlp_eval.cpp` 83-117 and
228-279) from entry `jj` on: `far` is the test of the distance, `entry` the value computed from
`prod_sum_e[i]`, `prod_sum_e[j]`, `prod_sum_f[i]`, `prod_sum_f[j]`. -/
def pairsFrom {A : Type} [Zero A] (far : ℕ × Vec K → Bool)
    (entry : ℕ × Vec K → (ℕ → A) → (ℕ → A) → (ℕ → A) → (ℕ → A) → K × Vec K) (i : ℕ) :
    List (ℕ × Vec K) → ℕ → Prog Cell (Val A K)
  | [], _ => .done
  | e :: es, jj =>
    if far e then pairsFrom far entry i es (jj + 1)
    else
      .read (.prodE i) fun ei => .read (.prodE e.1) fun ej =>
      .read (.prodF i) fun fi => .read (.prodF e.1) fun fj =>
      .write (.pair i jj) (.entry (entry e ei.vec ej.vec fi.vec fj.vec))
        (pairsFrom far entry i es (jj + 1))

/-- The vectors of the two atoms of a pair. -/
def two {A : Type} (i : ℕ) (vi vj : ℕ → A) (a : ℕ) : ℕ → A := if a = i then vi else vj

/-- Iteration `i` of the second loop of `eval_pair` (`polymlp_eval.cpp` 73-118). -/
def pairBody (p : Mlp.PairParams K) (sqrt : K → K) (types : ℕ → ℕ) (half : Csr (ℕ × Vec K)) (i : ℕ) :
    Prog Cell (Val K K) :=
  pairsFrom (fun e => decide (Mlp.disOf sqrt (-e.2) ≥ p.cutoff))
    (fun e ei ej fi fj => Mlp.evalEntry p sqrt (two i ei ej) (two i fi fj) types i e) i (half.row i) 0

/-- Iteration `i` of the second loop of `eval_gtinv` (`polymlp_eval.cpp` 215-280). -/
def gtBody (p : Mlp.GtParams K) (sqrt : K → K) (types : ℕ → ℕ) (half : Csr (ℕ × Vec K)) (i : ℕ) :
    Prog Cell (Val (Cx K) K) :=
  pairsFrom (fun e => decide (sqrt (Neighbor.r2 (-e.2)) ≥ p.cutoff))
    (fun e ei ej fi fj => Mlp.gtEvalEntry p sqrt (two i ei ej) (two i fi fj) types i e) i
    (half.row i) 0

/-- The array passed to `collect_properties` for atom `i`. -/
def entriesOf {A : Type} (half : Csr (ℕ × Vec K)) (m : Cell → Val A K) (i : ℕ) : List (K × Vec K) :=
  (List.range (half.row i).length).map fun jj => (m (.pair i jj)).ent

/-- `eval_pair` may return `r` (`polymlp_eval.cpp` 46-177): the two parallel loops, each ending with a
barrier, then the serial `collect_properties`. -/
def EvalPairResult (p : Mlp.PairParams K) (sqrt : K → K) (pot : ℕ → Mlp.Pot K) (types : ℕ → ℕ) (n : ℕ)
    (half : Csr (ℕ × Vec K)) (r : Mlp.Props K) : Prop :=
  ∃ m1 m2, LoopResult n (prodBody (Mlp.prodSums p sqrt pot types n half)) freshMem m1 ∧
    LoopResult n (pairBody p sqrt types half) m1 m2 ∧
    r = Mlp.collect p.cutoff sqrt n half (entriesOf half m2)

/-- `eval_gtinv` may return `r` (`polymlp_eval.cpp` 182-290, 337-404). -/
def EvalGtinvResult (p : Mlp.GtParams K) (sqrt : K → K) (pot : ℕ → Mlp.Pot K) (types : ℕ → ℕ) (n : ℕ)
    (half : Csr (ℕ × Vec K)) (r : Mlp.Props K) : Prop :=
  ∃ m1 m2, LoopResult n (prodBody (Mlp.gtProdSums p sqrt pot types n half)) freshMem m1 ∧
    LoopResult n (gtBody p sqrt types half) m1 m2 ∧
    r = Mlp.collect p.cutoff sqrt n half (entriesOf half m2)

/-! ## Feature matrices -/

/-- Assignments, one after another. -/
def writeAll {L V : Type} : List (L × V) → Prog L V
  | [] => .done
  | w :: ws => .write w.1 w.2 (writeAll ws)

/-- The assignments `x_all.block(b, 0, rows, cols) = values`, row by row. -/
def blockWrites {α : Type} (b : ℕ) (rows : List α) : List (ℕ × α) :=
  rows.zipIdx.map fun q => (b + q.2, q.1)

/-- Iteration `i` of the constructor of `PyModel` (`py_model.cpp` 43-53); a cell is a row of `x_all`. -/
def modelBody {α : Type} (ix : Rows.Index) (feat : ℕ → Rows.StFeatures α) (i : ℕ) : Prog ℕ α :=
  writeAll ((i, (feat i).xe) ::
    if ix.force[i]? = some true then
      blockWrites (ix.xfBegin.getD i (-1)).toNat (feat i).xf ++
        blockWrites (ix.xsBegin.getD i (-1)).toNat (feat i).xs
    else [])

/-- The constructor of `PyModel` may leave `x` in `x_all`, whose uninitialised content is `x0`
(`py_model.cpp` 39-54). -/
def ModelResult {α : Type} (ix : Rows.Index) (feat : ℕ → Rows.StFeatures α) (n : ℕ) (x0 : ℕ → α)
    (x : List α) : Prop :=
  ∃ m, LoopResult n (modelBody ix feat) x0 m ∧ x = (List.range (ix.nE + ix.nF + ix.nS)).map m

/-- Iteration `i` of the constructor of `PyHybridModel` (`py_hybrid_model.cpp` 65-104); a cell is an
entry of `x_all`. -/
def hybridBody {A P R : Type} (ix : Rows.Index) (subs : List (HybridEval.CSub A P R))
    (sts : ℕ → HybridEval.CStr A P) (i : ℕ) : Prog (ℕ × ℕ) R :=
  writeAll ((HybridEval.strWrites ix subs (sts i) i).map fun w => ((w.1, w.2.1), w.2.2))

/-! ## The deprecated loop over structures -/

/-- The cells of interest: the member `n_atom` of the `PolymlpEval` object that all iterations use
(`polymlp_eval.h` 22) and `f_array[i]`. -/
inductive DepCell where
  | nAtom
  | forces (i : ℕ)
  deriving DecidableEq

/-- Iteration `i` of the deprecated loop (`py_properties_fast.cpp` 63-74), of which only the number of
rows of the forces is followed: `PolymlpEval::eval` assigns the member `n_atom` (`polymlp_eval.cpp` 33)
and `collect_properties` reads it and gives `forces` that many rows (`polymlp_eval.cpp` 306-307);
`sizes i` is the number of atoms of the structure. -/
def deprecatedBody (sizes : ℕ → ℕ) (i : ℕ) : Prog DepCell ℕ :=
  .write .nAtom (sizes i) (.read .nAtom fun n => .write (.forces i) n .done)

end Verif.Parallel
