import Verif.Lemmas.Parallel
import Verif.Lemmas.Neighbor
import Verif.Lemmas.Rows
import Verif.Lemmas.HybridEval

/-!
# C121: parallel execution

The results do not depend on the number of threads, on the distribution of the iterations or on the
interleaving of the memory accesses, and the loops have no data races.
-/

namespace Verif.Parallel
open Verif.Spec
open Verif.Neighbor (Vec Csr)

section
variable {K : Type} [Field K] [LinearOrder K]

/-! ## Neighbour list -/

theorem half_disjoint (cutoff tol : K) (trans : List (Vec K)) (pos : ℕ → Vec K) (n : ℕ) :
    Disjoint n (halfBody cutoff tol trans pos) (fun i l => l = i) (fun _ => False) where
  loc i _ := local_pushAll i _
  dis i _ j _ hne l hl hl' := hne (hl.symm.trans hl')
  ro i _ l hl := hl.elim

/-- **C121, neighbour list.** Whatever the number of threads and the schedule, the constructor builds the
list of the sequential loop, and it can finish. -/
theorem C121_neighbor (cutoff tol : K) (trans : List (Vec K)) (pos : ℕ → Vec K) (n : ℕ)
    (half : Csr (ℕ × Vec K)) :
    NeighborHalfResult cutoff tol trans pos n half ↔
      half = Neighbor.neighborHalf cutoff tol trans pos n := by
  unfold NeighborHalfResult Neighbor.neighborHalf
  have h := result_iff (half_disjoint cutoff tol trans pos n) (fun _ => [])
    (fun i => if i < n then Neighbor.halfRow cutoff tol trans pos i else [])
    (by
      rintro i hi l rfl
      rw [if_pos hi]
      exact (alone_pushAll l (Neighbor.halfRow cutoff tol trans pos l) fun _ => []).symm)
    (by
      intro l hl
      rw [if_neg fun h => hl l h rfl])
  have e : (List.range n).map (fun i => if i < n then Neighbor.halfRow cutoff tol trans pos i else []) =
      (List.range n).map (Neighbor.halfRow cutoff tol trans pos) := by
    apply List.map_congr_left
    intro i hi
    rw [if_pos (List.mem_range.1 hi)]
  constructor
  · rintro ⟨m, hm, rfl⟩
    rw [(h m).1 hm, e]
  · rintro rfl
    exact ⟨_, (h _).2 rfl, by rw [e]⟩

/-! ## Evaluation -/

theorem prod_disjoint {A : Type} (ps : ℕ → (ℕ → A) × (ℕ → A)) (n : ℕ) :
    Disjoint n (prodBody (K := K) ps) (fun i l => l = .prodE i ∨ l = .prodF i) (fun _ => False) where
  loc i _ := ⟨.inl rfl, .inr rfl, trivial⟩
  dis i _ j _ hne l hl hl' := by
    rcases hl with rfl | rfl <;> rcases hl' with h | h <;> injection h <;> contradiction
  ro i _ l hl := hl.elim

theorem pairs_disjoint {A : Type} [Zero A] (far : ℕ → ℕ × Vec K → Bool)
    (entry : ℕ → ℕ × Vec K → (ℕ → A) → (ℕ → A) → (ℕ → A) → (ℕ → A) → K × Vec K)
    (row : ℕ → List (ℕ × Vec K)) (n : ℕ) :
    Disjoint n (fun i => pairsFrom (far i) (entry i) i (row i) 0) isPair isProd where
  loc i _ := local_pairsFrom _ _ _ _ _
  dis i _ j _ hne l hl hl' := by
    obtain ⟨a, rfl⟩ := hl
    obtain ⟨b, h⟩ := hl'
    injection h
    contradiction
  ro i _ l hl hl' := by
    obtain ⟨a, rfl⟩ := hl'
    obtain ⟨b, h | h⟩ := hl <;> cases h

/-- Memory after the first loop. -/
def mem1 {A : Type} [Zero A] (ps : ℕ → (ℕ → A) × (ℕ → A)) (n : ℕ) : Cell → Val A K
  | .prodE i => .sums (if i < n then (ps i).1 else 0)
  | .prodF i => .sums (if i < n then (ps i).2 else 0)
  | .pair _ _ => .entry 0

theorem result1 {A : Type} [Zero A] (ps : ℕ → (ℕ → A) × (ℕ → A)) (n : ℕ) (m : Cell → Val A K) :
    LoopResult n (prodBody ps) freshMem m ↔ m = mem1 ps n := by
  apply result_iff (prod_disjoint ps n)
  · rintro i hi l (rfl | rfl)
    · simp [mem1, hi, prodBody, alone, store]
    · simp [mem1, hi, prodBody, alone, store]
  · intro l hl
    cases l with
    | prodE i =>
        have : ¬ i < n := fun h => hl i h (.inl rfl)
        simp [mem1, freshMem, this]
    | prodF i =>
        have : ¬ i < n := fun h => hl i h (.inr rfl)
        simp [mem1, freshMem, this]
    | pair i jj => rfl

/-- Memory after the second loop. -/
def mem2 {A : Type} [Zero A] (far : ℕ → ℕ × Vec K → Bool)
    (entry : ℕ → ℕ × Vec K → (ℕ → A) → (ℕ → A) → (ℕ → A) → (ℕ → A) → K × Vec K)
    (row : ℕ → List (ℕ × Vec K)) (n : ℕ) (m : Cell → Val A K) (c : Cell) : Val A K :=
  match c with
  | .pair i jj => if i < n then alone m (pairsFrom (far i) (entry i) i (row i) 0) c else m c
  | _ => m c

theorem result2 {A : Type} [Zero A] (far : ℕ → ℕ × Vec K → Bool)
    (entry : ℕ → ℕ × Vec K → (ℕ → A) → (ℕ → A) → (ℕ → A) → (ℕ → A) → K × Vec K)
    (row : ℕ → List (ℕ × Vec K)) (n : ℕ) (m m' : Cell → Val A K) :
    LoopResult n (fun i => pairsFrom (far i) (entry i) i (row i) 0) m m' ↔
      m' = mem2 far entry row n m := by
  apply result_iff (pairs_disjoint far entry row n)
  · rintro i hi l ⟨jj, rfl⟩
    simp only [mem2, if_pos hi]
  · intro l hl
    cases l with
    | prodE i => rfl
    | prodF i => rfl
    | pair i jj =>
        have : ¬ i < n := fun h => hl i h ⟨jj, rfl⟩
        simp only [mem2, if_neg this]

theorem entries2 {A : Type} [Zero A] (far : ℕ → ℕ × Vec K → Bool)
    (entry : ℕ → ℕ × Vec K → (ℕ → A) → (ℕ → A) → (ℕ → A) → (ℕ → A) → K × Vec K)
    (half : Csr (ℕ × Vec K)) (n : ℕ) (ps : ℕ → (ℕ → A) × (ℕ → A)) (val : ℕ → ℕ × Vec K → K × Vec K)
    (hj : ∀ i < n, ∀ e ∈ half.row i, e.1 < n)
    (hfar : ∀ i e, far i e = true → val i e = 0)
    (hnear : ∀ i e, far i e = false →
      val i e = entry i e (ps i).1 (ps e.1).1 (ps i).2 (ps e.1).2) (i : ℕ) (hi : i < n) :
    entriesOf half (mem2 far entry half.row n (mem1 ps n)) i = (half.row i).map (val i) := by
  apply List.ext_getElem
  · simp [entriesOf]
  · intro k h1 h2
    have hk : k < (half.row i).length := by simpa [entriesOf] using h1
    have h := (alone_pairsFrom (far i) (entry i) i (half.row i) (mem1 ps n) 0).2 k
    rw [Nat.zero_add, List.getElem?_eq_getElem hk] at h
    simp only [entriesOf, List.getElem_map, List.getElem_range, mem2, if_pos hi]
    have hj' := hj i hi _ (List.getElem_mem hk)
    cases hf : far i (half.row i)[k] with
    | true =>
        simp only [hf, if_true] at h
        rw [h]
        simp [mem1, Val.ent, hfar i _ hf]
    | false =>
        simp only [hf, Bool.false_eq_true, if_false] at h
        rw [h]
        simp [mem1, Val.ent, Val.vec, hnear i _ hf, hi, hj']

theorem two_left {A : Type} (i j : ℕ) (f : ℕ → ℕ → A) : two i (f i) (f j) i = f i := by simp [two]

theorem two_right {A : Type} (i j : ℕ) (f : ℕ → ℕ → A) : two i (f i) (f j) j = f j := by
  unfold two
  split
  · next h => rw [h]
  · rfl

theorem collect_congr (cutoff : K) (sqrt : K → K) (n : ℕ) (half : Csr (ℕ × Vec K))
    (v v' : ℕ → List (K × Vec K)) (h : ∀ i < n, v i = v' i) :
    Mlp.collect cutoff sqrt n half v = Mlp.collect cutoff sqrt n half v' := by
  unfold Mlp.collect
  apply List.foldl_ext
  intro s i hi
  rw [h i (List.mem_range.1 hi)]

theorem eval_pair_iff (p : Mlp.PairParams K) (sqrt : K → K) (pot : ℕ → Mlp.Pot K) (types : ℕ → ℕ)
    (n : ℕ) (half : Csr (ℕ × Vec K)) (hj : ∀ i < n, ∀ e ∈ half.row i, e.1 < n) (r : Mlp.Props K) :
    EvalPairResult p sqrt pot types n half r ↔ r = Mlp.evalPair p sqrt pot types n half := by
  have hc : Mlp.collect p.cutoff sqrt n half (entriesOf half
      (mem2 (fun _ e => decide (Mlp.disOf sqrt (-e.2) ≥ p.cutoff))
        (fun i e ei ej fi fj => Mlp.evalEntry p sqrt (two i ei ej) (two i fi fj) types i e)
        half.row n (mem1 (Mlp.prodSums p sqrt pot types n half) n))) =
      Mlp.evalPair p sqrt pot types n half := by
    apply collect_congr
    intro i hi
    apply entries2 _ _ half n _ _ hj _ _ i hi
    · intro i e h
      rw [decide_eq_true_eq] at h
      simp only [Mlp.evalEntry, if_pos h]
      rfl
    · intro i e h
      simp only [Mlp.evalEntry]
      have h1 := two_left i e.1 fun i => (Mlp.prodSums p sqrt pot types n half i).1
      have h2 := two_right i e.1 fun i => (Mlp.prodSums p sqrt pot types n half i).1
      have h3 := two_left i e.1 fun i => (Mlp.prodSums p sqrt pot types n half i).2
      have h4 := two_right i e.1 fun i => (Mlp.prodSums p sqrt pot types n half i).2
      simp only [h1, h2, h3, h4]
  constructor
  · rintro ⟨m1, m2, h1, h2, rfl⟩
    rw [(result1 _ _ _).1 h1] at h2
    rw [← hc, (result2 _ _ half.row n _ m2).1 h2]
  · rintro rfl
    exact ⟨_, _, (result1 _ _ _).2 rfl, (result2 _ _ half.row n _ _).2 rfl, hc.symm⟩

theorem eval_gtinv_iff (p : Mlp.GtParams K) (sqrt : K → K) (pot : ℕ → Mlp.Pot K) (types : ℕ → ℕ)
    (n : ℕ) (half : Csr (ℕ × Vec K)) (hj : ∀ i < n, ∀ e ∈ half.row i, e.1 < n) (r : Mlp.Props K) :
    EvalGtinvResult p sqrt pot types n half r ↔ r = Mlp.evalGtinv p sqrt pot types n half := by
  have hc : Mlp.collect p.cutoff sqrt n half (entriesOf half
      (mem2 (fun _ e => decide (sqrt (Neighbor.r2 (-e.2)) ≥ p.cutoff))
        (fun i e ei ej fi fj => Mlp.gtEvalEntry p sqrt (two i ei ej) (two i fi fj) types i e)
        half.row n (mem1 (Mlp.gtProdSums p sqrt pot types n half) n))) =
      Mlp.evalGtinv p sqrt pot types n half := by
    apply collect_congr
    intro i hi
    apply entries2 _ _ half n _ _ hj _ _ i hi
    · intro i e h
      rw [decide_eq_true_eq] at h
      simp only [Mlp.gtEvalEntry, if_pos h]
      rfl
    · intro i e h
      have h1 := two_left i e.1 fun i => (Mlp.gtProdSums p sqrt pot types n half i).1
      have h2 := two_right i e.1 fun i => (Mlp.gtProdSums p sqrt pot types n half i).1
      have h3 := two_left i e.1 fun i => (Mlp.gtProdSums p sqrt pot types n half i).2
      have h4 := two_right i e.1 fun i => (Mlp.gtProdSums p sqrt pot types n half i).2
      have hs : ∀ dis d fn fnD, Mlp.gtEntryStep p i e.1
          (two i (Mlp.gtProdSums p sqrt pot types n half i).1
            (Mlp.gtProdSums p sqrt pot types n half e.1).1)
          (two i (Mlp.gtProdSums p sqrt pot types n half i).2
            (Mlp.gtProdSums p sqrt pot types n half e.1).2) dis d fn fnD =
          Mlp.gtEntryStep p i e.1 (fun i => (Mlp.gtProdSums p sqrt pot types n half i).1)
            (fun i => (Mlp.gtProdSums p sqrt pot types n half i).2) dis d fn fnD := by
        intro dis d fn fnD
        funext s a
        simp only [Mlp.gtEntryStep, h1, h2, h3, h4]
      simp only [Mlp.gtEvalEntry, hs]
  constructor
  · rintro ⟨m1, m2, h1, h2, rfl⟩
    rw [(result1 _ _ _).1 h1] at h2
    rw [← hc, (result2 _ _ half.row n _ m2).1 h2]
  · rintro rfl
    exact ⟨_, _, (result1 _ _ _).2 rfl, (result2 _ _ half.row n _ _).2 rfl, hc.symm⟩

theorem half_lt (cutoff tol : K) (trans : List (Vec K)) (pos : ℕ → Vec K) (n : ℕ) :
    ∀ i < n, ∀ e ∈ (Neighbor.neighborHalf cutoff tol trans pos n).row i, e.1 < n := by
  intro i hi e he
  rw [Neighbor.neighborHalf, Neighbor.mkCsr_row _ _ (by simpa using hi)] at he
  simp only [List.getElem_map, List.getElem_range, Neighbor.halfRow, List.mem_append,
    List.mem_flatMap, Neighbor.pairEntries, List.mem_filterMap] at he
  rcases he with ⟨j, hj, tr, _, h⟩ | ⟨tr, _, h⟩
  · split at h
    · simp only [Option.some.injEq] at h
      subst h
      exact (List.mem_range.1 hj).trans hi
    · cases h
  · split at h
    · split at h
      · simp only [Option.some.injEq] at h
        subst h
        exact hi
      · cases h
    · cases h

/-- **C121, pair potentials.** Energy, forces and stress of a structure (neighbour list, products,
pairs: three parallel loops) are, for all numbers of threads and all schedules, those of the sequential
evaluation. -/
theorem C121_eval_pair (cutoff tol : K) (trans : List (Vec K)) (pos : ℕ → Vec K) (n : ℕ)
    (p : Mlp.PairParams K) (sqrt : K → K) (pot : ℕ → Mlp.Pot K) (types : ℕ → ℕ) (r : Mlp.Props K) :
    (∃ half, NeighborHalfResult cutoff tol trans pos n half ∧
      EvalPairResult p sqrt pot types n half r) ↔
    r = Mlp.evalPair p sqrt pot types n (Neighbor.neighborHalf cutoff tol trans pos n) := by
  constructor
  · rintro ⟨half, h1, h2⟩
    rw [(C121_neighbor ..).1 h1] at h2
    exact (eval_pair_iff p sqrt pot types n _ (half_lt cutoff tol trans pos n) r).1 h2
  · intro h
    exact ⟨_, (C121_neighbor ..).2 rfl,
      (eval_pair_iff p sqrt pot types n _ (half_lt cutoff tol trans pos n) r).2 h⟩

/-- **C121, potentials with invariants.** -/
theorem C121_eval_gtinv (cutoff tol : K) (trans : List (Vec K)) (pos : ℕ → Vec K) (n : ℕ)
    (p : Mlp.GtParams K) (sqrt : K → K) (pot : ℕ → Mlp.Pot K) (types : ℕ → ℕ) (r : Mlp.Props K) :
    (∃ half, NeighborHalfResult cutoff tol trans pos n half ∧
      EvalGtinvResult p sqrt pot types n half r) ↔
    r = Mlp.evalGtinv p sqrt pot types n (Neighbor.neighborHalf cutoff tol trans pos n) := by
  constructor
  · rintro ⟨half, h1, h2⟩
    rw [(C121_neighbor ..).1 h1] at h2
    exact (eval_gtinv_iff p sqrt pot types n _ (half_lt cutoff tol trans pos n) r).1 h2
  · intro h
    exact ⟨_, (C121_neighbor ..).2 rfl,
      (eval_gtinv_iff p sqrt pot types n _ (half_lt cutoff tol trans pos n) r).2 h⟩

/-- **C121, data races.** In the loops of the neighbour list and of the evaluation two threads never
access the same memory at the same time, one of them writing. -/
theorem C121_no_race (cutoff tol : K) (trans : List (Vec K)) (pos : ℕ → Vec K) (n : ℕ)
    (half : Csr (ℕ × Vec K)) (p : Mlp.PairParams K) (g : Mlp.GtParams K) (sqrt : K → K)
    (pot : ℕ → Mlp.Pot K) (types : ℕ → ℕ) :
    (∀ m, RaceFree n (halfBody cutoff tol trans pos) m) ∧
    (∀ m, RaceFree n (prodBody (K := K) (Mlp.prodSums p sqrt pot types n half)) m) ∧
    (∀ m, RaceFree n (pairBody p sqrt types half) m) ∧
    (∀ m, RaceFree n (prodBody (K := K) (Mlp.gtProdSums g sqrt pot types n half)) m) ∧
    (∀ m, RaceFree n (gtBody g sqrt types half) m) :=
  ⟨raceFree (half_disjoint cutoff tol trans pos n), raceFree (prod_disjoint _ n),
    raceFree (pairs_disjoint (fun _ e => decide (Mlp.disOf sqrt (-e.2) ≥ p.cutoff))
        (fun i e ei ej fi fj => Mlp.evalEntry p sqrt (two i ei ej) (two i fi fj) types i e) half.row n),
    raceFree (prod_disjoint _ n),
    raceFree (pairs_disjoint (fun _ e => decide (sqrt (Neighbor.r2 (-e.2)) ≥ g.cutoff))
        (fun i e ei ej fi fj => Mlp.gtEvalEntry g sqrt (two i ei ej) (two i fi fj) types i e) half.row n)⟩

end

end Verif.Parallel
