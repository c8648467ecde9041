import Verif.Model.ChargeFeat
import Verif.Spec.ChargeFeat
import Mathlib.Algebra.BigOperators.Ring.List
import Mathlib.Algebra.BigOperators.Ring.Finset
import Mathlib.Algebra.BigOperators.Group.Finset.Sigma
import Mathlib.Tactic.Ring
import Mathlib.Tactic.Linarith
import Mathlib.Tactic.NormNum

/-!
# C134: features of charges
-/

namespace Verif.ChargeFeat
open Verif.Spec.ChargeFeat

/-- Flow of the feature `f` to a neighbour by a list of updates. -/
noncomputable def part (f : ℕ) (l : List (ℕ × ℝ)) : ℝ := ((l.filter fun u => u.1 = f).map (·.2)).sum

/-- Flow of the feature `f` to a neighbour. -/
noncomputable def toNb (cutoff : ℝ) (updates : ℕ → Nb → List (ℕ × ℝ)) (f i : ℕ) (b : Nb) : ℝ :=
  if b.dis < cutoff then part f (updates i b) else 0

theorem scatter_eq (a1 a2 : ℕ) (l : List (ℕ × ℝ)) (x : ℕ → ℕ → ℝ) (a f : ℕ) :
    scatter a1 a2 l x a f = x a f + (if a = a1 then part f l else 0) - (if a = a2 then part f l else 0) := by
  induction l generalizing x with
  | nil => simp [scatter, part]
  | cons u l ih =>
    have : scatter a1 a2 (u :: l) x = scatter a1 a2 l (upd (upd x a1 u.1 u.2) a2 u.1 (-u.2)) := rfl
    rw [this, ih]
    by_cases hf : u.1 = f
    · have hp : part f (u :: l) = u.2 + part f l := by simp [part, hf]
      rw [hp]
      by_cases h1 : a = a1 <;> by_cases h2 : a = a2 <;> simp [upd, h1, h2, hf] <;> (try split) <;> (try ring) <;> simp_all <;> ring
    · have hp : part f (u :: l) = part f l := by simp [part, hf]
      have hf' : ¬ f = u.1 := fun h => hf h.symm
      rw [hp]
      simp [upd, hf']

theorem inner_eq (cutoff : ℝ) (updates : ℕ → Nb → List (ℕ × ℝ)) (i : ℕ) (l : List Nb) (x : ℕ → ℕ → ℝ) (a f : ℕ) :
    (l.foldl (fun x b => if b.dis < cutoff then scatter i b.atom2 (updates i b) x else x) x) a f =
      x a f + (l.map fun b => (if a = i then toNb cutoff updates f i b else 0) -
        (if a = b.atom2 then toNb cutoff updates f i b else 0)).sum := by
  induction l generalizing x with
  | nil => simp
  | cons b l ih =>
    rw [List.foldl_cons, ih, List.map_cons, List.sum_cons]
    by_cases h : b.dis < cutoff
    · rw [if_pos h, scatter_eq]
      simp only [toNb, h, if_true]
      ring
    · simp only [toNb, h, if_false, ite_self]
      ring

theorem loops_eq (n : ℕ) (cutoff : ℝ) (nb : ℕ → List Nb) (updates : ℕ → Nb → List (ℕ × ℝ)) (a f : ℕ) :
    loops n cutoff nb updates a f = ∑ i ∈ Finset.range n, ((nb i).map fun b => (if a = i then toNb cutoff updates f i b else 0) -
        (if a = b.atom2 then toNb cutoff updates f i b else 0)).sum := by
  unfold loops
  induction n with
  | zero => simp
  | succ n ih => rw [List.range_succ, List.foldl_append, Finset.sum_range_succ, ← ih, List.foldl_cons, List.foldl_nil, inner_eq]

theorem sum_map_sub' {N : Type} (l : List N) (g h : N → ℝ) : (l.map fun b => g b - h b).sum = (l.map g).sum - (l.map h).sum := by
  induction l with
  | nil => simp
  | cons b l ih => simp only [List.map_cons, List.sum_cons, ih]; ring

theorem sum_ite_flow {N : Type} (atom2 : N → ℕ) (l : List N) (q : N → ℝ) (a : ℕ) :
    (l.map fun b => if a = atom2 b then q b else 0).sum = ((l.filter fun b => atom2 b = a).map q).sum := by
  induction l with
  | nil => rfl
  | cons b l ih =>
    rw [List.map_cons, List.sum_cons, ih]
    by_cases h : atom2 b = a
    · simp [h]
    · have h' : ¬ a = atom2 b := fun e => h e.symm
      simp [h, h']

theorem sum_flow {N : Type} (atom2 : N → ℕ) (n : ℕ) (l : List N) (q : N → ℝ) (hl : ∀ b ∈ l, atom2 b < n) :
    ∑ j ∈ Finset.range n, ((l.filter fun b => atom2 b = j).map q).sum = (l.map q).sum := by
  induction l with
  | nil => simp
  | cons b l ih =>
    rw [List.map_cons, List.sum_cons, ← ih fun c hc => hl c (List.mem_cons_of_mem _ hc)]
    have : ∀ j, (((b :: l).filter fun b => atom2 b = j).map q).sum =
        (if j = atom2 b then q b else 0) + ((l.filter fun b => atom2 b = j).map q).sum := by
      intro j
      by_cases h : atom2 b = j
      · simp [h]
      · have h' : ¬ j = atom2 b := fun e => h e.symm
        simp [h, h']
    simp only [this, Finset.sum_add_distrib]
    rw [Finset.sum_ite_eq' (Finset.range n) (atom2 b) fun _ => q b, if_pos (Finset.mem_range.2 (hl b (by simp)))]

theorem loops_net (n : ℕ) (cutoff : ℝ) (nb : ℕ → List Nb) (updates : ℕ → Nb → List (ℕ × ℝ)) (h2 : ∀ i < n, ∀ b ∈ nb i, b.atom2 < n)
    (a f : ℕ) (ha : a < n) :
    loops n cutoff nb updates a f = ∑ j ∈ Finset.range n, net Nb.atom2 nb (toNb cutoff updates f) a j := by
  rw [loops_eq]
  simp only [sum_map_sub', Finset.sum_sub_distrib, net, flow]
  congr 1
  · rw [sum_flow Nb.atom2 n (nb a) _ (h2 a ha)]
    rw [Finset.sum_eq_single a]
    · simp
    · intro i _ hi
      have hne : ¬ a = i := fun h => hi h.symm
      simp only [if_neg hne]
      simp
    · intro h
      exact absurd (Finset.mem_range.2 ha) h
  · exact Finset.sum_congr rfl fun i _ => sum_ite_flow Nb.atom2 (nb i) _ a

theorem net_anti {N : Type} (atom2 : N → ℕ) (nb : ℕ → List N) (q : ℕ → N → ℝ) (i j : ℕ) : net atom2 nb q i j = -net atom2 nb q j i := by
  unfold net
  ring

theorem net_sum {N : Type} (atom2 : N → ℕ) (nb : ℕ → List N) (q : ℕ → N → ℝ) (n : ℕ) :
    ∑ i ∈ Finset.range n, ∑ j ∈ Finset.range n, net atom2 nb q i j = 0 := by
  have : ∑ i ∈ Finset.range n, ∑ j ∈ Finset.range n, net atom2 nb q i j =
      -∑ i ∈ Finset.range n, ∑ j ∈ Finset.range n, net atom2 nb q i j := by
    conv_lhs => rw [Finset.sum_comm]
    rw [← Finset.sum_neg_distrib]
    refine Finset.sum_congr rfl fun i _ => ?_
    rw [← Finset.sum_neg_distrib]
    exact Finset.sum_congr rfl fun j _ => net_anti atom2 nb q j i
  linarith

theorem part_append (f : ℕ) (l m : List (ℕ × ℝ)) : part f (l ++ m) = part f l + part f m := by
  simp [part]

theorem part_flatMap {E : Type} (f : ℕ) (l : List E) (g : E → List (ℕ × ℝ)) : part f (l.flatMap g) = (l.map fun e => part f (g e)).sum := by
  induction l with
  | nil => simp [part]
  | cons e l ih => rw [List.flatMap_cons, part_append, ih, List.map_cons, List.sum_cons]

theorem part_map {V : Type} (f : ℕ) (l : List (ℕ × V)) (g : V → ℝ) :
    part f (l.map fun p => (p.1, g p.2)) = ((l.filter fun p => p.1 = f).map fun p => g p.2).sum := by
  induction l with
  | nil => rfl
  | cons p l ih =>
    by_cases h : p.1 = f
    · simp [part, h] at ih ⊢
      exact ih
    · simp [part, h] at ih ⊢
      exact ih

/-- **C134 (pair invariants).**  A feature of an atom is the sum of antisymmetric net flows to all atoms; a neighbour within
the cutoff receives half the product of radial function and sum of products, for the pairs of types of the two atoms. -/
theorem C134_pair (n : ℕ) (cutoff : ℝ) (nb : ℕ → List Nb) (types : ℕ → ℕ) (typeComb : ℕ → ℕ → List ℕ) (ntcMap : List Ntc)
    (fn : ℝ → ℕ → ℝ) (prodSum : ℕ → ℕ → List (ℕ × ℝ)) (h2 : ∀ i < n, ∀ b ∈ nb i, b.atom2 < n) (f : ℕ) :
    ∃ Q : ℕ → ℕ → ℝ, (∀ i j, Q i j = -Q j i) ∧
      (∀ a < n, chargePair n cutoff nb types typeComb ntcMap fn prodSum a f = ∑ j ∈ Finset.range n, Q a j) ∧
      Q = net Nb.atom2 nb (fun i b => if b.dis < cutoff then
        (ntcMap.zipIdx.map fun e => if (typeComb e.1.tc (types i)).head? = some b.type2 then
          1 / 2 * (((prodSum i e.2).filter fun p => p.1 = f).map fun p => fn b.dis e.1.n * p.2).sum else 0).sum else 0) := by
  refine ⟨_, fun i j => net_anti _ _ _ i j, fun a ha => loops_net n cutoff nb _ h2 a f ha, ?_⟩
  refine congrArg (net Nb.atom2 nb) ?_
  funext i b
  unfold toNb pairUpdates
  split
  · rw [part_flatMap]
    congr 1
    refine List.map_congr_left fun e _ => ?_
    simp only [active, beq_iff_eq, List.head?_eq_getElem?]
    split
    · rw [part_map f _ fun v => 0.5 * (fn b.dis e.1.n * v), ← List.sum_map_mul_left]
      norm_num
    · simp [part]
  · rfl

/-- **C134 (polynomial invariants).**  The same with the spherical harmonics; functions with `m ≠ 0` stand for two. -/
theorem C134_gtinv (n : ℕ) (cutoff : ℝ) (nb : ℕ → List Nb) (types : ℕ → ℕ) (typeComb : ℕ → ℕ → List ℕ) (nlmtcMap : List Nlmtc)
    (fn : ℝ → ℕ → ℝ) (ylm : (Fin 3 → ℝ) → ℕ → ℂ) (prodSum : ℕ → ℕ → List (ℕ × ℂ)) (h2 : ∀ i < n, ∀ b ∈ nb i, b.atom2 < n) (f : ℕ) :
    ∃ Q : ℕ → ℕ → ℝ, (∀ i j, Q i j = -Q j i) ∧
      (∀ a < n, chargeGt n cutoff nb types typeComb nlmtcMap fn ylm prodSum a f = ∑ j ∈ Finset.range n, Q a j) ∧
      Q = net Nb.atom2 nb (fun i b => if b.dis < cutoff then
        (nlmtcMap.map fun e => if (typeComb e.tc (types i)).head? = some b.type2 then
          (if e.m = 0 then 1 / 2 else 1) * (((prodSum i e.headKey).filter fun p => p.1 = f).map fun p =>
            (fn b.dis e.n * ylm b.diff e.ylmkey * p.2 : ℂ).re).sum else 0).sum else 0) := by
  refine ⟨_, fun i j => net_anti _ _ _ i j, fun a ha => loops_net n cutoff nb _ h2 a f ha, ?_⟩
  refine congrArg (net Nb.atom2 nb) ?_
  funext i b
  unfold toNb gtUpdates
  split
  · rw [part_flatMap]
    congr 1
    refine List.map_congr_left fun e _ => ?_
    simp only [active, beq_iff_eq, List.head?_eq_getElem?]
    split
    · by_cases hm : e.m = 0
      · rw [if_pos hm, if_pos hm, part_map f _ fun v => 0.5 * prodReal _ v, ← List.sum_map_mul_left]
        simp only [prodReal, Complex.mul_re]
        norm_num
      · rw [if_neg hm, if_neg hm, part_map f _ fun v => prodReal _ v, one_mul]
        simp only [prodReal, ← Complex.mul_re]
    · simp [part]
  · rfl

/-- **C134 (neutrality).**  For every feature the values of all atoms add up to zero, so every linear model of charges gives a
neutral structure. -/
theorem C134_neutral (n : ℕ) (cutoff : ℝ) (nb : ℕ → List Nb) (types : ℕ → ℕ) (typeComb : ℕ → ℕ → List ℕ) (ntcMap : List Ntc)
    (nlmtcMap : List Nlmtc) (fn : ℝ → ℕ → ℝ) (ylm : (Fin 3 → ℝ) → ℕ → ℂ) (prodSum : ℕ → ℕ → List (ℕ × ℝ))
    (prodSumC : ℕ → ℕ → List (ℕ × ℂ)) (h2 : ∀ i < n, ∀ b ∈ nb i, b.atom2 < n) (nF : ℕ) (c : ℕ → ℝ) :
    ∑ a ∈ Finset.range n, ∑ f ∈ Finset.range nF, c f * chargePair n cutoff nb types typeComb ntcMap fn prodSum a f = 0 ∧
    ∑ a ∈ Finset.range n, ∑ f ∈ Finset.range nF, c f * chargeGt n cutoff nb types typeComb nlmtcMap fn ylm prodSumC a f = 0 := by
  have key : ∀ updates, ∑ a ∈ Finset.range n, ∑ f ∈ Finset.range nF, c f * loops n cutoff nb updates a f = 0 := by
    intro updates
    rw [Finset.sum_comm]
    refine Finset.sum_eq_zero fun f _ => ?_
    rw [← Finset.mul_sum, Finset.sum_congr rfl fun a ha => loops_net n cutoff nb updates h2 a f (Finset.mem_range.1 ha), net_sum,
      mul_zero]
  exact ⟨key _, key _⟩

theorem begin_foldl (sizes : List ℕ) (l : List ℕ) (k : ℕ) :
    sizes.foldl (fun s n => (s.1 ++ [s.2], s.2 + n)) (l, k) =
      (l ++ (List.range sizes.length).map (fun i => k + rowsBefore sizes i), k + sizes.sum) := by
  induction sizes generalizing l k with
  | nil => simp
  | cons n sizes ih =>
    rw [List.foldl_cons, ih, List.length_cons, List.range_succ_eq_map, List.map_cons, List.map_map, List.append_assoc]
    refine Prod.ext ?_ ?_
    · simp [rowsBefore, Function.comp_def, add_assoc]
    · simp [add_assoc]

/-- **C134 (rows).**  The rows of a structure begin after those of all structures before it. -/
theorem C134_begin (sizes : List ℕ) :
    beginIdx sizes = ((List.range sizes.length).map (rowsBefore sizes), sizes.sum) := by
  unfold beginIdx
  rw [begin_foldl]
  simp

theorem fill_inner {R : Type} (l : List R) (s k : ℕ) (x : ℕ → Option R) (i : ℕ) :
    (l.zipIdx k).foldl (fun x r => fun i => if i = s + r.2 then some r.1 else x i) x i =
      if s + k ≤ i ∧ i < s + k + l.length then l[i - (s + k)]? else x i := by
  induction l generalizing k x with
  | nil => simp
  | cons r l ih =>
    rw [List.zipIdx_cons, List.foldl_cons, ih]
    by_cases h1 : i = s + k
    · subst h1
      simp
    · by_cases h2 : s + k ≤ i ∧ i < s + k + (r :: l).length
      · have h3 : s + (k + 1) ≤ i ∧ i < s + (k + 1) + l.length := by simp at h2; omega
        rw [if_pos h2, if_pos h3, show i - (s + k) = i - (s + (k + 1)) + 1 by omega, List.getElem?_cons_succ]
      · have h3 : ¬ (s + (k + 1) ≤ i ∧ i < s + (k + 1) + l.length) := by simp at h2; omega
        rw [if_neg h2, if_neg h3, if_neg h1]

/-- **C134 (matrix).**  Row by row the matrix of all structures is the list of the rows of all structures in order; every row is
written. -/
theorem C134_rows {R : Type} (xcs : List (List R)) (i : ℕ) : fillRows xcs i = xcs.flatten[i]? := by
  unfold fillRows
  rw [C134_begin]
  have key : ∀ m, m ≤ xcs.length → ((xcs.take m).zipIdx.foldl (fun x e => e.1.zipIdx.foldl (fun x r => fun i =>
      if i = ((List.range (xcs.map List.length).length).map (rowsBefore (xcs.map List.length))).getD e.2 0 + r.2 then some r.1 else x i) x)
      (fun _ => none)) = fun i => (xcs.take m).flatten[i]? := by
    intro m
    induction m with
    | zero => intro _; simp
    | succ m ih =>
      intro hm
      have hm' : m < xcs.length := by omega
      rw [List.take_succ_eq_append_getElem hm', List.zipIdx_append, List.foldl_append, ih (by omega)]
      funext i
      have hb : ((List.range (xcs.map List.length).length).map (rowsBefore (xcs.map List.length))).getD m 0 =
          (xcs.take m).flatten.length := by
        simp [hm', rowsBefore, List.length_flatten, List.map_take]
      simp only [List.length_take, Nat.min_eq_left hm'.le, zero_add, List.zipIdx_cons, List.zipIdx_nil, List.foldl_cons, List.foldl_nil, hb]
      rw [fill_inner, List.flatten_append, List.flatten_singleton, add_zero]
      split
      · rename_i h
        rw [List.getElem?_append_right h.1]
      · rename_i h
        by_cases h1 : i < (xcs.take m).flatten.length
        · rw [List.getElem?_append_left h1]
        · rw [List.getElem?_eq_none (by omega), List.getElem?_eq_none (by rw [List.length_append]; omega)]
  have := congrFun (key xcs.length le_rfl) i
  rw [List.take_length] at this
  exact this

theorem dataset_inner (sizes : List ℕ) (k : ℕ) (n : ℕ) :
    (List.range k).foldl (fun (t : ℕ × ℕ) _ => (t.1 + sizes.getD t.2 0, t.2 + 1)) (rowsBefore sizes n, n) =
      (rowsBefore sizes (n + k), n + k) := by
  induction k with
  | zero => rfl
  | succ k ih =>
    rw [List.range_succ, List.foldl_append, ih, List.foldl_cons, List.foldl_nil]
    refine Prod.ext ?_ rfl
    show rowsBefore sizes (n + k) + sizes.getD (n + k) 0 = rowsBefore sizes (n + (k + 1))
    unfold rowsBefore
    rw [← add_assoc, List.take_add_one]
    by_cases h : n + k < sizes.length
    · simp [h]
    · simp [Nat.le_of_not_lt h]

/-- **C134 (data sets).**  The rows of a data set begin after those of all structures of the data sets before it. -/
theorem C134_datasets (sizes nSt : List ℕ) :
    beginDataset sizes nSt = (List.range nSt.length).map fun i => rowsBefore sizes (rowsBefore nSt i) := by
  have key : ∀ (l : List ℕ) (n : ℕ), (nSt.foldl (fun (s : List ℕ × ℕ × ℕ) k =>
      let r := (List.range k).foldl (fun (t : ℕ × ℕ) _ => (t.1 + sizes.getD t.2 0, t.2 + 1)) s.2
      (s.1 ++ [s.2.1], r)) (l, rowsBefore sizes n, n)).1 =
      l ++ (List.range nSt.length).map fun i => rowsBefore sizes (n + rowsBefore nSt i) := by
    induction nSt with
    | nil => intro l n; simp
    | cons k nSt ih =>
      intro l n
      rw [List.foldl_cons]
      dsimp only
      rw [dataset_inner, ih, List.length_cons, List.range_succ_eq_map, List.map_cons, List.map_map, List.append_assoc]
      simp [rowsBefore, Function.comp_def, add_assoc]
  have := key [] 0
  simp only [zero_add, List.nil_append] at this
  exact this

/-- Two atoms that are neighbours of each other, of different types and with different sums: features do not vanish. -/
example : ∃ (nb : ℕ → List Nb) (prodSum : ℕ → ℕ → List (ℕ × ℝ)), (∀ i < 2, ∀ b ∈ nb i, b.atom2 < 2) ∧
    chargePair 2 6 nb id (fun _ t => [1 - t]) [⟨0, 0⟩] (fun _ _ => 1) prodSum 0 0 = 1 := by
  refine ⟨fun i => [⟨1 - i, 2, 0, 1 - i⟩], fun i _ => [(0, if i = 0 then 3 else 1)], ?_, ?_⟩
  · intro i hi b hb
    simp at hb
    subst hb
    show 1 - i < 2
    omega
  · simp [chargePair, loops, List.range_succ, pairUpdates, active, scatter]
    norm_num [upd]

end Verif.ChargeFeat
