import Verif.Model.MlpEval
import Verif.Lemmas.MlpPot
import Verif.Lemmas.MlpPoly
import Verif.Props.Neighbor
import Mathlib.Tactic.FieldSimp
import Mathlib.Tactic.FinCases
import Mathlib.Tactic.LinearCombination
import Mathlib.Algebra.CharZero.Defs
import Mathlib.Algebra.Order.Field.Basic

namespace Verif.Mlp
open Verif.Neighbor (Vec Csr r2)

/-! ## Folds seen through an additive projection -/

theorem foldl_proj {S E M : Type} [AddCommMonoid M] (step : S → E → S) (f : S → M) (g : E → M)
    (l : List E) (h : ∀ s, ∀ e ∈ l, f (step s e) = f s + g e) :
    ∀ s, f (l.foldl step s) = f s + (l.map g).sum := by
  induction l with
  | nil => intro s; simp
  | cons e l ih =>
    intro s
    rw [List.foldl_cons, ih (fun s x hx => h s x (by simp [hx])), h s e (by simp), List.map_cons,
      List.sum_cons, add_assoc]

theorem addAt_apply {A : Type} [AddZeroClass A] (v : ℕ → A) (i : ℕ) (x : A) (k : ℕ) :
    addAt v i x k = v k + if k = i then x else 0 := by
  unfold addAt put
  split_ifs with h
  · rw [h]
  · rw [add_zero]

theorem sum_range_delta {M : Type} [AddCommMonoid M] (n i : ℕ) (x : M) (hi : i < n) :
    ((List.range n).map fun k => if k = i then x else 0).sum = x := by
  induction n with
  | zero => omega
  | succ n ih =>
    rw [List.range_succ, List.map_append, List.sum_append]
    by_cases h : i = n
    · subst h
      have : ((List.range i).map fun k => if k = i then x else 0).sum = 0 := by
        apply List.sum_eq_zero
        intro y hy
        rw [List.mem_map] at hy
        obtain ⟨k, hk, rfl⟩ := hy
        rw [List.mem_range] at hk
        rw [if_neg (by omega)]
      simp [this]
    · rw [ih (by omega)]
      simp [Ne.symm h]

theorem sum_map_comm {α β M : Type} [AddCommMonoid M] (l : List α) (m : List β) (f : α → β → M) :
    (l.map fun a => (m.map fun b => f a b).sum).sum =
      (m.map fun b => (l.map fun a => f a b).sum).sum := by
  induction l with
  | nil => simp
  | cons a l ih => simp [ih, List.sum_map_add]

theorem sum_map_mul_left' {α : Type} {K : Type} [Semiring K] (l : List α) (c : K) (f : α → K) :
    (l.map fun a => c * f a).sum = c * (l.map f).sum := by
  rw [List.sum_map_mul_left]

theorem sum_map_neg' {α : Type} {K : Type} [Ring K] (l : List α) (f : α → K) :
    (l.map fun a => -f a).sum = -(l.map f).sum := by
  induction l with
  | nil => simp
  | cons a l ih => simp only [List.map_cons, List.sum_cons, ih]; abel

theorem sum_map_congr {α M : Type} [AddCommMonoid M] (l : List α) (f g : α → M)
    (h : ∀ a ∈ l, f a = g a) : (l.map f).sum = (l.map g).sum := by
  rw [List.map_congr_left h]

/-! ## Half lists and complete lists -/

/-- Sums over the completed rows of a half list. -/
theorem half_sum {V M : Type} [InvolutiveNeg V] [AddCommMonoid M] (rows : List (List (ℕ × V)))
    (h : ∀ r ∈ rows, ∀ e ∈ r, e.1 < rows.length) (G : ℕ → ℕ → V → M) :
    ((List.range rows.length).map fun i =>
      ((Spec.completeRow rows i).map fun e => G i e.1 e.2).sum).sum =
    ((List.range rows.length).map fun i =>
      ((rows[i]?.getD []).map fun e => G i e.1 e.2 + G e.1 i (-e.2)).sum).sum := by
  unfold Spec.completeRow
  simp only [List.map_append, List.sum_append, List.sum_map_add]
  congr 1
  simp only [sum_flatMap]
  rw [sum_map_comm]
  refine sum_map_congr _ _ _ ?_
  intro m hm
  rw [List.mem_range] at hm
  have hr : rows[m]?.getD [] ∈ rows := by
    rw [List.getElem?_eq_getElem hm]; exact List.getElem_mem hm
  have h2 : ∀ e ∈ rows[m]?.getD [], e.1 < rows.length := h _ hr
  clear hr
  have h3 : ∀ i, (((rows[m]?.getD []).filterMap fun e => if e.1 = i then some (m, -e.2) else none).map
      fun e => G i e.1 e.2).sum =
      ((rows[m]?.getD []).map fun e => if i = e.1 then G e.1 m (-e.2) else 0).sum := by
    intro i
    generalize rows[m]?.getD [] = r
    induction r with
    | nil => rfl
    | cons e r ih =>
      rw [List.filterMap_cons]
      by_cases he : e.1 = i
      · subst he; simp [ih]
      · simp [he, Ne.symm he, ih]
  simp only [h3]
  rw [sum_map_comm]
  refine sum_map_congr _ _ _ ?_
  intro e he
  exact sum_range_delta _ _ _ (h2 e he)

/-! ## Responses of the local features -/

variable {K : Type} [Field K] [LinearOrder K]

/-- Sum over the neighbours within the cutoff of the weights of one local feature. -/
def resp {M : Type} [AddCommMonoid M] (p : PairParams K) (sqrt : K → K) (types : ℕ → ℕ) (i : ℕ)
    (row : List (ℕ × Vec K)) (ρ : ℕ × Vec K → ℕ → M) (l : ℕ) : M :=
  (row.map fun e =>
    if p.cutoff ≤ disOf sqrt e.2 then 0
    else ((p.attrs (types i)).map fun a =>
      if p.maps.typePairs (types i) (types e.1) = a.tp then (if l = a.iloc then ρ e a.nId else 0)
      else 0).sum).sum

theorem resp_perm {M : Type} [AddCommMonoid M] (p : PairParams K) (sqrt : K → K) (types : ℕ → ℕ)
    (i : ℕ) {row row' : List (ℕ × Vec K)} (h : row.Perm row') (ρ : ℕ × Vec K → ℕ → M) (l : ℕ) :
    resp p sqrt types i row ρ l = resp p sqrt types i row' ρ l := (h.map _).sum_eq

/-- Weight of the value. -/
def wE (p : PairParams K) (sqrt : K → K) (types : ℕ → ℕ) (i : ℕ) (e : ℕ × Vec K) (k : ℕ) : K :=
  fnAt p.rad (p.maps.tpN.getD (p.maps.typePairs (types i) (types e.1)) []) (disOf sqrt e.2) k

/-- Derivative of the radial function times the unit vector. -/
def wV (p : PairParams K) (sqrt : K → K) (types : ℕ → ℕ) (i : ℕ) (e : ℕ × Vec K) (k : ℕ) : Vec K :=
  fun x => fnAt p.radD (p.maps.tpN.getD (p.maps.typePairs (types i) (types e.1)) [])
    (disOf sqrt e.2) k * e.2 x / disOf sqrt e.2

/-- Weight of the derivative with respect to the position of atom `q`. -/
def wF (p : PairParams K) (sqrt : K → K) (types : ℕ → ℕ) (q : ℕ) (x : Fin 3) (i : ℕ)
    (e : ℕ × Vec K) (k : ℕ) : K :=
  (if q = i then wV p sqrt types i e k x else 0) + (if q = e.1 then -(wV p sqrt types i e k x) else 0)

/-- Weight of the derivative with respect to the strain. -/
def wS (p : PairParams K) (sqrt : K → K) (types : ℕ → ℕ) (c : Fin 6) (i : ℕ) (e : ℕ × Vec K)
    (k : ℕ) : K :=
  -six (wV p sqrt types i e k) e.2 c

theorem localPair_eq (p : PairParams K) (sqrt : K → K) (types : ℕ → ℕ) (i : ℕ)
    (row : List (ℕ × Vec K)) (l : ℕ) :
    localPair p sqrt types i row l = resp p sqrt types i row (wE p sqrt types i) l := by
  unfold localPair resp
  rw [foldl_proj (f := fun dn : ℕ → K => dn l) (g := fun e => if p.cutoff ≤ disOf sqrt e.2 then 0
    else ((p.attrs (types i)).map fun a =>
      if p.maps.typePairs (types i) (types e.1) = a.tp then
        (if l = a.iloc then wE p sqrt types i e a.nId else 0) else 0).sum)]
  · simp
  · intro s e _
    by_cases h : p.cutoff ≤ disOf sqrt e.2
    · simp [h]
    · simp only [ge_iff_le, h, if_false]
      rw [foldl_proj (f := fun dn : ℕ → K => dn l)]
      intro s a _
      by_cases ht : p.maps.typePairs (types i) (types e.1) = a.tp
      · rw [if_pos ht, if_pos ht, addAt_apply]; rfl
      · rw [if_neg ht, if_neg ht, add_zero]

/-- Projection of the loops of `pair_d`. -/
theorem localPairD_proj {M : Type} [AddCommMonoid M] (p : PairParams K) (sqrt : K → K)
    (types : ℕ → ℕ) (i : ℕ) (row : List (ℕ × Vec K)) (l : ℕ) (f : PairDeriv K → M)
    (ρ : ℕ × Vec K → ℕ → M) (h0 : f ⟨fun _ => 0, fun _ _ => 0, fun _ => 0⟩ = 0)
    (h : ∀ (s : PairDeriv K) (e : ℕ × Vec K) (a : NtpAttr),
      f ⟨addAt s.dn a.iloc (wE p sqrt types i e a.nId),
        put (put s.df a.iloc (addAt (s.df a.iloc) i (wV p sqrt types i e a.nId))) a.iloc
          (addAt ((put s.df a.iloc (addAt (s.df a.iloc) i (wV p sqrt types i e a.nId))) a.iloc) e.1
            (-(wV p sqrt types i e a.nId))),
        addAt s.ds a.iloc (-six (wV p sqrt types i e a.nId) e.2)⟩ =
        f s + if l = a.iloc then ρ e a.nId else 0) :
    f (localPairD p sqrt types i row) = resp p sqrt types i row ρ l := by
  unfold localPairD resp
  rw [foldl_proj (f := f) (g := fun e => if p.cutoff ≤ disOf sqrt e.2 then 0
    else ((p.attrs (types i)).map fun a =>
      if p.maps.typePairs (types i) (types e.1) = a.tp then (if l = a.iloc then ρ e a.nId else 0)
      else 0).sum)]
  · rw [h0, zero_add]
  · intro s e _
    by_cases hc : p.cutoff ≤ disOf sqrt e.2
    · simp [hc]
    · simp only [ge_iff_le, hc, if_false]
      rw [foldl_proj (f := f)]
      intro s a _
      by_cases ht : p.maps.typePairs (types i) (types e.1) = a.tp
      · rw [if_neg (not_not.2 ht), if_pos ht]
        exact h s e a
      · rw [if_pos ht, if_neg ht, add_zero]

theorem localPairD_dn (p : PairParams K) (sqrt : K → K) (types : ℕ → ℕ) (i : ℕ)
    (row : List (ℕ × Vec K)) (l : ℕ) :
    (localPairD p sqrt types i row).dn l = resp p sqrt types i row (wE p sqrt types i) l := by
  refine localPairD_proj p sqrt types i row l (fun s => s.dn l) _ rfl ?_
  intro s e a
  exact addAt_apply _ _ _ _

theorem localPairD_df (p : PairParams K) (sqrt : K → K) (types : ℕ → ℕ) (i : ℕ)
    (row : List (ℕ × Vec K)) (l q : ℕ) (x : Fin 3) :
    (localPairD p sqrt types i row).df l q x =
      resp p sqrt types i row (wF p sqrt types q x i) l := by
  refine localPairD_proj p sqrt types i row l (fun s => s.df l q x) _ rfl ?_
  intro s e a
  simp only
  by_cases hl : l = a.iloc
  · subst hl
    simp only [put_same, if_true]
    rw [addAt_apply, addAt_apply]
    simp only [wF, Pi.add_apply]
    have h1 : ∀ (c : Prop) [Decidable c] (v : Vec K), (if c then v else 0) x = if c then v x else 0 := by
      intro c _ v; split_ifs <;> rfl
    rw [h1, h1, add_assoc]
    rfl
  · rw [put_ne _ _ hl, put_ne _ _ hl, if_neg hl, add_zero]

theorem localPairD_ds (p : PairParams K) (sqrt : K → K) (types : ℕ → ℕ) (i : ℕ)
    (row : List (ℕ × Vec K)) (l : ℕ) (c : Fin 6) :
    (localPairD p sqrt types i row).ds l c = resp p sqrt types i row (wS p sqrt types c i) l := by
  refine localPairD_proj p sqrt types i row l (fun s => s.ds l c) _ rfl ?_
  intro s e a
  simp only [addAt_apply, Pi.add_apply]
  congr 1
  split_ifs <;> rfl

theorem disOf_neg (sqrt : K → K) (d : Vec K) : disOf sqrt (-d) = disOf sqrt d := by
  unfold disOf r2
  simp

theorem antpFull_eq (p : PairParams K) (sqrt : K → K) (types : ℕ → ℕ) (i : ℕ)
    (row : List (ℕ × Vec K)) (l : ℕ) :
    antpFull p sqrt types i row l = resp p sqrt types i row (wE p sqrt types i) l := by
  unfold antpFull resp
  rw [foldl_proj (f := fun dn : ℕ → K => dn l) (g := fun e => if p.cutoff ≤ disOf sqrt e.2 then 0
    else ((p.attrs (types i)).map fun a =>
      if p.maps.typePairs (types i) (types e.1) = a.tp then
        (if l = a.iloc then wE p sqrt types i e a.nId else 0) else 0).sum)]
  · simp
  · intro s e _
    simp only [disOf_neg]
    by_cases h : p.cutoff ≤ disOf sqrt e.2
    · simp [h]
    · simp only [ge_iff_le, h, if_false]
      rw [foldl_proj (f := fun dn : ℕ → K => dn l)
        (g := fun a => if l = a.iloc then wE p sqrt types i e a.nId else 0), compact_eq, sum_filter]
      · congr 1
        refine sum_map_congr _ _ _ ?_
        intro a _
        by_cases ht : p.maps.typePairs (types i) (types e.1) = a.tp
        · simp [ht]
        · have : ¬ a.tp = p.maps.typePairs (types i) (types e.1) := fun q => ht q.symm
          simp [ht, this]
      · intro s a _
        rw [addAt_apply]; rfl

/-- Contribution of one entry of a half list for the weights `ρ`. -/
def entrySum (p : PairParams K) (sqrt : K → K) (types : ℕ → ℕ) (ρ : ℕ → ℕ × Vec K → ℕ → K)
    (P : ℕ → ℕ → K) (i : ℕ) (e : ℕ × Vec K) : K :=
  if p.cutoff ≤ disOf sqrt e.2 then 0
  else ((compact (p.attrs (types i)) (p.maps.typePairs (types i) (types e.1))).map fun a =>
    ρ i e a.nId * (P i a.iloc + P e.1 a.jloc)).sum

theorem iloc_lt (p : PairParams K) (t : ℕ) (a : NtpAttr) (ha : a ∈ p.attrs t) :
    a.iloc < (p.attrs t).length := by
  obtain ⟨k, hk⟩ := List.mem_iff_getElem?.1 ha
  have := (locInv p.maps (globalAttrs p.maps)).iloc t k a hk
  rw [this]
  exact (List.getElem?_eq_some_iff.1 hk).1

/-- Sum over a half list with symmetric weights. -/
theorem response_sum (p : PairParams K) (sqrt : K → K) (types : ℕ → ℕ)
    (rows : List (List (ℕ × Vec K))) (h : ∀ r ∈ rows, ∀ e ∈ r, e.1 < rows.length)
    (htypes : ∀ i < rows.length, types i < p.nType) (ρ : ℕ → ℕ × Vec K → ℕ → K)
    (hρ : ∀ i < rows.length, ∀ e : ℕ × Vec K, e.1 < rows.length → ∀ k,
      ρ e.1 (i, -e.2) k = ρ i e k)
    (P : ℕ → ℕ → K) :
    ((List.range rows.length).map fun i =>
      ((rows[i]?.getD []).map (entrySum p sqrt types ρ P i)).sum).sum =
    ((List.range rows.length).map fun i =>
      ((List.range (p.attrs (types i)).length).map fun l =>
        P i l * resp p sqrt types i (Spec.completeRow rows i) (ρ i) l).sum).sum := by
  let G : ℕ → ℕ → Vec K → K := fun i j d =>
    if p.cutoff ≤ disOf sqrt d then 0
    else ((compact (p.attrs (types i)) (p.maps.typePairs (types i) (types j))).map fun a =>
      ρ i (j, d) a.nId * P i a.iloc).sum
  have h1 := half_sum rows h G
  have h2 : ∀ i, ((Spec.completeRow rows i).map fun e => G i e.1 e.2).sum =
      ((List.range (p.attrs (types i)).length).map fun l =>
        P i l * resp p sqrt types i (Spec.completeRow rows i) (ρ i) l).sum := by
    intro i
    unfold resp
    simp only [← sum_map_mul_left']
    rw [sum_map_comm]
    refine sum_map_congr _ _ _ ?_
    intro e _
    simp only [G]
    by_cases hc : p.cutoff ≤ disOf sqrt e.2
    · simp [hc]
    · simp only [hc, if_false]
      simp only [← sum_map_mul_left']
      rw [sum_map_comm, compact_eq, sum_filter]
      refine sum_map_congr _ _ _ ?_
      intro a ha
      by_cases ht : p.maps.typePairs (types i) (types e.1) = a.tp
      · simp only [ht, decide_true, if_true]
        have : ∀ l, P i l * (if l = a.iloc then ρ i e a.nId else 0) =
            if l = a.iloc then ρ i e a.nId * P i a.iloc else 0 := by
          intro l
          split_ifs with hl
          · rw [hl, mul_comm]
          · rw [mul_zero]
        simp only [this]
        rw [sum_range_delta _ _ _ (iloc_lt p _ a ha)]
      · have ht' : ¬ a.tp = p.maps.typePairs (types i) (types e.1) := fun q => ht q.symm
        simp [ht, ht']
  simp only [h2] at h1
  rw [h1]
  refine sum_map_congr _ _ _ ?_
  intro i hi
  rw [List.mem_range] at hi
  refine sum_map_congr _ _ _ ?_
  intro e he
  have hr : rows[i]?.getD [] ∈ rows := by
    rw [List.getElem?_eq_getElem hi]; exact List.getElem_mem hi
  have hj := h _ hr e he
  unfold entrySum
  simp only [G, disOf_neg]
  by_cases hc : p.cutoff ≤ disOf sqrt e.2
  · simp [hc]
  · simp only [hc, if_false]
    have hsym : p.maps.typePairs (types e.1) (types i) = p.maps.typePairs (types i) (types e.1) :=
      typePairs_symm p.nType p.cond (htypes _ hj) (htypes _ hi)
    have hsw : compact (p.attrs (types e.1)) (p.maps.typePairs (types i) (types e.1)) =
        (compact (p.attrs (types i)) (p.maps.typePairs (types i) (types e.1))).map swap :=
      compact_swap_types p.cond (htypes _ hi) (htypes _ hj)
    rw [hsym, hsw, List.map_map, ← List.sum_map_add]
    refine sum_map_congr _ _ _ ?_
    intro a _
    simp only [Function.comp, swap]
    rw [hρ i hi e hj]
    ring

theorem wE_symm (p : PairParams K) (sqrt : K → K) (types : ℕ → ℕ) (i : ℕ) (e : ℕ × Vec K)
    (hi : types i < p.nType) (hj : types e.1 < p.nType) (k : ℕ) :
    wE p sqrt types e.1 (i, -e.2) k = wE p sqrt types i e k := by
  unfold wE
  simp only [disOf_neg]
  rw [show p.maps.typePairs (types e.1) (types i) = p.maps.typePairs (types i) (types e.1) from
    typePairs_symm p.nType p.cond hj hi]

theorem wV_symm (p : PairParams K) (sqrt : K → K) (types : ℕ → ℕ) (i : ℕ) (e : ℕ × Vec K)
    (hi : types i < p.nType) (hj : types e.1 < p.nType) (k : ℕ) (x : Fin 3) :
    wV p sqrt types e.1 (i, -e.2) k x = -wV p sqrt types i e k x := by
  unfold wV
  simp only [disOf_neg]
  rw [show p.maps.typePairs (types e.1) (types i) = p.maps.typePairs (types i) (types e.1) from
    typePairs_symm p.nType p.cond hj hi]
  simp only [Pi.neg_apply]
  ring

theorem wF_symm (p : PairParams K) (sqrt : K → K) (types : ℕ → ℕ) (q : ℕ) (x : Fin 3) (i : ℕ)
    (e : ℕ × Vec K) (hi : types i < p.nType) (hj : types e.1 < p.nType) (k : ℕ) :
    wF p sqrt types q x e.1 (i, -e.2) k = wF p sqrt types q x i e k := by
  unfold wF
  rw [wV_symm p sqrt types i e hi hj]
  rw [add_comm, neg_neg]

theorem six_neg_neg (u v : Fin 3 → K) (c : Fin 6) : six (-u) (-v) c = six u v c := by
  fin_cases c <;> simp [six]

theorem wS_symm (p : PairParams K) (sqrt : K → K) (types : ℕ → ℕ) (c : Fin 6) (i : ℕ)
    (e : ℕ × Vec K) (hi : types i < p.nType) (hj : types e.1 < p.nType) (k : ℕ) :
    wS p sqrt types c e.1 (i, -e.2) k = wS p sqrt types c i e k := by
  unfold wS
  have : wV p sqrt types e.1 (i, -e.2) k = -wV p sqrt types i e k := by
    funext x; exact wV_symm p sqrt types i e hi hj k x
  rw [this, six_neg_neg]

/-! ## Collection -/

theorem zip_map_self {α β : Type} (l : List α) (f : α → β) : l.zip (l.map f) = l.map fun a => (a, f a) := by
  induction l with
  | nil => rfl
  | cons a l ih => simp [ih]

theorem collect_proj {M : Type} [AddCommMonoid M] (cutoff : K) (sqrt : K → K) (n : ℕ)
    (half : Csr (ℕ × Vec K)) (vals : ℕ → List (K × Vec K)) (f : Props K → M)
    (g : ℕ → (ℕ × Vec K) × (K × Vec K) → M) (h0 : f ⟨0, fun _ => 0, 0⟩ = 0)
    (h : ∀ s i e, f (collectStep cutoff sqrt i s e) = f s + g i e) :
    f (collect cutoff sqrt n half vals) =
      ((List.range n).map fun i => (((half.row i).zip (vals i)).map (g i)).sum).sum := by
  unfold collect
  rw [foldl_proj (f := f) (g := fun i => (((half.row i).zip (vals i)).map (g i)).sum), h0, zero_add]
  intro s i _
  rw [foldl_proj (f := f) (g := g i)]
  intro s e _
  exact h s i e

theorem collectStep_energy (cutoff : K) (sqrt : K → K) (s : Props K) (i : ℕ)
    (e : (ℕ × Vec K) × (K × Vec K)) :
    (collectStep cutoff sqrt i s e).energy =
      s.energy + if cutoff ≤ disOf sqrt e.1.2 then 0 else e.2.1 := by
  unfold collectStep
  simp only [disOf_neg, ge_iff_le]
  split_ifs <;> simp

theorem collectStep_forces (cutoff : K) (sqrt : K → K) (q : ℕ) (x : Fin 3) (s : Props K) (i : ℕ)
    (e : (ℕ × Vec K) × (K × Vec K)) :
    (collectStep cutoff sqrt i s e).forces q x =
      s.forces q x + if cutoff ≤ disOf sqrt e.1.2 then 0 else
        (if q = i then e.2.2 x else 0) + (if q = e.1.1 then -(e.2.2 x) else 0) := by
  unfold collectStep
  simp only [disOf_neg, ge_iff_le]
  split_ifs with h1 h2 h3 h3 <;> simp_all [addAt_apply]

theorem collectStep_stress (cutoff : K) (sqrt : K → K) (c : Fin 6) (s : Props K) (i : ℕ)
    (e : (ℕ × Vec K) × (K × Vec K)) :
    (collectStep cutoff sqrt i s e).stress c =
      s.stress c + if cutoff ≤ disOf sqrt e.1.2 then 0 else six (-e.1.2) e.2.2 c := by
  unfold collectStep
  simp only [disOf_neg, ge_iff_le]
  split_ifs <;> simp

/-! ## Entries of the evaluator -/

variable (p : PairParams K) (sqrt : K → K) (types : ℕ → ℕ)

theorem evalEntry_energy (pe pf : ℕ → ℕ → K) (i : ℕ) (e : ℕ × Vec K) :
    (if p.cutoff ≤ disOf sqrt e.2 then 0 else (evalEntry p sqrt pe pf types i e).1) =
      entrySum p sqrt types (wE p sqrt types) pe i e := by
  unfold entrySum
  by_cases hc : p.cutoff ≤ disOf sqrt e.2
  · simp [hc]
  · simp only [evalEntry, disOf_neg, ge_iff_le, hc, if_false]
    rw [foldl_proj (f := fun s : K × K => s.1) (g := fun a => wE p sqrt types i e a.nId *
      (pe i a.iloc + pe e.1 a.jloc))]
    · simp
    · intro s a _; rfl

theorem evalEntry_force (pe pf : ℕ → ℕ → K) (i : ℕ) (e : ℕ × Vec K)
    (hc : ¬ p.cutoff ≤ disOf sqrt e.2) (x : Fin 3) :
    (evalEntry p sqrt pe pf types i e).2 x =
      ((compact (p.attrs (types i)) (p.maps.typePairs (types i) (types e.1))).map fun a =>
        wV p sqrt types i e a.nId x * (pf i a.iloc + pf e.1 a.jloc)).sum := by
  simp only [evalEntry, disOf_neg, ge_iff_le, hc, if_false]
  rw [foldl_proj (f := fun s : K × K => s.2) (g := fun a =>
    fnAt p.radD (p.maps.tpN.getD (p.maps.typePairs (types i) (types e.1)) []) (disOf sqrt e.2) a.nId *
      (pf i a.iloc + pf e.1 a.jloc))]
  · rw [zero_add, Pi.neg_apply, mul_assoc, mul_comm, ← sum_map_mul_left']
    refine sum_map_congr _ _ _ ?_
    intro a _
    unfold wV
    simp only [div_eq_mul_inv]
    ring
  · intro s a _; rfl

theorem evalEntry_forces (pe pf : ℕ → ℕ → K) (q : ℕ) (x : Fin 3) (i : ℕ) (e : ℕ × Vec K) :
    (if p.cutoff ≤ disOf sqrt e.2 then 0 else
        (if q = i then (evalEntry p sqrt pe pf types i e).2 x else 0) +
          (if q = e.1 then -((evalEntry p sqrt pe pf types i e).2 x) else 0)) =
      entrySum p sqrt types (wF p sqrt types q x) pf i e := by
  unfold entrySum
  by_cases hc : p.cutoff ≤ disOf sqrt e.2
  · simp [hc]
  · simp only [hc, if_false]
    rw [evalEntry_force p sqrt types pe pf i e hc x]
    unfold wF
    by_cases h1 : q = i <;> by_cases h2 : q = e.1
    · simp only [if_pos h1, if_pos h2, add_neg_cancel, zero_mul]
      simp
    · simp only [if_pos h1, if_neg h2, add_zero]
    · simp only [if_neg h1, if_pos h2, zero_add, neg_mul]
      rw [sum_map_neg']
    · simp only [if_neg h1, if_neg h2, add_zero, zero_mul]
      simp

theorem six_add_right (u v w : Fin 3 → K) (c : Fin 6) : six u (v + w) c = six u v c + six u w c := by
  fin_cases c <;> simp [six] <;> ring

theorem six_sum (d : Vec K) {α : Type} (l : List α) (f : α → Vec K) (c : Fin 6) :
    six d (fun x => (l.map fun a => f a x).sum) c = (l.map fun a => six d (f a) c).sum := by
  induction l with
  | nil => fin_cases c <;> simp [six]
  | cons a l ih =>
    simp only [List.map_cons, List.sum_cons]
    rw [← ih, ← six_add_right]
    rfl

theorem evalEntry_stress (pe pf : ℕ → ℕ → K) (c : Fin 6) (i : ℕ) (e : ℕ × Vec K) :
    (if p.cutoff ≤ disOf sqrt e.2 then 0 else six (-e.2) (evalEntry p sqrt pe pf types i e).2 c) =
      entrySum p sqrt types (wS p sqrt types c) pf i e := by
  unfold entrySum
  by_cases hc : p.cutoff ≤ disOf sqrt e.2
  · simp [hc]
  · simp only [hc, if_false]
    have : (evalEntry p sqrt pe pf types i e).2 = fun x =>
        ((compact (p.attrs (types i)) (p.maps.typePairs (types i) (types e.1))).map fun a =>
          (fun y => wV p sqrt types i e a.nId y * (pf i a.iloc + pf e.1 a.jloc)) x).sum := by
      funext x
      exact evalEntry_force p sqrt types pe pf i e hc x
    rw [this, six_sum]
    refine sum_map_congr _ _ _ ?_
    intro a _
    unfold wS wV
    fin_cases c <;> simp [six] <;> ring

/-! ## The potential of a pair model -/

variable {p sqrt types}

theorem features_getD {K : Type} [Field K] (L q : ℕ) (hq : q < L) :
    ((List.range L).map fun k => [((1 : K), [k])]).getD q [] = [(1, [q])] := by
  rw [List.getD_eq_getElem?_getD, List.getElem?_map, List.getElem?_range hq]
  rfl

theorem computeFeaturesPair_eq {K : Type} [Field K] (L q : ℕ) (hq : q < L) (antp : ℕ → K) :
    computeFeaturesPair ((List.range L).map fun k => [((1 : K), [k])]) antp q = antp q := by
  set fs := (List.range L).map fun k => [((1 : K), [k])] with hfs
  unfold computeFeaturesPair
  have hlen : (mappedAlgo2 fs (prodMap fs)).length = L := by simp [mappedAlgo2, hfs]
  rw [if_pos (by rw [hlen]; exact hq)]
  have h1 : (mappedAlgo2 fs (prodMap fs)).getD q [] = [(1, keyId (prodMap fs) [q])] := by
    unfold mappedAlgo2
    rw [List.getD_eq_getElem?_getD, List.getElem?_map, hfs, List.getElem?_map,
      List.getElem?_range hq]
    simp [mergeAdd, Dict.get?, Dict.set]
  have h2 : (prodMap fs)[keyId (prodMap fs) [q]]? = some [q] := by
    unfold prodMap
    apply get_keyId
    simp only [List.mem_flatMap, hfs, List.mem_map, List.mem_range]
    exact ⟨[(1, [q])], ⟨q, hq, rfl⟩, (1, [q]), by simp, rfl⟩
  rw [h1]
  simp only [List.getD_eq_getElem?_getD]
  simp [h2]

/-- Sums of a pair potential, for one of the two coefficients. -/
theorem pair_sel {K : Type} [Field K] (L : ℕ) (poly : List (ℕ × List ℕ))
    (hpoly : ∀ t ∈ poly, ∀ q ∈ t.2, q < L) (c : ℕ → K) (a : ℕ → K) (l : ℕ) (hl : l < L)
    (sel : (K × K) →+ K) :
    let fs : List (List (SingleTerm K)) := (List.range L).map fun k => [(1, [k])]
    ((((mkPot false (fun _ => false) some L fs poly c).model).getD l []).map fun t =>
      sel (t.ce, t.cf) * (products (prodFeaturesMap poly) (computeFeaturesPair fs a) t.pfid *
        products (prodDerivMap fs) a t.pid)).sum =
      (poly.map fun t => ((List.range t.2.length).map fun i =>
        if t.2.getD i 0 = l then sel (c t.1 / (t.2.length : K), c t.1) * ((t.2.eraseIdx i).map a).prod
        else 0).sum).sum := by
  intro fs
  have h := pot_sum (A := K) false (fun _ => false) some L fs poly c (computeFeaturesPair fs a) a l hl
    sel
  simp only [Algebra.algebraMap_self, RingHom.id_apply] at h
  rw [h]
  refine sum_map_congr _ _ _ ?_
  intro t ht
  refine sum_map_congr _ _ _ ?_
  intro i hi
  rw [List.mem_range] at hi
  have hq : t.2.getD i 0 ∈ t.2 := by
    rw [List.getD_eq_getElem?_getD, List.getElem?_eq_getElem hi]
    exact List.getElem_mem hi
  have hn : (t.2.map (featureSize fs)).sum = t.2.length := by
    have : ∀ q ∈ t.2, featureSize fs q = 1 := by
      intro q hq
      unfold featureSize
      rw [features_getD L q (hpoly t ht q hq)]
      rfl
    rw [List.map_congr_left this]
    simp
  rw [features_getD L _ (hpoly t ht _ hq)]
  rw [hn]
  have hF : ((t.2.eraseIdx i).map (computeFeaturesPair fs a)) = (t.2.eraseIdx i).map a := by
    apply List.map_congr_left
    intro q hq
    exact computeFeaturesPair_eq L q (hpoly t ht q (List.mem_of_mem_eraseIdx hq)) a
  rw [hF]
  simp

theorem sumPair_eq {K : Type} [Field K] (P : Pot K) (a : ℕ → K) (l : ℕ) :
    (P.sumPair a).1 l = (1 / 2) * ((P.model.getD l []).map fun t => t.ce *
      (products (prodFeaturesMap P.poly) (computeFeaturesPair P.features a) t.pfid *
        products (prodDerivMap P.features) a t.pid)).sum ∧
    (P.sumPair a).2 l = (1 / 2) * ((P.model.getD l []).map fun t => t.cf *
      (products (prodFeaturesMap P.poly) (computeFeaturesPair P.features a) t.pfid *
        products (prodDerivMap P.features) a t.pid)).sum := by
  unfold Pot.sumPair
  simp only [List.getD_eq_getElem?_getD, List.getElem?_map]
  cases h : P.model[l]? with
  | none => simp
  | some ts =>
    simp only [Option.map_some, Option.getD_some]
    constructor
    · rw [foldl_proj (f := fun s : K × K => s.1) (g := fun t => t.ce *
        (products (prodFeaturesMap P.poly) (computeFeaturesPair P.features a) t.pfid *
        products (prodDerivMap P.features) a t.pid)), zero_add]
      intro s t _; rfl
    · rw [foldl_proj (f := fun s : K × K => s.2) (g := fun t => t.cf *
        (products (prodFeaturesMap P.poly) (computeFeaturesPair P.features a) t.pfid *
        products (prodDerivMap P.features) a t.pid)), zero_add]
      intro s t _; rfl

/-- Derivative of the product of the factors of one term: `w` are the derivatives of the factors. -/
def termDeriv {K : Type} [Field K] (a w : ℕ → K) (ids : List ℕ) : K :=
  ((List.range ids.length).map fun i => w (ids.getD i 0) * ((ids.eraseIdx i).map a).prod).sum

theorem termDeriv_self {K : Type} [Field K] (a : ℕ → K) (ids : List ℕ) :
    termDeriv a a ids = (ids.length : K) * (ids.map a).prod := by
  unfold termDeriv
  have : ∀ i ∈ List.range ids.length, a (ids.getD i 0) * ((ids.eraseIdx i).map a).prod =
      (ids.map a).prod := by
    intro i hi
    rw [List.mem_range] at hi
    rw [List.getD_eq_getElem?_getD, List.getElem?_eq_getElem hi, Option.getD_some,
      ← List.prod_cons, ← List.map_cons]
    exact ((List.getElem_cons_eraseIdx_perm hi).map a).prod_eq
  rw [List.map_congr_left this]
  simp

/-- Contractions of the sums of a pair potential made from doubled coefficients. -/
theorem pair_contract [CharZero K] (L : ℕ) (poly : List (ℕ × List ℕ))
    (hpoly : ∀ t ∈ poly, ∀ q ∈ t.2, q < L) (hne : ∀ t ∈ poly, t.2 ≠ []) (c : ℕ → K) (a : ℕ → K) :
    let fs : List (List (SingleTerm K)) := (List.range L).map fun k => [(1, [k])]
    let S := (mkPot false (fun _ => false) some L fs poly (fun i => 2 * c i)).sumPair a
    ((List.range L).map fun l => S.1 l * a l).sum =
      (poly.map fun t => c t.1 * (t.2.map a).prod).sum ∧
    ∀ w : ℕ → K, ((List.range L).map fun l => S.2 l * w l).sum =
      (poly.map fun t => c t.1 * termDeriv a w t.2).sum := by
  intro fs S
  have key : ∀ (sel : (K × K) →+ K) (w : ℕ → K),
      ((List.range L).map fun l => ((1 / 2) *
        ((((mkPot false (fun _ => false) some L fs poly (fun i => 2 * c i)).model).getD l []).map
        fun t => sel (t.ce, t.cf) *
        (products (prodFeaturesMap poly) (computeFeaturesPair fs a) t.pfid *
        products (prodDerivMap fs) a t.pid)).sum) * w l).sum =
      (poly.map fun t => (1 / 2) * sel (2 * c t.1 / (t.2.length : K), 2 * c t.1) *
        termDeriv a w t.2).sum := by
    intro sel w
    have : ∀ l ∈ List.range L, ((1 / 2) *
        ((((mkPot false (fun _ => false) some L fs poly (fun i => 2 * c i)).model).getD l []).map
        fun t => sel (t.ce, t.cf) *
        (products (prodFeaturesMap poly) (computeFeaturesPair fs a) t.pfid *
        products (prodDerivMap fs) a t.pid)).sum) * w l =
        (poly.map fun t => ((List.range t.2.length).map fun i =>
        if l = t.2.getD i 0 then (1 / 2) * sel (2 * c t.1 / (t.2.length : K), 2 * c t.1) *
          (w (t.2.getD i 0) * ((t.2.eraseIdx i).map a).prod) else 0).sum).sum := by
      intro l hl
      rw [List.mem_range] at hl
      rw [pair_sel L poly hpoly (fun i => 2 * c i) a l hl sel, mul_right_comm, ← sum_map_mul_left']
      refine sum_map_congr _ _ _ ?_
      intro t _
      rw [← sum_map_mul_left']
      refine sum_map_congr _ _ _ ?_
      intro i _
      by_cases h : t.2.getD i 0 = l
      · rw [if_pos h, if_pos h.symm, h]; ring
      · rw [if_neg h, if_neg (Ne.symm h), mul_zero]
    rw [sum_map_congr _ _ _ this, sum_map_comm]
    refine sum_map_congr _ _ _ ?_
    intro t ht
    rw [sum_map_comm, termDeriv, ← sum_map_mul_left']
    refine sum_map_congr _ _ _ ?_
    intro i hi
    rw [List.mem_range] at hi
    refine sum_range_delta _ _ _ ?_
    apply hpoly t ht
    rw [List.getD_eq_getElem?_getD, List.getElem?_eq_getElem hi]
    exact List.getElem_mem hi
  constructor
  · have h1 := key (AddMonoidHom.fst K K) a
    simp only [AddMonoidHom.coe_fst] at h1
    have h2 : ∀ l, S.1 l = (1 / 2) *
        ((((mkPot false (fun _ => false) some L fs poly (fun i => 2 * c i)).model).getD l []).map
        fun t => t.ce * (products (prodFeaturesMap poly) (computeFeaturesPair fs a) t.pfid *
        products (prodDerivMap fs) a t.pid)).sum := fun l => (sumPair_eq _ a l).1
    simp only [h2]
    rw [h1]
    refine sum_map_congr _ _ _ ?_
    intro t ht
    rw [termDeriv_self]
    have : (t.2.length : K) ≠ 0 := by
      rw [Nat.cast_ne_zero]
      exact fun h => hne t ht (List.length_eq_zero_iff.1 h)
    have h2' : (2 : K) ≠ 0 := two_ne_zero
    field_simp
  · intro w
    have h1 := key (AddMonoidHom.snd K K) w
    simp only [AddMonoidHom.coe_snd] at h1
    have h2 : ∀ l, S.2 l = (1 / 2) *
        ((((mkPot false (fun _ => false) some L fs poly (fun i => 2 * c i)).model).getD l []).map
        fun t => t.cf * (products (prodFeaturesMap poly) (computeFeaturesPair fs a) t.pfid *
        products (prodDerivMap fs) a t.pid)).sum := fun l => (sumPair_eq _ a l).2
    simp only [h2]
    rw [h1]
    refine sum_map_congr _ _ _ ?_
    intro t ht
    have h2' : (2 : K) ≠ 0 := two_ne_zero
    field_simp

/-! ## The design matrix -/

theorem termDeriv_one {K : Type} [Field K] (a w : ℕ → K) (i : ℕ) : termDeriv a w [i] = w i := by
  simp [termDeriv]

theorem termDeriv_two {K : Type} [Field K] (a w : ℕ → K) (i j : ℕ) :
    termDeriv a w [i, j] = a j * w i + a i * w j := by
  simp [termDeriv, List.range_succ]; ring

theorem termDeriv_three {K : Type} [Field K] (a w : ℕ → K) (i j k : ℕ) :
    termDeriv a w [i, j, k] = a j * a k * w i + a i * a k * w j + a i * a j * w k := by
  simp [termDeriv, List.range_succ]; ring

theorem sum_split_len {α M : Type} [AddCommMonoid M] (l : List α) (len : α → ℕ)
    (h : ∀ t ∈ l, len t = 1 ∨ len t = 2 ∨ len t = 3) (f : α → M) :
    ((l.filter fun t => len t = 1).map f).sum + ((l.filter fun t => len t = 2).map f).sum +
      ((l.filter fun t => len t = 3).map f).sum = (l.map f).sum := by
  rw [sum_filter, sum_filter, sum_filter, ← List.sum_map_add, ← List.sum_map_add]
  refine sum_map_congr _ _ _ ?_
  intro t ht
  rcases h t ht with h | h | h <;> simp [h]

theorem modelPolynomial_proj {M : Type} [AddCommMonoid M] (poly : List (ℕ × List ℕ))
    (hlen : ∀ t ∈ poly, t.2.length = 1 ∨ t.2.length = 2 ∨ t.2.length = 3) (s : XSum K)
    (d : PairDeriv K) (f : XSum K → M) (g : ℕ × List ℕ → M)
    (h1 : ∀ s k i, f (modelOrder1 s d (k, [i])) = f s + g (k, [i]))
    (h2 : ∀ s k i j, f (modelOrder2 s d (k, [i, j])) = f s + g (k, [i, j]))
    (h3 : ∀ s k i j l, f (modelOrder3 s d (k, [i, j, l])) = f s + g (k, [i, j, l])) :
    f (modelPolynomial poly s d) = f s + (poly.map g).sum := by
  unfold modelPolynomial
  simp only
  rw [foldl_proj (f := f) (g := g), foldl_proj (f := f) (g := g), foldl_proj (f := f) (g := g),
    add_assoc, add_assoc, ← sum_split_len poly (fun t => t.2.length) hlen g, add_assoc]
  · rintro s ⟨k, ids⟩ ht
    rw [List.mem_filter] at ht
    have hl : ids.length = 1 := by simpa using ht.2
    obtain ⟨i, rfl⟩ := List.length_eq_one_iff.1 hl
    exact h1 s k i
  · rintro s ⟨k, ids⟩ ht
    rw [List.mem_filter] at ht
    have hl : ids.length = 2 := by simpa using ht.2
    obtain ⟨i, j, rfl⟩ := List.length_eq_two.1 hl
    exact h2 s k i j
  · rintro s ⟨k, ids⟩ ht
    rw [List.mem_filter] at ht
    have hl : ids.length = 3 := by simpa using ht.2
    obtain ⟨i, j, l, rfl⟩ := List.length_eq_three.1 hl
    exact h3 s k i j l

theorem modelPolynomial_eq (poly : List (ℕ × List ℕ))
    (hlen : ∀ t ∈ poly, t.2.length = 1 ∨ t.2.length = 2 ∨ t.2.length = 3) (s : XSum K)
    (d : PairDeriv K) (k : ℕ) :
    (modelPolynomial poly s d).xe k =
      s.xe k + (poly.map fun t => if k = t.1 then (t.2.map d.dn).prod else 0).sum ∧
    (∀ q x, (modelPolynomial poly s d).xf k q x = s.xf k q x +
      (poly.map fun t => if k = t.1 then termDeriv d.dn (fun l => d.df l q x) t.2 else 0).sum) ∧
    (∀ c, (modelPolynomial poly s d).xs k c = s.xs k c +
      (poly.map fun t => if k = t.1 then termDeriv d.dn (fun l => d.ds l c) t.2 else 0).sum) := by
  refine ⟨?_, ?_, ?_⟩
  · refine modelPolynomial_proj poly hlen s d (fun s => s.xe k) _ ?_ ?_ ?_
    · intro s j a; simp [modelOrder1, addAt_apply]
    · intro s j a b; simp [modelOrder2, addAt_apply]
    · intro s j a b c; simp [modelOrder3, addAt_apply, mul_assoc]
  · intro q x
    refine modelPolynomial_proj poly hlen s d (fun s => s.xf k q x) _ ?_ ?_ ?_
    · intro s j a
      simp only [modelOrder1, addAt_apply, Pi.add_apply, termDeriv_one]
      split_ifs <;> simp
    · intro s j a b
      simp only [modelOrder2, addAt_apply, Pi.add_apply, termDeriv_two]
      split_ifs <;> simp
    · intro s j a b c
      simp only [modelOrder3, addAt_apply, Pi.add_apply, termDeriv_three]
      split_ifs <;> simp
  · intro q
    refine modelPolynomial_proj poly hlen s d (fun s => s.xs k q) _ ?_ ?_ ?_
    · intro s j a
      simp only [modelOrder1, addAt_apply, Pi.add_apply, termDeriv_one]
      split_ifs <;> simp
    · intro s j a b
      simp only [modelOrder2, addAt_apply, Pi.add_apply, termDeriv_two]
      split_ifs <;> simp
    · intro s j a b c
      simp only [modelOrder3, addAt_apply, Pi.add_apply, termDeriv_three]
      split_ifs <;> simp

end Verif.Mlp
