import Verif.Lemmas.SameCrystal
import Verif.Props.MlpEval
import Verif.Props.NeighborCell

/-!
# C123: two descriptions of one crystal
-/

namespace Verif.SameCrystal
open Verif Verif.Mlp
open Verif.Neighbor (Vec Csr r2 mkCsr neighborHalf neighborFull)

variable {K : Type} [Field K] [LinearOrder K]

/-! ## Rows -/

theorem termDeriv_sum {β : Type} (a : ℕ → K) (l : List β) (w : β → ℕ → K) (ids : List ℕ) :
    termDeriv a (fun k => (l.map fun b => w b k).sum) ids = (l.map fun b => termDeriv a (w b) ids).sum := by
  simp only [termDeriv_leib]
  exact leib_sum a l w ids

theorem termDeriv_mul (a w : ℕ → K) (c : K) (ids : List ℕ) :
    termDeriv a (fun k => c * w k) ids = c * termDeriv a w ids := by
  simp only [termDeriv_leib]
  exact leib_mul a w c ids

/-- The sum over the terms of a linear expression. -/
theorem terms_sum {β : Type} (poly : List (ℕ × List ℕ)) (k : ℕ) (a : ℕ → K) (l : List β) (c : β → K)
    (w : β → ℕ → K) :
    (poly.map fun t => if k = t.1 then termDeriv a (fun g => (l.map fun b => c b * w b g).sum) t.2 else 0).sum =
      (l.map fun b => c b * (poly.map fun t => if k = t.1 then termDeriv a (w b) t.2 else 0).sum).sum := by
  simp only [← sum_map_mul_left']
  rw [sum_map_comm]
  refine sum_map_congr _ _ _ fun t _ => ?_
  by_cases hk : k = t.1
  · simp only [if_pos hk]
    rw [termDeriv_sum]
    simp only [termDeriv_mul]
  · simp [if_neg hk]

section Rows
variable {n n' : ℕ} {types types' : ℕ → ℕ} {N N' : Csr (ℕ × Vec K)} {f : ℕ → ℕ} {m : ℕ}

theorem sgn_mul (q i j : ℕ) (x : K) :
    sgnAt q i j * x = (if q = i then x else 0) - (if q = j then x else 0) := by
  unfold sgnAt
  by_cases h1 : q = i <;> by_cases h2 : q = j <;> simp [h1, h2] <;> split_ifs <;> simp

/-- Columns of the design matrix given by the values and derivatives of the features of the atoms. -/
theorem columns_fold (h : Folds n n' types types' N.row N'.row f m)
    (poly : ℕ → List (ℕ × List ℕ)) (k : ℕ) (A A' : ℕ → ℕ → K) (D D' : Fin 3 → ℕ → ℕ × Vec K → ℕ → K)
    (hA : ∀ i < n', A' i = A (f i))
    (hD : ∀ x, ∀ i < n', ∀ e, e.1 < n' → D' x i e = D x (f i) (f e.1, e.2)) :
    (((List.range n').map fun i => ((poly (types' i)).map fun t =>
        if k = t.1 then (t.2.map (A' i)).prod else 0).sum).sum =
      m • ((List.range n).map fun i => ((poly (types i)).map fun t =>
        if k = t.1 then (t.2.map (A i)).prod else 0).sum).sum) ∧
    (∀ q < n', ∀ x, ((List.range n').map fun i => ((poly (types' i)).map fun t =>
        if k = t.1 then termDeriv (A' i) (fun g => ((N'.row i).map fun e => sgnAt q i e.1 * D' x i e g).sum) t.2
          else 0).sum).sum =
      ((List.range n).map fun i => ((poly (types i)).map fun t =>
        if k = t.1 then termDeriv (A i) (fun g => ((N.row i).map fun e => sgnAt (f q) i e.1 * D x i e g).sum) t.2
          else 0).sum).sum) ∧
    (∀ x y, ((List.range n').map fun i => ((poly (types' i)).map fun t =>
        if k = t.1 then termDeriv (A' i) (fun g => ((N'.row i).map fun e => -e.2 y * D' x i e g).sum) t.2
          else 0).sum).sum =
      m • ((List.range n).map fun i => ((poly (types i)).map fun t =>
        if k = t.1 then termDeriv (A i) (fun g => ((N.row i).map fun e => -e.2 y * D x i e g).sum) t.2
          else 0).sum).sum) := by
  refine ⟨?_, ?_, ?_⟩
  · exact h.sum _ _ fun i hi => by rw [hA i hi, h.types i hi]
  · intro q hq x
    have e1 : ∀ (ty : ℕ → ℕ) (B : ℕ → ℕ → K) (E : ℕ → ℕ × Vec K → ℕ → K) (M : Csr (ℕ × Vec K)) (q i : ℕ),
        ((poly (ty i)).map fun t => if k = t.1 then
          termDeriv (B i) (fun g => ((M.row i).map fun e => sgnAt q i e.1 * E i e g).sum) t.2 else 0).sum =
        ((M.row i).map fun e => (if q = i then ((poly (ty i)).map fun t =>
            if k = t.1 then termDeriv (B i) (E i e) t.2 else 0).sum else 0) -
          (if q = e.1 then ((poly (ty i)).map fun t =>
            if k = t.1 then termDeriv (B i) (E i e) t.2 else 0).sum else 0)).sum := by
      intro ty B E M q i
      rw [terms_sum]
      exact sum_map_congr _ _ _ fun e _ => sgn_mul _ _ _ _
    rw [sum_map_congr _ _ _ fun i _ => e1 types' A' (D' x) N' q i,
      sum_map_congr _ _ _ fun i _ => e1 types A (D x) N (f q) i]
    exact h.force (fun i e => ((poly (types i)).map fun t => if k = t.1 then termDeriv (A i) (D x i e) t.2 else 0).sum)
      (fun i e => ((poly (types' i)).map fun t => if k = t.1 then termDeriv (A' i) (D' x i e) t.2 else 0).sum)
      (fun i hi e he => by rw [hA i hi, h.types i hi, hD x i hi e he]) hq
  · intro x y
    refine h.sum _ _ fun i hi => ?_
    simp only [terms_sum]
    refine h.row hi (fun e => -e.2 y * ((poly (types (f i))).map fun t =>
      if k = t.1 then termDeriv (A (f i)) (D x (f i) e) t.2 else 0).sum) _ fun e he => ?_
    rw [hA i hi, h.types i hi, hD x i hi e (h.range i hi e he)]

/-! ## Polynomial invariants -/

theorem gt_parts (h : Folds n n' types types' N.row N'.row f m) (p : GtParams K) (sqrt : K → K) :
    (∀ i < n', arrM p sqrt types' i (N'.row i) = arrM p sqrt types (f i) (N.row (f i))) ∧
    (∀ i < n', FM p sqrt types' i (N'.row i) = FM p sqrt types (f i) (N.row (f i))) ∧
    (∀ x, ∀ i < n', ∀ e : ℕ × Vec K, e.1 < n' → DM p sqrt types' i (N'.row i) x e =
      DM p sqrt types (f i) (N.row (f i)) x (f e.1, e.2)) := by
  have htp : ∀ i < n', ∀ e : ℕ × Vec K, e.1 < n' → tpE p types' i e = tpE p types (f i) (f e.1, e.2) := by
    intro i hi e he
    unfold tpE
    rw [h.types i hi, h.types e.1 he]
  have hfn : ∀ i < n', ∀ e : ℕ × Vec K, e.1 < n' → fnE p sqrt types' i e = fnE p sqrt types (f i) (f e.1, e.2) := by
    intro i hi e he
    funext b
    unfold fnE
    rw [htp i hi e he]
  have hfd : ∀ i < n', ∀ e : ℕ × Vec K, e.1 < n' → fnDE p sqrt types' i e = fnDE p sqrt types (f i) (f e.1, e.2) := by
    intro i hi e he
    funext b
    unfold fnDE
    rw [htp i hi e he]
  have hact : ∀ i < n', ∀ e : ℕ × Vec K, e.1 < n' → ∀ b, ActE p sqrt types' i e b ↔
      ActE p sqrt types (f i) (f e.1, e.2) b := by
    intro i hi e he b
    unfold ActE
    rw [htp i hi e he, hfn i hi e he]
  have hW : ∀ i < n', ∀ e : ℕ × Vec K, e.1 < n' → gW p sqrt types' i e = gW p sqrt types (f i) (f e.1, e.2) := by
    intro i hi e he
    funext b
    unfold gW
    rw [hfn i hi e he]
    exact if_congr (hact i hi e he b) rfl rfl
  have hV : ∀ x, ∀ i < n', ∀ e : ℕ × Vec K, e.1 < n' → gV p sqrt types' x i e = gV p sqrt types x (f i) (f e.1, e.2) := by
    intro x i hi e he
    funext b
    unfold gV
    rw [hfn i hi e he, hfd i hi e he]
    exact if_congr (hact i hi e he b) rfl rfl
  have hM : ∀ i < n', arrM p sqrt types' i (N'.row i) = arrM p sqrt types (f i) (N.row (f i)) := by
    intro i hi
    funext k
    unfold arrM
    refine h.row hi (fun e => extK p (types (f i)) (atK p (types (f i)) (gW p sqrt types (f i) e)) k) _
      fun e he => ?_
    rw [h.types i hi, hW i hi e (h.range i hi e he)]
  refine ⟨hM, ?_, ?_⟩
  · intro i hi
    unfold FM
    rw [hM i hi, h.types i hi]
  · intro x i hi e he
    funext g
    unfold DM
    rw [hM i hi, h.types i hi, hV x i hi e he]

variable (p : GtParams K) (sqrt : K → K) (hcond : ∀ i j, (p.cond i j).Nodup)
  (htab : Spec.TableOK p.maxl p.lComb p.lmArray p.lmCoeffs)
include hcond htab

theorem gt_columns (h : Folds n n' types types' N.row N'.row f m)
    (hY : ∀ i < n, ∀ e ∈ N.row i, YOK p sqrt e.2) (hY' : ∀ i < n', ∀ e ∈ N'.row i, YOK p sqrt e.2) (k : ℕ) :
    (gtModelRun p sqrt types' n' N').xe k = m • (gtModelRun p sqrt types n N).xe k ∧
    (∀ q < n', ∀ x, (gtModelRun p sqrt types' n' N').xf k q x = (gtModelRun p sqrt types n N).xf k (f q) x) ∧
    ∀ c, (gtModelRun p sqrt types' n' N').xs k c = m • (gtModelRun p sqrt types n N).xs k c := by
  obtain ⟨a1, a2, a3⟩ := gtModelRun_terms p sqrt types hcond htab n N hY k
  obtain ⟨b1, b2, b3⟩ := gtModelRun_terms p sqrt types' hcond htab n' N' hY' k
  obtain ⟨-, hF, hD⟩ := gt_parts h p sqrt
  obtain ⟨c1, c2, c3⟩ := columns_fold h p.poly k (fun i => FM p sqrt types i (N.row i))
    (fun i => FM p sqrt types' i (N'.row i)) (fun x i e => DM p sqrt types i (N.row i) x e)
    (fun x i e => DM p sqrt types' i (N'.row i) x e) hF hD
  refine ⟨?_, ?_, ?_⟩
  · rw [a1, b1]; exact c1
  · intro q hq x
    rw [a2, b2]; exact c2 q hq x
  · intro c
    rw [a3, b3]; exact c3 _ _

end Rows

/-! ## Pairs -/

section Pair
variable {n n' : ℕ} {types types' : ℕ → ℕ} {N N' : Csr (ℕ × Vec K)} {f : ℕ → ℕ} {m : ℕ}

/-- The contribution of one entry to a local feature. -/
def respOne (p : PairParams K) (sqrt : K → K) (types : ℕ → ℕ) (i : ℕ) (e : ℕ × Vec K) (w : ℕ → K) (l : ℕ) : K :=
  if p.cutoff ≤ disOf sqrt e.2 then 0
  else ((p.attrs (types i)).map fun a =>
    if p.maps.typePairs (types i) (types e.1) = a.tp then (if l = a.iloc then w a.nId else 0) else 0).sum

theorem resp_one (p : PairParams K) (sqrt : K → K) (types : ℕ → ℕ) (i : ℕ) (row : List (ℕ × Vec K))
    (ρ : ℕ × Vec K → ℕ → K) (l : ℕ) :
    resp p sqrt types i row ρ l = (row.map fun e => respOne p sqrt types i e (ρ e) l).sum := rfl

theorem respOne_mul (p : PairParams K) (sqrt : K → K) (types : ℕ → ℕ) (i : ℕ) (e : ℕ × Vec K) (c : K)
    (w : ℕ → K) (l : ℕ) :
    respOne p sqrt types i e (fun k => c * w k) l = c * respOne p sqrt types i e w l := by
  unfold respOne
  split_ifs
  · simp
  · rw [← sum_map_mul_left']
    refine sum_map_congr _ _ _ fun a _ => ?_
    split_ifs <;> simp

theorem pair_parts (h : Folds n n' types types' N.row N'.row f m) (p : PairParams K) (sqrt : K → K) :
    (∀ i < n', resp p sqrt types' i (N'.row i) (wE p sqrt types' i) =
      resp p sqrt types (f i) (N.row (f i)) (wE p sqrt types (f i))) ∧
    (∀ x : Fin 3, ∀ i < n', ∀ e : ℕ × Vec K, e.1 < n' →
      respOne p sqrt types' i e (fun k => wV p sqrt types' i e k x) =
      respOne p sqrt types (f i) (f e.1, e.2) (fun k => wV p sqrt types (f i) (f e.1, e.2) k x)) := by
  have h1 : ∀ i < n', ∀ e : ℕ × Vec K, e.1 < n' → ∀ w, respOne p sqrt types' i e w =
      respOne p sqrt types (f i) (f e.1, e.2) w := by
    intro i hi e he w
    funext l
    unfold respOne
    rw [h.types i hi, h.types e.1 he]
  refine ⟨?_, ?_⟩
  · intro i hi
    funext l
    simp only [resp_one]
    refine h.row hi (fun e => respOne p sqrt types (f i) e (wE p sqrt types (f i) e) l) _ fun e he => ?_
    have he1 := h.range i hi e he
    rw [h1 i hi e he1]
    congr 1
    funext k
    unfold wE
    rw [h.types i hi, h.types e.1 he1]
  · intro x i hi e he
    rw [h1 i hi e he]
    congr 1
    funext k
    unfold wV
    rw [h.types i hi, h.types e.1 he]

theorem pair_columns (p : PairParams K) (sqrt : K → K) (h : Folds n n' types types' N.row N'.row f m) (k : ℕ) :
    (modelRun p sqrt types' n' N').xe k = m • (modelRun p sqrt types n N).xe k ∧
    (∀ q < n', ∀ x, (modelRun p sqrt types' n' N').xf k q x = (modelRun p sqrt types n N).xf k (f q) x) ∧
    ∀ c, (modelRun p sqrt types' n' N').xs k c = m • (modelRun p sqrt types n N).xs k c := by
  obtain ⟨a1, a2, a3⟩ := modelRun_terms p sqrt types n N k
  obtain ⟨b1, b2, b3⟩ := modelRun_terms p sqrt types' n' N' k
  obtain ⟨hF, hD⟩ := pair_parts h p sqrt
  obtain ⟨c1, c2, c3⟩ := columns_fold h p.poly k (fun i => resp p sqrt types i (N.row i) (wE p sqrt types i))
    (fun i => resp p sqrt types' i (N'.row i) (wE p sqrt types' i))
    (fun x i e => respOne p sqrt types i e (fun k => wV p sqrt types i e k x))
    (fun x i e => respOne p sqrt types' i e (fun k => wV p sqrt types' i e k x)) hF hD
  have hf : ∀ (types : ℕ → ℕ) (N : Csr (ℕ × Vec K)) (q : ℕ) (x : Fin 3) (i : ℕ),
      resp p sqrt types i (N.row i) (wF p sqrt types q x i) = fun g => ((N.row i).map fun e =>
        sgnAt q i e.1 * respOne p sqrt types i e (fun k => wV p sqrt types i e k x) g).sum := by
    intro types N q x i
    funext g
    rw [resp_one]
    refine sum_map_congr _ _ _ fun e _ => ?_
    rw [← respOne_mul]
    congr 1
    funext k
    rw [sgn_mul]
    unfold wF
    by_cases h1 : q = i <;> by_cases h2 : q = e.1 <;> simp [h1, h2] <;> split_ifs <;> simp
  have hs : ∀ c : Fin 6, ∃ x y : Fin 3, ∀ (types : ℕ → ℕ) (N : Csr (ℕ × Vec K)) (i : ℕ),
      resp p sqrt types i (N.row i) (wS p sqrt types c i) = fun g => ((N.row i).map fun e =>
        -e.2 y * respOne p sqrt types i e (fun k => wV p sqrt types i e k x) g).sum := by
    have key : ∀ (c : Fin 6) (x y : Fin 3), (∀ u v : Vec K, six u v c = u x * v y) →
        ∀ (types : ℕ → ℕ) (N : Csr (ℕ × Vec K)) (i : ℕ),
        resp p sqrt types i (N.row i) (wS p sqrt types c i) = fun g => ((N.row i).map fun e =>
          -e.2 y * respOne p sqrt types i e (fun k => wV p sqrt types i e k x) g).sum := by
      intro c x y hc types N i
      funext g
      rw [resp_one]
      refine sum_map_congr _ _ _ fun e _ => ?_
      rw [← respOne_mul]
      congr 1
      funext k
      unfold wS
      rw [hc]
      ring
    intro c
    fin_cases c
    · exact ⟨0, 0, key _ _ _ fun u v => rfl⟩
    · exact ⟨1, 1, key _ _ _ fun u v => rfl⟩
    · exact ⟨2, 2, key _ _ _ fun u v => rfl⟩
    · exact ⟨0, 1, key _ _ _ fun u v => rfl⟩
    · exact ⟨1, 2, key _ _ _ fun u v => rfl⟩
    · exact ⟨2, 0, key _ _ _ fun u v => rfl⟩
  refine ⟨?_, ?_, ?_⟩
  · rw [a1, b1]; exact c1
  · intro q hq x
    rw [a2, b2]
    simp only [hf]
    exact c2 q hq x
  · intro c
    obtain ⟨x, y, hxy⟩ := hs c
    rw [a3, b3]
    simp only [hxy]
    exact c3 x y

end Pair

end Verif.SameCrystal
