import Verif.Lemmas.TurnCell
import Verif.Props.SameCrystalEval

/-!
# C124: structures that are turned
-/

namespace Verif.Turned
open Verif Verif.Mlp Verif.SameCrystal
open Verif.Neighbor (Vec Csr r2 neighborHalf neighborFull Mat cellTrans cellPos fullRow)
open Matrix

/-! ## Columns -/

/-- The sum over the terms of a model. -/
noncomputable def col (poly : ℕ → List (ℕ × List ℕ)) (types : ℕ → ℕ) (n k : ℕ) (A : ℕ → ℕ → ℝ) (W : ℕ → ℕ → ℝ) : ℝ :=
  ((List.range n).map fun i => ((poly (types i)).map fun t =>
    if k = t.1 then termDeriv (A i) (W i) t.2 else 0).sum).sum

theorem col_congr (poly : ℕ → List (ℕ × List ℕ)) (types : ℕ → ℕ) (n k : ℕ) {A A' W W' : ℕ → ℕ → ℝ}
    (hA : ∀ i < n, A' i = A i) (hW : ∀ i < n, W' i = W i) :
    col poly types n k A' W' = col poly types n k A W :=
  sum_map_congr _ _ _ fun i hi => by
    rw [List.mem_range] at hi
    rw [hA i hi, hW i hi]

theorem col_sum {β : Type} (poly : ℕ → List (ℕ × List ℕ)) (types : ℕ → ℕ) (n k : ℕ) (A : ℕ → ℕ → ℝ)
    (l : List β) (c : β → ℝ) (W : β → ℕ → ℕ → ℝ) :
    col poly types n k A (fun i g => (l.map fun b => c b * W b i g).sum) =
      (l.map fun b => c b * col poly types n k A (W b)).sum := by
  unfold col
  simp only [terms_sum, ← sum_map_mul_left']
  rw [sum_map_comm]

/-- All pairs of directions. -/
def nine : List (Fin 3 × Fin 3) := [(0, 0), (0, 1), (0, 2), (1, 0), (1, 1), (1, 2), (2, 0), (2, 1), (2, 2)]

theorem tensor_of (s : Fin 6 → ℝ) (T : Mat) (hs : ∀ c, s c = T (sixL c).1 (sixL c).2)
    (hT : ∀ x y, T x y = T y x) : Spec.tensor6 s = T := by
  ext x y
  have h0 := hs 0; have h1 := hs 1; have h2 := hs 2; have h3 := hs 3; have h4 := hs 4; have h5 := hs 5
  simp only [sixL, Matrix.cons_val] at h0 h1 h2 h3 h4 h5
  unfold Spec.tensor6
  rw [h0, h1, h2, h3, h4, h5]
  fin_cases x <;> fin_cases y <;> simp [hT 1 0, hT 2 1, hT 0 2]

theorem columns_turn (M : Mat) (poly : ℕ → List (ℕ × List ℕ)) (types : ℕ → ℕ) (n k : ℕ) (A A' : ℕ → ℕ → ℝ)
    (F F' : ℕ → Fin 3 → ℕ → ℕ → ℝ) (S S' : Fin 3 → Fin 3 → ℕ → ℕ → ℝ) (hA : ∀ i < n, A' i = A i)
    (hF : ∀ q < n, ∀ x, ∀ i < n, ∀ g, F' q x i g = ([0, 1, 2].map fun y => M x y * F q y i g).sum)
    (hS : ∀ x y, ∀ i < n, ∀ g, S' x y i g = (nine.map fun b => M x b.1 * M y b.2 * S b.1 b.2 i g).sum)
    (hT : ∀ x y, ∀ i < n, ∀ g, S x y i g = S y x i g) (hT' : ∀ x y, ∀ i < n, ∀ g, S' x y i g = S' y x i g)
    (e e' : ℝ) (f f' : ℕ → Fin 3 → ℝ) (s s' : Fin 6 → ℝ) (he : e' = e)
    (hf : ∀ q x, f q x = col poly types n k A (F q x)) (hf' : ∀ q x, f' q x = col poly types n k A' (F' q x))
    (hs : ∀ c, s c = col poly types n k A (S (sixL c).1 (sixL c).2))
    (hs' : ∀ c, s' c = col poly types n k A' (S' (sixL c).1 (sixL c).2)) :
    Spec.TurnedProps n M e e' f f' s s' := by
  refine ⟨he, fun q hq => funext fun x => ?_, ?_⟩
  · rw [hf', col_congr poly types n k (A := A) (W := fun i g => ([0, 1, 2].map fun y => M x y * F q y i g).sum) hA
      fun i hi => funext fun g => hF q hq x i hi g, col_sum]
    simp [Matrix.mulVec, dotProduct, Fin.sum_univ_three, hf]
    ring
  · obtain ⟨Tm, hx⟩ : ∃ Tm : Mat, ∀ x y, Tm x y = col poly types n k A (S x y) :=
      ⟨Matrix.of fun x y => col poly types n k A (S x y), fun _ _ => rfl⟩
    obtain ⟨Tm', hx'⟩ : ∃ Tm : Mat, ∀ x y, Tm x y = col poly types n k A' (S' x y) :=
      ⟨Matrix.of fun x y => col poly types n k A' (S' x y), fun _ _ => rfl⟩
    rw [tensor_of s Tm (fun c => (hs c).trans (hx _ _).symm) fun x y => by
        rw [hx, hx]
        exact col_congr _ _ _ _ (fun _ _ => rfl) fun i hi => funext fun g => hT x y i hi g,
      tensor_of s' Tm' (fun c => (hs' c).trans (hx' _ _).symm) fun x y => by
        rw [hx', hx']
        exact col_congr _ _ _ _ (fun _ _ => rfl) fun i hi => funext fun g => hT' x y i hi g]
    ext x y
    rw [hx', col_congr poly types n k (A := A) (W := fun i g => (nine.map fun b => M x b.1 * M y b.2 *
      S b.1 b.2 i g).sum) hA fun i hi => funext fun g => hS x y i hi g]
    rw [col_sum poly types n k A nine (fun b => M x b.1 * M y b.2) fun b => S b.1 b.2]
    simp only [hx, Matrix.mul_apply, Fin.sum_univ_three, nine, Matrix.transpose_apply, List.map_cons, List.map_nil,
      List.sum_cons, List.sum_nil]
    ring

/-- Properties that are linear combinations of columns. -/
theorem turned_lin (M : Mat) (n : ℕ) (l : List ℕ) (c : ℕ → ℝ) (e e' : ℕ → ℝ) (f f' : ℕ → ℕ → Fin 3 → ℝ)
    (s s' : ℕ → Fin 6 → ℝ) (h : ∀ k, Spec.TurnedProps n M (e k) (e' k) (f k) (f' k) (s k) (s' k))
    (E E' : ℝ) (F F' : ℕ → Fin 3 → ℝ) (S S' : Fin 6 → ℝ)
    (hE : E = (l.map fun k => c k * e k).sum) (hE' : E' = (l.map fun k => c k * e' k).sum)
    (hF : ∀ q x, F q x = (l.map fun k => c k * f k q x).sum)
    (hF' : ∀ q x, F' q x = (l.map fun k => c k * f' k q x).sum)
    (hS : ∀ x, S x = (l.map fun k => c k * s k x).sum)
    (hS' : ∀ x, S' x = (l.map fun k => c k * s' k x).sum) : Spec.TurnedProps n M E E' F F' S S' := by
  have ht : ∀ (S : Fin 6 → ℝ) (s : ℕ → Fin 6 → ℝ), (∀ x, S x = (l.map fun k => c k * s k x).sum) →
      ∀ x y, Spec.tensor6 S x y = (l.map fun k => c k * Spec.tensor6 (s k) x y).sum := by
    intro S s hS x y
    unfold Spec.tensor6
    fin_cases x <;> fin_cases y <;> simp [hS]
  refine ⟨?_, fun q hq => funext fun x => ?_, ?_⟩
  · rw [hE, hE']
    exact sum_map_congr _ _ _ fun k _ => by rw [(h k).energy]
  · rw [hF', sum_map_congr _ _ _ fun k _ => by rw [(h k).forces q hq]]
    simp only [Matrix.mulVec, dotProduct, Fin.sum_univ_three, hF, ← sum_map_mul_left', ← List.sum_map_add]
    exact sum_map_congr _ _ _ fun k _ => by ring
  · ext x y
    rw [ht S' s' hS', sum_map_congr _ _ _ fun k _ => by rw [(h k).stress]]
    simp only [Matrix.mul_apply, Fin.sum_univ_three, ht S s hS, ← sum_map_mul_left', ← List.sum_map_mul_right,
      ← List.sum_map_add]
    exact sum_map_congr _ _ _ fun k _ => by ring

/-! ## Pairs -/

section Pair
variable {M : Mat} (hM : Spec.Orthogonal3 M) (p : PairParams ℝ) (sqrt : ℝ → ℝ) (types : ℕ → ℕ) (n : ℕ)
  {N N' : Csr (ℕ × Vec ℝ)} (hN : ∀ i < n, N'.row i = (N.row i).map fun e => (e.1, M *ᵥ e.2))
include hM hN

theorem pair_turn (k : ℕ) :
    Spec.TurnedProps n M ((modelRun p sqrt types n N).xe k) ((modelRun p sqrt types n N').xe k)
      ((modelRun p sqrt types n N).xf k) ((modelRun p sqrt types n N').xf k)
      ((modelRun p sqrt types n N).xs k) ((modelRun p sqrt types n N').xs k) := by
  obtain ⟨a1, a2, a3⟩ := modelRun_terms p sqrt types n N k
  obtain ⟨b1, b2, b3⟩ := modelRun_terms p sqrt types n N' k
  have hdis : ∀ d : Vec ℝ, disOf sqrt (M *ᵥ d) = disOf sqrt d := fun d => by unfold disOf; rw [r2_mul hM]
  have hone : ∀ (i : ℕ) (e : ℕ × Vec ℝ) (w : ℕ → ℝ) (l : ℕ), respOne p sqrt types i (e.1, M *ᵥ e.2) w l =
      respOne p sqrt types i e w l := by
    intro i e w l
    unfold respOne
    simp only [hdis]
  -- the common factor of the derivatives
  let C : ℕ → ℕ × Vec ℝ → ℕ → ℝ := fun i e => respOne p sqrt types i e fun k =>
    fnAt p.radD (p.maps.tpN.getD (p.maps.typePairs (types i) (types e.1)) []) (disOf sqrt e.2) k / disOf sqrt e.2
  have hC : ∀ i e g, C i (e.1, M *ᵥ e.2) g = C i e g := by
    intro i e g
    show respOne p sqrt types i (e.1, M *ᵥ e.2) _ g = _
    rw [hone]
    simp only [hdis]
    rfl
  have hV : ∀ i e x g, respOne p sqrt types i e (fun k => wV p sqrt types i e k x) g = e.2 x * C i e g := by
    intro i e x g
    rw [← respOne_mul]
    congr 1
    funext k
    unfold wV
    ring
  have hf : ∀ (N : Csr (ℕ × Vec ℝ)) (q : ℕ) (x : Fin 3) (i : ℕ),
      resp p sqrt types i (N.row i) (wF p sqrt types q x i) = fun g => ((N.row i).map fun e =>
        sgnAt q i e.1 * (e.2 x * C i e g)).sum := by
    intro N q x i
    funext g
    rw [resp_one]
    refine sum_map_congr _ _ _ fun e _ => ?_
    rw [← hV, ← respOne_mul]
    congr 1
    funext k
    rw [sgn_mul]
    unfold wF
    by_cases h1 : q = i <;> by_cases h2 : q = e.1 <;> simp [h1, h2] <;> split_ifs <;> simp
  have hs : ∀ (N : Csr (ℕ × Vec ℝ)) (c : Fin 6) (i : ℕ),
      resp p sqrt types i (N.row i) (wS p sqrt types c i) = fun g => ((N.row i).map fun e =>
        -e.2 (sixL c).2 * (e.2 (sixL c).1 * C i e g)).sum := by
    intro N c i
    funext g
    rw [resp_one]
    refine sum_map_congr _ _ _ fun e _ => ?_
    rw [← hV, ← respOne_mul]
    congr 1
    funext k
    unfold wS
    rw [six_eq]
    ring
  have hE : ∀ i < n, resp p sqrt types i (N'.row i) (wE p sqrt types i) =
      resp p sqrt types i (N.row i) (wE p sqrt types i) := by
    intro i hi
    funext l
    rw [resp_one, resp_one, hN i hi, List.map_map]
    refine sum_map_congr _ _ _ fun e _ => ?_
    show respOne p sqrt types i (e.1, M *ᵥ e.2) _ l = _
    rw [hone]
    congr 1
    funext k
    unfold wE
    simp only [hdis]
  refine columns_turn M p.poly types n k (fun i => resp p sqrt types i (N.row i) (wE p sqrt types i))
    (fun i => resp p sqrt types i (N'.row i) (wE p sqrt types i))
    (fun q x i g => ((N.row i).map fun e => sgnAt q i e.1 * (e.2 x * C i e g)).sum)
    (fun q x i g => ((N'.row i).map fun e => sgnAt q i e.1 * (e.2 x * C i e g)).sum)
    (fun x y i g => ((N.row i).map fun e => -e.2 y * (e.2 x * C i e g)).sum)
    (fun x y i g => ((N'.row i).map fun e => -e.2 y * (e.2 x * C i e g)).sum) hE ?_ ?_ ?_ ?_ _ _ _ _ _ _ ?_
    ?_ ?_ ?_ ?_
  · intro q _ x i hi g
    rw [hN i hi, List.map_map]
    simp only [← sum_map_mul_left', List.map_cons, List.map_nil, List.sum_cons, List.sum_nil, add_zero,
      ← List.sum_map_add]
    refine sum_map_congr _ _ _ fun e _ => ?_
    simp only [Function.comp, hC, Matrix.mulVec, dotProduct, Fin.sum_univ_three]
    ring
  · intro x y i hi g
    rw [hN i hi, List.map_map]
    simp only [nine, ← sum_map_mul_left', List.map_cons, List.map_nil, List.sum_cons, List.sum_nil, add_zero,
      ← List.sum_map_add]
    refine sum_map_congr _ _ _ fun e _ => ?_
    simp only [Function.comp, hC, Matrix.mulVec, dotProduct, Fin.sum_univ_three]
    ring
  · intro x y i _ g
    exact sum_map_congr _ _ _ fun e _ => by ring
  · intro x y i _ g
    exact sum_map_congr _ _ _ fun e _ => by ring
  · rw [a1, b1]
    refine sum_map_congr _ _ _ fun i hi => ?_
    rw [List.mem_range] at hi
    rw [hE i hi]
  · intro q x
    rw [a2]
    simp only [hf]
    rfl
  · intro q x
    rw [b2]
    simp only [hf]
    rfl
  · intro c
    rw [a3]
    simp only [hs]
    rfl
  · intro c
    rw [b3]
    simp only [hs]
    rfl

end Pair

theorem fullList_turn {M : Mat} (hM : Spec.Orthogonal3 M) (a : Mat) (ha : a.det ≠ 0) (cutoff tol : ℝ)
    (pos : ℕ → Vec ℝ) (n i : ℕ) (hi : i < n) :
    (fullList (M * a) cutoff tol (fun j => M *ᵥ pos j) n).row i =
      ((fullList a cutoff tol pos n).row i).map fun e => (e.1, M *ᵥ e.2) := by
  unfold fullList
  rw [cellTrans_mul hM]
  simp only [cellPos_mul hM a ha]
  exact full_turn hM cutoff tol _ _ n i hi

/-- **C124.**  Design matrix of a pair model: the columns of a structure that is turned or mirrored. -/
theorem C124_pair_columns {M : Mat} (hM : Spec.Orthogonal3 M) (a : Mat) (ha : a.det ≠ 0) (p : PairParams ℝ)
    (sqrt : ℝ → ℝ) (types : ℕ → ℕ) (n : ℕ) (cutoff tol : ℝ) (pos : ℕ → Vec ℝ) (k : ℕ) :
    let X := modelRun p sqrt types n (fullList a cutoff tol pos n)
    let X' := modelRun p sqrt types n (fullList (M * a) cutoff tol (fun j => M *ᵥ pos j) n)
    Spec.TurnedProps n M (X.xe k) (X'.xe k) (X.xf k) (X'.xf k) (X.xs k) (X'.xs k) :=
  pair_turn hM p sqrt types n (fun i hi => fullList_turn hM a ha cutoff tol pos n i hi) k

theorem lattice_turn {M : Mat} (hM : Spec.Orthogonal3 M) {a : Mat} {tol : ℝ}
    (hL : Spec.LongTranslations (Spec.lattice a) tol) : Spec.LongTranslations (Spec.lattice (M * a)) tol := by
  intro t ht
  rw [Neighbor.mem_lattice] at ht
  obtain ⟨v, rfl⟩ := ht
  have := hL (a *ᵥ Neighbor.castV v) ((Neighbor.mem_lattice a _).2 ⟨v, rfl⟩)
  rw [← mulVec_mulVec]
  rcases this with h | h
  · left; rw [h, mulVec_zero]
  · right; exact h.trans_eq (r2_mul hM _).symm

/-- **C124.**  Energy, forces and stress of a potential with pair features. -/
theorem C124_pair_properties {M : Mat} (hM : Spec.Orthogonal3 M) (a : Mat) (ha : a.det ≠ 0) (p : PairParams ℝ)
    (sqrt : ℝ → ℝ) (types : ℕ → ℕ) (n : ℕ) (htypes : ∀ i < n, types i < p.nType) (c : ℕ → ℝ) (cutoff tol : ℝ)
    (ht : 0 < tol) (hL : Spec.LongTranslations (Spec.lattice a) tol) (pos : ℕ → Vec ℝ) :
    let R := evalPair p sqrt (p.pot c) types n (halfList a cutoff tol pos n)
    let R' := evalPair p sqrt (p.pot c) types n (halfList (M * a) cutoff tol (fun j => M *ᵥ pos j) n)
    Spec.TurnedProps n M R.energy R'.energy R.forces R'.forces R.stress R'.stress := by
  intro R R'
  obtain ⟨e1, e2, e3⟩ := C28_fast_equals_linear p sqrt types n htypes c cutoff tol ht (cellTrans a cutoff)
    (fun j => cellPos a (pos j)) (Neighbor.C22_cell_neg a cutoff) (tol_cell ht hL)
  obtain ⟨g1, g2, g3⟩ := C28_fast_equals_linear p sqrt types n htypes c cutoff tol ht (cellTrans (M * a) cutoff)
    (fun j => cellPos (M * a) (M *ᵥ pos j)) (Neighbor.C22_cell_neg (M * a) cutoff)
    (tol_cell ht (lattice_turn hM hL))
  exact turned_lin M n (List.range (nVariables p.params)) c _ _ _ _ _ _
    (fun k => C124_pair_columns hM a ha p sqrt types n cutoff tol pos k) _ _ _ _ _ _ e1 g1 e2 g2 e3 g3

end Verif.Turned
